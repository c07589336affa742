import Verif.Spec.LegacyConvert
import Verif.Props.Print
import Verif.Lemmas.Register
import Mathlib.Data.List.Perm.Basic
import Mathlib.Data.List.TakeWhile
import Mathlib.Tactic.Tauto
import Mathlib.Tactic.SplitIfs

/-! # C88: qrexec-legacy-convert -/
namespace Qrexec
open Spec

/-! ### The disk -/

theorem conv_get_remove (d : ConvDisk) (p q : ConvPath) :
    (d.remove p).get q = if q = p then none else d.get q := by
  induction d with
  | nil => simp [ConvDisk.remove, ConvDisk.get]
  | cons e es ih =>
    obtain ⟨k, v⟩ := e
    unfold ConvDisk.remove at ih ⊢
    rw [List.filter_cons]
    by_cases hk : k = p
    · subst hk
      rw [if_neg (by simp), ih]
      by_cases hq : q = k
      · simp [hq]
      · rw [if_neg hq, if_neg hq, ConvDisk.get, if_neg (fun h => hq h.symm)]
    · rw [if_pos (by simpa using hk)]
      rw [ConvDisk.get, ConvDisk.get]
      by_cases hq : k = q
      · subst hq
        rw [if_pos rfl, if_pos rfl, if_neg hk]
      · rw [if_neg hq, if_neg hq, ih]

theorem conv_get_set (d : ConvDisk) (p q : ConvPath) (t : Str) :
    (d.set p t).get q = if q = p then some t else d.get q := by
  unfold ConvDisk.set
  rw [ConvDisk.get]
  by_cases h : p = q
  · rw [if_pos h, if_pos h.symm]
  · rw [if_neg h, if_neg (fun e => h e.symm), conv_get_remove, if_neg (fun e => h e.symm)]

theorem conv_mem_of_get {d : ConvDisk} {p : ConvPath} (h : (d.get p).isSome = true) : p ∈ d.map Prod.fst := by
  induction d with
  | nil => simp [ConvDisk.get] at h
  | cons e es ih =>
    obtain ⟨k, v⟩ := e
    rw [ConvDisk.get] at h
    by_cases hk : k = p
    · simp [hk]
    · rw [if_neg hk] at h
      exact List.mem_cons_of_mem _ (ih h)

/-- `name` with `k` copies of the suffix. -/
def suffixed (name suffix : Str) (k : Nat) : Str := name ++ (List.replicate k suffix).flatten

theorem suffixed_succ (name suffix : Str) (k : Nat) : suffixed (name ++ suffix) suffix k = suffixed name suffix (k + 1) := by
  simp [suffixed, List.replicate_succ]

theorem suffixed_length (name suffix : Str) (k : Nat) : (suffixed name suffix k).length = name.length + k * suffix.length := by
  induction k generalizing name with
  | zero => simp [suffixed]
  | succ k ih =>
    rw [← suffixed_succ, ih, List.length_append, Nat.succ_mul]
    omega

/-- The loop stops at a free name, or used up its fuel on taken ones. -/
theorem freshName_spec (d : ConvDisk) (dir : ConvDir) (suffix : Str) : ∀ (n : Nat) (name : Str),
    ∃ k, freshName d dir suffix n name = suffixed name suffix k ∧ k ≤ n ∧
      (d.get (dir, suffixed name suffix k) = none ∨ k = n ∧ ∀ j < n, (d.get (dir, suffixed name suffix j)).isSome = true) := by
  intro n
  induction n with
  | zero => intro name; exact ⟨0, by simp [freshName, suffixed], Nat.le_refl _, .inr ⟨rfl, by simp⟩⟩
  | succ n ih =>
    intro name
    rw [freshName]
    by_cases h : (d.get (dir, name)).isSome = true
    · rw [if_pos h]
      obtain ⟨k, h1, h2, h3⟩ := ih (name ++ suffix)
      refine ⟨k + 1, by rw [h1, suffixed_succ], by omega, ?_⟩
      rcases h3 with h3 | ⟨h3, h4⟩
      · left; rw [← suffixed_succ]; exact h3
      · refine .inr ⟨by omega, fun j hj => ?_⟩
        cases j with
        | zero => simpa [suffixed] using h
        | succ j => rw [← suffixed_succ]; exact h4 j (by omega)
    · rw [if_neg h]
      refine ⟨0, by simp [suffixed], by omega, .inl ?_⟩
      simpa [suffixed] using h

/-- A backup name is free. -/
theorem freshName_fresh (d : ConvDisk) (dir : ConvDir) (suffix name : Str) (hs : suffix ≠ []) :
    d.get (dir, freshName d dir suffix d.length name) = none := by
  obtain ⟨k, h1, _, h3⟩ := freshName_spec d dir suffix d.length name
  rw [h1]
  rcases h3 with h3 | ⟨h3, h4⟩
  · exact h3
  · subst h3
    by_contra hc
    have hall : ∀ j ∈ List.range (d.length + 1), (dir, suffixed name suffix j) ∈ d.map Prod.fst := by
      intro j hj
      rw [List.mem_range] at hj
      apply conv_mem_of_get
      by_cases hj' : j = d.length
      · rw [hj', Option.isSome_iff_ne_none]; exact hc
      · exact h4 j (by omega)
    have hnd : ((List.range (d.length + 1)).map fun j => (dir, suffixed name suffix j)).Nodup := by
      refine List.pairwise_map.2 (List.nodup_range.imp ?_)
      intro a b hne hab
      refine hne ?_
      have := congrArg (fun p : ConvPath => p.2.length) hab
      simp only [suffixed_length] at this
      have hl : 0 < suffix.length := List.length_pos_iff.2 hs
      exact Nat.eq_of_mul_eq_mul_right hl (by omega)
    have hsub : ((List.range (d.length + 1)).map fun j => (dir, suffixed name suffix j)) ⊆ d.map Prod.fst := by
      intro x hx
      obtain ⟨j, hj, rfl⟩ := List.mem_map.1 hx
      exact hall j hj
    have := (List.subperm_of_subset hnd hsub).length_le
    rw [List.length_map, List.length_map, List.length_range] at this
    exact Nat.not_succ_le_self _ this

theorem backupName_fresh (d : ConvDisk) (dir : ConvDir) (suffix name : Str) (hs : suffix ≠ []) :
    d.get (dir, backupName d dir suffix name) = none := freshName_fresh d dir suffix _ hs

theorem backupName_form (d : ConvDisk) (dir : ConvDir) (suffix name : Str) :
    ∃ k, backupName d dir suffix name = name ++ (List.replicate (k + 1) suffix).flatten := by
  obtain ⟨k, h1, _, _⟩ := freshName_spec d dir suffix d.length (name ++ suffix)
  exact ⟨k, by rw [backupName, h1, suffixed_succ]; rfl⟩

theorem backupOf_save (d : ConvDisk) (name : Str) : BackupOf (.new, name) (.new, backupName d .new c!".bak" name) := by
  obtain ⟨k, hk⟩ := backupName_form d .new c!".bak" name
  rw [hk]; exact .bak name k

theorem backupOf_rename (d : ConvDisk) (name : Str) : BackupOf (.old, name) (.old, backupName d .old c!".rpmsave" name) := by
  obtain ⟨k, hk⟩ := backupName_form d .old c!".rpmsave" name
  rw [hk]; exact .rpmsave name k

theorem endsWith_false_iff {x s : Str} : endsWith x s = false ↔ ¬ ∃ n, s = n ++ x := by
  rw [← Bool.not_eq_true, endsWith, List.isSuffixOf_iff_suffix]
  constructor
  · rintro h ⟨n, hn⟩; exact h ⟨n, hn.symm⟩
  · rintro h ⟨n, hn⟩; exact h ⟨n, hn.symm⟩

theorem backup_not_plain {p b : ConvPath} (h : BackupOf p b) : ¬ Converted b := by
  have key : ∀ (name suffix : Str) (k : Nat),
      ∃ n, name ++ (List.replicate (k + 1) suffix).flatten = n ++ suffix := by
    intro name suffix k
    rw [List.replicate_succ', List.flatten_append]
    exact ⟨name ++ (List.replicate k suffix).flatten, by simp⟩
  cases h with
  | bak name k =>
    obtain ⟨n, hn⟩ := key name c!".bak" k
    rintro (⟨_, h⟩ | ⟨h, _⟩)
    · dsimp only at h
      rw [hn] at h
      have hall : ∀ x ∈ [c!"30-user.policy", c!"50-config-clipboard.policy", c!"50-config-filecopy.policy",
          c!"50-config-updates.policy", c!"50-config-openinvm.policy", c!"50-config-openurl.policy",
          c!"50-config-input.policy", c!"50-config-u2f.policy"], x.getLast? = some 'y' := by decide
      have := hall _ h
      simp at this
    · cases h
  | rpmsave name k =>
    rintro (⟨h, _⟩ | ⟨_, h⟩)
    · cases h
    · exact h (key name c!".rpmsave" k)

/-! ### The invariant -/

/-- The state during the conversion: `done` are the files already processed, `backups` what was recorded. -/
structure ConvInv (d0 d : ConvDisk) (done : List ConvPath) (backups : List (ConvPath × ConvPath)) : Prop where
  plain : ∀ p ∈ done, Converted p
  same : ∀ p, p ∉ done → ∀ t, d0.get p = some t → d.get p = some t
  saved : ∀ p ∈ done, ∀ t, d0.get p = some t → ∃ b, (p, b) ∈ backups ∧ d.get b = some t
  entry : ∀ p b, (p, b) ∈ backups → p ∈ done ∧ BackupOf p b ∧ d0.get b = none ∧ (d.get b).isSome = true
  nodup : (backups.map Prod.snd).Nodup
  keys : (backups.map Prod.fst).Nodup
  there : ∀ p b, (p, b) ∈ backups → p.1 = .new → (d.get p).isSome = true

theorem ConvInv.kept {d0 d done backups} (h : ConvInv d0 d done backups) : Kept d0 d := by
  intro p t ht
  by_cases hp : p ∈ done
  · obtain ⟨b, hb, hbt⟩ := h.saved p hp t ht
    obtain ⟨_, h2, h3, _⟩ := h.entry p b hb
    exact .inr ⟨h.plain p hp, b, h2, h3, hbt⟩
  · exact .inl (h.same p hp t ht)

theorem ConvInv.backup_not_done {d0 d done backups} (h : ConvInv d0 d done backups) {p b} (hb : BackupOf p b) :
    b ∉ done := fun hc => backup_not_plain hb (h.plain b hc)

/-- A disk that differs only at a free name keeps the invariant. -/
theorem ConvInv.add {d0 d done backups} (h : ConvInv d0 d done backups) {b : ConvPath} {t : Str}
    (hb : d.get b = none) : ConvInv d0 (d.set b t) done backups where
  plain := h.plain
  same p hp u hu := by
    have := h.same p hp u hu
    rw [conv_get_set, if_neg, this]
    rintro rfl; rw [hb] at this; cases this
  saved p hp u hu := by
    obtain ⟨c, hc, hcu⟩ := h.saved p hp u hu
    refine ⟨c, hc, ?_⟩
    rw [conv_get_set, if_neg, hcu]
    rintro rfl; rw [hb] at hcu; cases hcu
  entry p c hc := by
    obtain ⟨h1, h2, h3, h4⟩ := h.entry p c hc
    refine ⟨h1, h2, h3, ?_⟩
    rw [conv_get_set]
    split_ifs
    · rfl
    · exact h4
  nodup := h.nodup
  keys := h.keys
  there q c hc hq := by
    rw [conv_get_set]
    split_ifs
    · rfl
    · exact h.there q c hc hq

/-- The processed file may hold anything once its text is in a backup. -/
theorem ConvInv.change {d0 d done backups} (h : ConvInv d0 d done backups) {p : ConvPath} (hp : p ∈ done) (d' : ConvDisk)
    (hd : ∀ q, q ≠ p → d'.get q = d.get q) (hs : p.1 = .new → (d'.get p).isSome = true) : ConvInv d0 d' done backups where
  plain := h.plain
  same q hq u hu := by
    rw [hd q (by rintro rfl; exact hq hp)]
    exact h.same q hq u hu
  saved q hq u hu := by
    obtain ⟨c, hc, hcu⟩ := h.saved q hq u hu
    obtain ⟨_, h2, _, _⟩ := h.entry q c hc
    exact ⟨c, hc, by rw [hd c (by rintro rfl; exact h.backup_not_done h2 hp)]; exact hcu⟩
  entry q c hc := by
    obtain ⟨h1, h2, h3, h4⟩ := h.entry q c hc
    exact ⟨h1, h2, h3, by rw [hd c (by rintro rfl; exact h.backup_not_done h2 hp)]; exact h4⟩
  nodup := h.nodup
  keys := h.keys
  there q c hc hq := by
    by_cases he : q = p
    · subst he; exact hs hq
    · rw [hd q he]; exact h.there q c hc hq

/-- A file that is not there is processed without a backup. -/
theorem ConvInv.absent {d0 d done backups} (h : ConvInv d0 d done backups) {p : ConvPath} (hp : Converted p)
    (hn : p ∉ done) (hd : d.get p = none) : ConvInv d0 d (p :: done) backups where
  plain q hq := by
    rcases List.mem_cons.1 hq with rfl | hq
    · exact hp
    · exact h.plain q hq
  same q hq := h.same q (fun hc => hq (List.mem_cons_of_mem _ hc))
  saved q hq u hu := by
    rcases List.mem_cons.1 hq with rfl | hq
    · rw [h.same q hn u hu] at hd; cases hd
    · exact h.saved q hq u hu
  entry q c hc := by
    obtain ⟨h1, h2⟩ := h.entry q c hc
    exact ⟨List.mem_cons_of_mem _ h1, h2⟩
  nodup := h.nodup
  keys := h.keys
  there := h.there

/-- A file whose text is in the free name `b` is processed. -/
theorem ConvInv.backup {d0 d done backups} (h : ConvInv d0 d done backups) {p b : ConvPath} {t : Str} (hp : Converted p)
    (hn : p ∉ done) (hb : BackupOf p b) (hd : d.get p = some t) (hf : d.get b = none) :
    ConvInv d0 (d.set b t) (p :: done) (backups ++ [(p, b)]) := by
  have ha := h.add (t := t) hf
  have hbn : b ∉ done := h.backup_not_done hb
  have h0 : d0.get b = none := by
    cases e : d0.get b with
    | none => rfl
    | some u => rw [h.same b hbn u e] at hf; cases hf
  exact {
    plain := by
      intro q hq
      rcases List.mem_cons.1 hq with rfl | hq
      · exact hp
      · exact h.plain q hq
    same := fun q hq => ha.same q (fun hc => hq (List.mem_cons_of_mem _ hc))
    saved := by
      intro q hq u hu
      rcases List.mem_cons.1 hq with rfl | hq
      · have := h.same q hn u hu
        rw [hd] at this
        cases this
        exact ⟨b, by simp, by rw [conv_get_set, if_pos rfl]⟩
      · obtain ⟨c, hc, hcu⟩ := ha.saved q hq u hu
        exact ⟨c, by simp [hc], hcu⟩
    entry := by
      intro q c hc
      rcases List.mem_append.1 hc with hc | hc
      · obtain ⟨h1, h2⟩ := ha.entry q c hc
        exact ⟨List.mem_cons_of_mem _ h1, h2⟩
      · obtain ⟨rfl, rfl⟩ := Prod.mk.inj (List.mem_singleton.1 hc)
        exact ⟨by simp, hb, h0, by rw [conv_get_set, if_pos rfl]; rfl⟩
    nodup := by
      rw [List.map_append, List.nodup_append]
      refine ⟨h.nodup, by simp, ?_⟩
      intro x hx y hy
      obtain ⟨⟨q, c⟩, hqc, rfl⟩ := List.mem_map.1 hx
      simp only [List.map_cons, List.map_nil, List.mem_singleton] at hy
      subst hy
      rintro rfl
      obtain ⟨_, _, _, h4⟩ := h.entry q _ hqc
      rw [hf] at h4; cases h4
    keys := by
      rw [List.map_append, List.nodup_append]
      refine ⟨h.keys, by simp, ?_⟩
      intro x hx y hy
      obtain ⟨⟨q, c⟩, hqc, rfl⟩ := List.mem_map.1 hx
      simp only [List.map_cons, List.map_nil, List.mem_singleton] at hy
      subst hy
      rintro rfl
      exact hn (h.entry _ c hqc).1
    there := by
      intro q c hc hq
      rcases List.mem_append.1 hc with hc | hc
      · exact ha.there q c hc hq
      · obtain ⟨rfl, rfl⟩ := Prod.mk.inj (List.mem_singleton.1 hc)
        rw [conv_get_set]
        split_ifs
        · rfl
        · rw [hd]; rfl }

/-! ### Sequences of operations -/

theorem crash_append {d : ConvDisk} {ops1 ops2 : List ConvOp} {d' : ConvDisk} (h : CrashState d (ops1 ++ ops2) d') :
    CrashState d ops1 d' ∨ ((d.runAll ops1).2 = true ∧ CrashState (d.runAll ops1).1 ops2 d') := by
  induction ops1 generalizing d with
  | nil => exact .inr ⟨rfl, h⟩
  | cons op ops ih =>
    rw [List.cons_append] at h
    cases h with
    | here => exact .inl .here
    | torn ht => exact .inl (.torn ht)
    | step hs h =>
      rw [ConvDisk.runAll, hs]
      rcases ih h with h | h
      · exact .inl (.step hs h)
      · exact .inr h

theorem runAll_append (d : ConvDisk) (ops1 ops2 : List ConvOp) (h : (d.runAll ops1).2 = true) :
    d.runAll (ops1 ++ ops2) = (d.runAll ops1).1.runAll ops2 := by
  induction ops1 generalizing d with
  | nil => rfl
  | cons op ops ih =>
    rw [List.cons_append, ConvDisk.runAll, ConvDisk.runAll]
    rw [ConvDisk.runAll] at h
    cases hr : d.run op with
    | none => rw [hr] at h; cases h
    | some d1 => rw [hr] at h; exact ih d1 h

/-- What is proved of a part of the run that starts in a state satisfying the invariant. -/
structure PartOk (d0 d : ConvDisk) (done done' : List ConvPath) (bs bs' : List (ConvPath × ConvPath)) (ops : List ConvOp) :
    Prop where
  crash : ∀ d', CrashState d ops d' → Kept d0 d'
  ok : (d.runAll ops).2 = true
  inv : ConvInv d0 (d.runAll ops).1 done' bs'

theorem PartOk.nil {d0 d done bs} (h : ConvInv d0 d done bs) : PartOk d0 d done done bs bs [] where
  crash d' hc := by cases hc; exact h.kept
  ok := rfl
  inv := h

theorem PartOk.append {d0 d done done' done'' bs bs' bs'' ops ops'} (h1 : PartOk d0 d done done' bs bs' ops)
    (h2 : PartOk d0 (d.runAll ops).1 done' done'' bs' bs'' ops') : PartOk d0 d done done'' bs bs'' (ops ++ ops') where
  crash d' hc := by
    rcases crash_append hc with hc | ⟨_, hc⟩
    · exact h1.crash d' hc
    · exact h2.crash d' hc
  ok := by rw [runAll_append _ _ _ h1.ok]; exact h2.ok
  inv := by rw [runAll_append _ _ _ h1.ok]; exact h2.inv

/-- Writing a file whose text is in a backup, or that did not exist. -/
theorem write_part {d0 d done bs} {p : ConvPath} {t : Str} (h : ConvInv d0 d done bs) (hp : p ∈ done) :
    PartOk d0 d done done bs bs [.write p t] where
  crash d' hc := by
    cases hc with
    | here => exact h.kept
    | torn ht =>
      cases ht
      exact (h.change hp _ (fun q hq => by rw [conv_get_set, if_neg hq])
        (fun _ => by rw [conv_get_set, if_pos rfl]; rfl)).kept
    | step hs hc =>
      cases hs
      cases hc
      exact (h.change hp _ (fun q hq => by rw [conv_get_set, if_neg hq])
        (fun _ => by rw [conv_get_set, if_pos rfl]; rfl)).kept
  ok := rfl
  inv := h.change hp _ (fun q hq => by
    show (d.set p t).get q = _
    rw [conv_get_set, if_neg hq]) (fun _ => by
    show ((d.set p t).get p).isSome = true
    rw [conv_get_set, if_pos rfl]; rfl)

theorem copy_part {d0 d done bs} {p b : ConvPath} {t : Str} (h : ConvInv d0 d done bs) (hp : Converted p)
    (hn : p ∉ done) (hb : BackupOf p b) (hd : d.get p = some t) (hf : d.get b = none) :
    PartOk d0 d done (p :: done) bs (bs ++ [(p, b)]) [.copy p b] := by
  have hr : d.run (.copy p b) = some (d.set b t) := by simp [ConvDisk.run, hd]
  have hi := h.backup hp hn hb hd hf
  exact {
    crash := by
      intro d' hc
      cases hc with
      | here => exact h.kept
      | torn ht => cases ht; exact (h.add hf).kept
      | step hs hc =>
        rw [hr] at hs
        cases hs
        cases hc
        exact hi.kept
    ok := by rw [ConvDisk.runAll, hr]; rfl
    inv := by rw [ConvDisk.runAll, hr]; exact hi }

theorem rename_part {d0 d done bs} {p b : ConvPath} {t : Str} (h : ConvInv d0 d done bs) (hp : Converted p)
    (hn : p ∉ done) (hb : BackupOf p b) (hd : d.get p = some t) (hf : d.get b = none) (ho : p.1 = .old) :
    PartOk d0 d done (p :: done) bs (bs ++ [(p, b)]) [.rename p b] := by
  have hr : d.run (.rename p b) = some ((d.remove p).set b t) := by simp [ConvDisk.run, hd]
  have hi := (h.backup hp hn hb hd hf).change (p := p) (by simp) ((d.remove p).set b t) (fun q hq => by
    rw [conv_get_set, conv_get_set, conv_get_remove, if_neg hq]) (fun h => by rw [ho] at h; cases h)
  exact {
    crash := by
      intro d' hc
      cases hc with
      | here => exact h.kept
      | torn ht => cases ht
      | step hs hc =>
        rw [hr] at hs
        cases hs
        cases hc
        exact hi.kept
    ok := by rw [ConvDisk.runAll, hr]; rfl
    inv := by rw [ConvDisk.runAll, hr]; exact hi }

theorem convPath_plain {file : Str} (h : file ∈ convFiles) : Converted (convPath file) := by
  have : ∀ f ∈ convFiles, f ++ c!".policy" ∈ [c!"30-user.policy", c!"50-config-clipboard.policy", c!"50-config-filecopy.policy",
          c!"50-config-updates.policy", c!"50-config-openinvm.policy", c!"50-config-openurl.policy",
          c!"50-config-input.policy", c!"50-config-u2f.policy"] := by decide
  exact .inl ⟨rfl, this file h⟩

theorem saveFile_part {d0 d done bs} (h : ConvInv d0 d done bs) (file : Str) (rules : List LRule)
    (hn : convPath file ∉ done) (hf : file ∈ convFiles) :
    ∃ done', PartOk d0 d done done' bs (bs ++ (saveFile d file rules).2) (saveFile d file rules).1 ∧
      ∀ q ∈ done', q = convPath file ∨ q ∈ done := by
  unfold saveFile
  by_cases hr : rules.isEmpty
  · rw [if_pos hr]
    exact ⟨done, by simpa using PartOk.nil h, fun q hq => .inr hq⟩
  · rw [if_neg hr]
    dsimp only
    cases hd : d.get (convPath file) with
    | none =>
      dsimp only
      refine ⟨convPath file :: done, ?_, fun q hq => by simpa using hq⟩
      rw [List.append_nil]
      have h' := h.absent (convPath_plain hf) hn hd
      have := write_part (t := rulesText file rules) h' (p := convPath file) (by simp)
      exact ⟨this.crash, this.ok, this.inv⟩
    | some raw =>
      dsimp only
      refine ⟨convPath file :: done, ?_, fun q hq => by simpa using hq⟩
      have h1 := copy_part (b := (.new, backupName d .new c!".bak" (convPath file).2)) h (convPath_plain hf) hn
        (backupOf_save d (convPath file).2) hd (backupName_fresh d .new c!".bak" _ (by simp))
      have h2 := write_part (t := if file == c!"50-config-input" then rulesText file rules
        else mergeText (rulesText file rules) raw) h1.inv (p := convPath file) (by simp)
      exact h1.append h2

theorem savePlan_part {d0 : ConvDisk} (save : Str → List LRule) : ∀ (files : List Str) {d done bs},
    ConvInv d0 d done bs → files.Nodup → (∀ f ∈ files, convPath f ∉ done ∧ f ∈ convFiles) →
    ∃ done', PartOk d0 d done done' bs (bs ++ (savePlan save d files).2) (savePlan save d files).1 ∧
      ∀ q ∈ done', q.1 = .new ∨ q ∈ done := by
  intro files
  induction files with
  | nil => intro d done bs h _ _; exact ⟨done, by simpa [savePlan] using PartOk.nil h, fun q hq => .inr hq⟩
  | cons f fs ih =>
    intro d done bs h hnd hn
    obtain ⟨done1, h1, hd1⟩ := saveFile_part h f (save f) (hn f (by simp)).1 (hn f (by simp)).2
    obtain ⟨hf, hnd⟩ := List.nodup_cons.1 hnd
    obtain ⟨done2, h2, hd2⟩ := ih h1.inv hnd (by
      intro g hg
      refine ⟨fun hc => ?_, (hn g (List.mem_cons_of_mem _ hg)).2⟩
      rcases hd1 _ hc with he | hc
      · have : g = f := by
          simpa [convPath] using he
        exact hf (this ▸ hg)
      · exact (hn g (List.mem_cons_of_mem _ hg)).1 hc)
    refine ⟨done2, ?_, ?_⟩
    · have := h1.append h2
      rw [savePlan]
      dsimp only
      rw [← List.append_assoc]
      exact this
    · intro q hq
      rcases hd2 q hq with hq | hq
      · exact .inl hq
      · rcases hd1 q hq with rfl | hq
        · exact .inl rfl
        · exact .inr hq

theorem runAll_rename {d : ConvDisk} {p b : ConvPath} {t : Str} (hd : d.get p = some t) :
    (d.runAll [.rename p b]).1 = (d.remove p).set b t := by
  rw [ConvDisk.runAll]
  simp [ConvDisk.run, hd, ConvDisk.runAll]

theorem renamePlan_part {d0 : ConvDisk} : ∀ (names : List Str) {d done bs},
    ConvInv d0 d done bs → names.Nodup → (∀ n ∈ names, (.old, n) ∉ done ∧ (d.get (.old, n)).isSome = true) →
    ∃ done', PartOk d0 d done done' bs (bs ++ (renamePlan d names).2) (renamePlan d names).1 := by
  intro names
  induction names with
  | nil => intro d done bs h _ _; exact ⟨done, by simpa [renamePlan] using PartOk.nil h⟩
  | cons n ns ih =>
    intro d done bs h hnd hn
    obtain ⟨hnn, hnd⟩ := List.nodup_cons.1 hnd
    rw [renamePlan]
    by_cases he : endsWith c!".rpmsave" n = true
    · rw [if_pos he]
      exact ih h hnd (fun m hm => hn m (List.mem_cons_of_mem _ hm))
    · rw [if_neg he]
      dsimp only
      obtain ⟨hn1, hn2⟩ := hn n (by simp)
      obtain ⟨t, ht⟩ := Option.isSome_iff_exists.1 hn2
      have hfresh := backupName_fresh d .old c!".rpmsave" n (by simp)
      have h1 := rename_part (b := (.old, backupName d .old c!".rpmsave" n)) h
        (.inr ⟨rfl, endsWith_false_iff.1 (by simpa using he)⟩) hn1 (backupOf_rename d n) ht hfresh rfl
      obtain ⟨done2, h2⟩ := ih h1.inv hnd (by
        intro m hm
        obtain ⟨hm1, hm2⟩ := hn m (List.mem_cons_of_mem _ hm)
        refine ⟨?_, ?_⟩
        · intro hc
          rcases List.mem_cons.1 hc with hc | hc
          · exact hnn (by rw [← (Prod.mk.inj hc).2]; exact hm)
          · exact hm1 hc
        · rw [runAll_rename ht, conv_get_set]
          split_ifs with h3
          · rfl
          · rw [conv_get_remove, if_neg, hm2]
            intro hc
            exact hnn (by rw [← (Prod.mk.inj hc).2]; exact hm))
      refine ⟨done2, ?_⟩
      have := h1.append h2
      rw [List.append_assoc] at this
      exact this

theorem renamePlan_absent : ∀ (names : List Str) {d : ConvDisk} {n : Str}, endsWith c!".rpmsave" n = false →
    d.get (.old, n) = none → (∀ m ∈ names, (d.get (.old, m)).isSome = true) → names.Nodup →
    (d.runAll (renamePlan d names).1).1.get (.old, n) = none := by
  intro names
  induction names with
  | nil => intro d n _ h _ _; exact h
  | cons m ms ih =>
    intro d n hn h hs hnd
    obtain ⟨hnn, hnd⟩ := List.nodup_cons.1 hnd
    rw [renamePlan]
    by_cases he : endsWith c!".rpmsave" m = true
    · rw [if_pos he]
      exact ih hn h (fun x hx => hs x (List.mem_cons_of_mem _ hx)) hnd
    · rw [if_neg he]
      dsimp only
      obtain ⟨t, ht⟩ := Option.isSome_iff_exists.1 (hs m (by simp))
      have hr : d.run (.rename (.old, m) (.old, backupName d .old c!".rpmsave" m)) =
          some ((d.remove (.old, m)).set (.old, backupName d .old c!".rpmsave" m) t) := by simp [ConvDisk.run, ht]
      rw [ConvDisk.runAll, hr]
      dsimp only
      rw [runAll_rename ht]
      refine ih hn ?_ ?_ hnd
      · rw [conv_get_set, if_neg, conv_get_remove]
        · split_ifs
          · rfl
          · exact h
        · intro hc
          refine backup_not_plain (backupOf_rename d m) (.inr ⟨rfl, ?_⟩)
          rw [← hc]
          exact endsWith_false_iff.1 hn
      · intro x hx
        rw [conv_get_set]
        split_ifs with h3
        · rfl
        · rw [conv_get_remove, if_neg, hs x (List.mem_cons_of_mem _ hx)]
          intro hc
          exact hnn (by rw [← (Prod.mk.inj hc).2]; exact hx)

/-- A renamed file is no longer there. -/
theorem renamePlan_gone : ∀ (names : List Str) {d : ConvDisk}, (∀ m ∈ names, (d.get (.old, m)).isSome = true) →
    names.Nodup → ∀ n ∈ names, endsWith c!".rpmsave" n = false →
    (d.runAll (renamePlan d names).1).1.get (.old, n) = none := by
  intro names
  induction names with
  | nil => intro d _ _ n hn; cases hn
  | cons m ms ih =>
    intro d hs hnd n hn hp
    obtain ⟨hnn, hnd2⟩ := List.nodup_cons.1 hnd
    rw [renamePlan]
    by_cases he : endsWith c!".rpmsave" m = true
    · rw [if_pos he]
      rcases List.mem_cons.1 hn with rfl | hn
      · rw [hp] at he; cases he
      · exact ih (fun x hx => hs x (List.mem_cons_of_mem _ hx)) hnd2 n hn hp
    · rw [if_neg he]
      dsimp only
      obtain ⟨t, ht⟩ := Option.isSome_iff_exists.1 (hs m (by simp))
      have hr : d.run (.rename (.old, m) (.old, backupName d .old c!".rpmsave" m)) =
          some ((d.remove (.old, m)).set (.old, backupName d .old c!".rpmsave" m) t) := by simp [ConvDisk.run, ht]
      rw [ConvDisk.runAll, hr]
      dsimp only
      rw [runAll_rename ht]
      have hs' : ∀ x ∈ ms, (((d.remove (.old, m)).set (.old, backupName d .old c!".rpmsave" m) t).get (.old, x)).isSome = true := by
        intro x hx
        rw [conv_get_set]
        split_ifs with h3
        · rfl
        · rw [conv_get_remove, if_neg, hs x (List.mem_cons_of_mem _ hx)]
          intro hc
          exact hnn (by rw [← (Prod.mk.inj hc).2]; exact hx)
      rcases List.mem_cons.1 hn with rfl | hn
      · refine renamePlan_absent ms hp ?_ hs' hnd2
        rw [conv_get_set, if_neg, conv_get_remove, if_pos rfl]
        intro hc
        refine backup_not_plain (backupOf_rename d n) (.inr ⟨rfl, ?_⟩)
        rw [← hc]
        exact endsWith_false_iff.1 hp
      · exact ih hs' hnd2 n hn hp

theorem renamePlan_entries : ∀ (names : List Str) {d : ConvDisk} {fb : ConvPath × ConvPath},
    fb ∈ (renamePlan d names).2 → ∃ n ∈ names, fb.1 = (.old, n) ∧ endsWith c!".rpmsave" n = false := by
  intro names
  induction names with
  | nil => intro d fb h; cases h
  | cons m ms ih =>
    intro d fb h
    rw [renamePlan] at h
    by_cases he : endsWith c!".rpmsave" m = true
    · rw [if_pos he] at h
      obtain ⟨n, hn, h⟩ := ih h
      exact ⟨n, List.mem_cons_of_mem _ hn, h⟩
    · rw [if_neg he] at h
      dsimp only at h
      rcases List.mem_cons.1 h with rfl | h
      · exact ⟨m, by simp, rfl, by simpa using he⟩
      · obtain ⟨n, hn, h⟩ := ih h
        exact ⟨n, List.mem_cons_of_mem _ hn, h⟩

theorem renamePlan_nonempty : ∀ (names : List Str) {d : ConvDisk} {n : Str}, n ∈ names →
    endsWith c!".rpmsave" n = false → (renamePlan d names).2 ≠ [] := by
  intro names
  induction names with
  | nil => intro d n h; cases h
  | cons m ms ih =>
    intro d n h hp
    rw [renamePlan]
    by_cases he : endsWith c!".rpmsave" m = true
    · rw [if_pos he]
      rcases List.mem_cons.1 h with rfl | h
      · rw [hp] at he; cases he
      · exact ih h hp
    · rw [if_neg he]
      simp

theorem saveFile_entries {d : ConvDisk} {file : Str} {rules : List LRule} {fb : ConvPath × ConvPath}
    (h : fb ∈ (saveFile d file rules).2) : fb.1.1 = .new := by
  unfold saveFile at h
  by_cases hr : rules.isEmpty
  · rw [if_pos hr] at h; cases h
  · rw [if_neg hr] at h
    dsimp only at h
    cases hd : d.get (convPath file) with
    | none => rw [hd] at h; cases h
    | some raw => rw [hd] at h; rw [List.mem_singleton.1 h]; rfl

theorem savePlan_entries (save : Str → List LRule) : ∀ (files : List Str) {d : ConvDisk} {fb : ConvPath × ConvPath},
    fb ∈ (savePlan save d files).2 → fb.1.1 = .new := by
  intro files
  induction files with
  | nil => intro d fb h; cases h
  | cons f fs ih =>
    intro d fb h
    rw [savePlan] at h
    dsimp only at h
    rcases List.mem_append.1 h with h | h
    · exact saveFile_entries h
    · exact ih h

/-! ### Restoring -/

/-- The state while the backups `rs` are still to be restored. -/
structure RestInv (d0 d : ConvDisk) (rs : List (ConvPath × ConvPath)) : Prop where
  kept : ∀ p t, d0.get p = some t → d.get p = some t ∨ ∃ b, (p, b) ∈ rs
  entry : ∀ p b, (p, b) ∈ rs → Converted p ∧ BackupOf p b ∧ d0.get b = none ∧
    ∀ t, d0.get p = some t → d.get b = some t
  nodup : (rs.map Prod.snd).Nodup
  keys : (rs.map Prod.fst).Nodup

theorem RestInv.all {d0 d rs} (h : RestInv d0 d rs) : Kept d0 d := by
  intro p t ht
  rcases h.kept p t ht with hp | ⟨b, hb⟩
  · exact .inl hp
  · obtain ⟨h1, h2, h3, h4⟩ := h.entry p b hb
    exact .inr ⟨h1, b, h2, h3, h4 t ht⟩

theorem key_unique {l : List (ConvPath × ConvPath)} (h : (l.map Prod.fst).Nodup) {p b c : ConvPath} (hb : (p, b) ∈ l)
    (hc : (p, c) ∈ l) : b = c := by
  induction l with
  | nil => cases hb
  | cons e es ih =>
    rw [List.map_cons, List.nodup_cons] at h
    rcases List.mem_cons.1 hb with hb | hb <;> rcases List.mem_cons.1 hc with hc | hc
    · rw [← hb] at hc; exact (Prod.mk.inj hc).2.symm
    · exact absurd (List.mem_map.2 ⟨_, hc, rfl⟩) (by rw [← hb] at h; exact h.1)
    · exact absurd (List.mem_map.2 ⟨_, hb, rfl⟩) (by rw [← hc] at h; exact h.1)
    · exact ih h.2 hb hc

theorem RestInv.ofConv {d0 d done bs} (h : ConvInv d0 d done bs) : RestInv d0 d bs where
  kept p t ht := by
    by_cases hp : p ∈ done
    · obtain ⟨b, hb, _⟩ := h.saved p hp t ht
      exact .inr ⟨b, hb⟩
    · exact .inl (h.same p hp t ht)
  entry p b hb := by
    obtain ⟨h1, h2, h3, _⟩ := h.entry p b hb
    refine ⟨h.plain p h1, h2, h3, fun t ht => ?_⟩
    obtain ⟨c, hc, hct⟩ := h.saved p h1 t ht
    rw [key_unique h.keys hb hc]; exact hct
  nodup := h.nodup
  keys := h.keys

theorem RestInv.unlink {d0 d p b rs} (h : RestInv d0 d ((p, b) :: rs)) : RestInv d0 (d.remove p) ((p, b) :: rs) where
  kept q t ht := by
    by_cases hq : q = p
    · subst hq; exact .inr ⟨b, by simp⟩
    · rw [conv_get_remove, if_neg hq]; exact h.kept q t ht
  entry q c hc := by
    obtain ⟨h1, h2, h3, h4⟩ := h.entry q c hc
    refine ⟨h1, h2, h3, fun t ht => ?_⟩
    rw [conv_get_remove, if_neg, h4 t ht]
    rintro rfl
    exact backup_not_plain h2 (h.entry c b (by simp)).1
  nodup := h.nodup
  keys := h.keys

theorem RestInv.rename {d0 d p b rs} (h : RestInv d0 d ((p, b) :: rs)) {t : Str} (hb : d.get b = some t) :
    RestInv d0 ((d.remove b).set p t) rs := by
  obtain ⟨e1, e2, e3, e4⟩ := h.entry p b (by simp)
  have hn := h.nodup
  have hk := h.keys
  rw [List.map_cons, List.nodup_cons] at hn hk
  exact {
    kept := by
      intro q u hu
      by_cases hq : q = p
      · subst hq
        left
        rw [conv_get_set, if_pos rfl, ← hb, e4 u hu]
      · rw [conv_get_set, if_neg hq, conv_get_remove, if_neg (by rintro rfl; rw [e3] at hu; cases hu)]
        rcases h.kept q u hu with h1 | ⟨c, hc⟩
        · exact .inl h1
        · rcases List.mem_cons.1 hc with hc | hc
          · exact absurd (Prod.mk.inj hc).1 hq
          · exact .inr ⟨c, hc⟩
    entry := by
      intro q c hc
      obtain ⟨h1, h2, h3, h4⟩ := h.entry q c (List.mem_cons_of_mem _ hc)
      refine ⟨h1, h2, h3, fun u hu => ?_⟩
      rw [conv_get_set, if_neg, conv_get_remove, if_neg, h4 u hu]
      · rintro rfl
        exact hn.1 (List.mem_map.2 ⟨_, hc, rfl⟩)
      · rintro rfl
        exact backup_not_plain h2 e1
    nodup := hn.2
    keys := hk.2 }

theorem revert_crash {d0 : ConvDisk} : ∀ (rs : List (ConvPath × ConvPath)) {d : ConvDisk}, RestInv d0 d rs →
    ∀ d', CrashState d (revertOps rs) d' → Kept d0 d' := by
  intro rs
  induction rs with
  | nil => intro d h d' hc; cases hc; exact h.all
  | cons e rs ih =>
    obtain ⟨p, b⟩ := e
    intro d h d' hc
    have e : revertOps ((p, b) :: rs) = .unlink p :: .rename b p :: revertOps rs := rfl
    rw [e] at hc
    cases hc with
    | here => exact h.all
    | torn ht => cases ht
    | step hs hc =>
      obtain ⟨t, _, rfl⟩ := Option.map_eq_some_iff.1 hs
      cases hc with
      | here => exact h.unlink.all
      | torn ht => cases ht
      | step hs hc =>
        obtain ⟨u, hu, rfl⟩ := Option.map_eq_some_iff.1 hs
        exact ih (h.unlink.rename hu) d' hc

/-- Backups of files that are there are restored. -/
theorem revert_ok {d0 : ConvDisk} (rs2 : List (ConvPath × ConvPath)) : ∀ (rs : List (ConvPath × ConvPath)) {d : ConvDisk},
    RestInv d0 d (rs ++ rs2) → (∀ p b, (p, b) ∈ rs → (d.get p).isSome = true ∧ (d.get b).isSome = true) →
    (d.runAll (revertOps rs)).2 = true ∧ RestInv d0 (d.runAll (revertOps rs)).1 rs2 ∧
      ∀ q : ConvPath, (∀ p b, (p, b) ∈ rs → q ≠ p ∧ q ≠ b) → (d.runAll (revertOps rs)).1.get q = d.get q := by
  intro rs
  induction rs with
  | nil => intro d h _; exact ⟨rfl, h, fun _ _ => rfl⟩
  | cons e rs ih =>
    obtain ⟨p, b⟩ := e
    intro d h hs
    obtain ⟨hp, hb⟩ := hs p b (by simp)
    obtain ⟨t, ht⟩ := Option.isSome_iff_exists.1 hp
    obtain ⟨u, hu⟩ := Option.isSome_iff_exists.1 hb
    obtain ⟨e1, e2, e3, e4⟩ := h.entry p b (by simp)
    have hbp : b ≠ p := by rintro rfl; exact backup_not_plain e2 e1
    have hu' : (d.remove p).get b = some u := by rw [conv_get_remove, if_neg hbp, hu]
    have hrun : d.runAll (revertOps ((p, b) :: rs)) = (((d.remove p).remove b).set p u).runAll (revertOps rs) := by
      have e : revertOps ((p, b) :: rs) = .unlink p :: .rename b p :: revertOps rs := rfl
      rw [e, ConvDisk.runAll]
      simp only [ConvDisk.run, ht, Option.map_some]
      rw [ConvDisk.runAll]
      simp only [ConvDisk.run, hu', Option.map_some]
    rw [hrun]
    have hn := h.nodup
    have hk := h.keys
    rw [List.cons_append, List.map_cons, List.nodup_cons] at hn hk
    have hI := (RestInv.unlink (rs := rs ++ rs2) h).rename hu'
    obtain ⟨g1, g2, g3⟩ := ih hI (by
      intro q c hc
      obtain ⟨h1, h2⟩ := hs q c (List.mem_cons_of_mem _ hc)
      obtain ⟨f1, f2, _, _⟩ := h.entry q c (by simp [hc])
      constructor
      · rw [conv_get_set]
        split_ifs with h3
        · rfl
        · rw [conv_get_remove, if_neg (by rintro rfl; exact backup_not_plain e2 f1), conv_get_remove, if_neg h3]
          exact h1
      · rw [conv_get_set, if_neg (by rintro rfl; exact backup_not_plain f2 e1), conv_get_remove, if_neg, conv_get_remove,
          if_neg (by rintro rfl; exact backup_not_plain f2 e1)]
        · exact h2
        · rintro rfl
          exact hn.1 (List.mem_map.2 ⟨(q, c), by simp [hc], rfl⟩))
    refine ⟨g1, g2, fun q hq => ?_⟩
    rw [g3 q (fun p' b' h' => hq p' b' (List.mem_cons_of_mem _ h'))]
    obtain ⟨q1, q2⟩ := hq p b (by simp)
    rw [conv_get_set, if_neg q1, conv_get_remove, if_neg q2, conv_get_remove, if_neg q1]

/-! ### The run -/

theorem convInv_start (d : ConvDisk) : ConvInv d d [] [] where
  plain := by simp
  same _ _ _ h := h
  saved := by simp
  entry := by simp
  nodup := by simp
  keys := by simp
  there := by simp

/-- The state after saving and renaming. -/
theorem convertPlan_part (w : ConvWorld) (d : ConvDisk) (all new : List LRule) (hl : ∀ d, Lists d (w.listing d)) :
    ∃ done, PartOk d d [] done [] (convertPlan w d all new).2 (convertPlan w d all new).1 := by
  unfold convertPlan
  dsimp only
  generalize rulesToSave (w.order ((legacyRules all new).map fun r => r.rule.service)) (legacyRules all new) new = save
  obtain ⟨done1, h1, hd1⟩ := savePlan_part save convFiles (convInv_start d) (by decide)
    (fun f hf => ⟨by simp, hf⟩)
  rw [List.nil_append] at h1
  obtain ⟨l1, l2⟩ := hl (d.runAll (savePlan save d convFiles).1).1
  obtain ⟨done2, h2⟩ := renamePlan_part _ h1.inv l1 (fun n hn => ⟨fun hc => (by
    rcases hd1 _ hc with h | h
    · cases h
    · cases h), (l2 n).1 hn⟩)
  exact ⟨done2, h1.append h2⟩

/-- **C88, nothing is lost.** Wherever the run stops (between two operations, within a copy or a write, because an operation
fails, or at its end, also while restoring), every text that was in one of the two directories is in the same file; or, if that is
one of the eight files converted to or a file of the old format, in a backup next to it whose name was not in use. -/
theorem C88_nothing_lost (w : ConvWorld) (d : ConvDisk) (hl : ∀ d, Lists d (w.listing d)) (d' : ConvDisk)
    (h : CrashState d (convertMain w d).1 d') : Kept d d' := by
  unfold convertMain at h
  have self : ∀ d', CrashState d [] d' → Kept d d' := by
    intro d' h
    cases h
    intro p t ht
    exact .inl ht
  cases hg : w.graphOf d with
  | error e => rw [hg] at h; exact self d' h
  | ok initial =>
    cases ha : w.rulesOf d with
    | error e => rw [hg, ha] at h; exact self d' h
    | ok all =>
      cases hn : w.newRulesOf d with
      | error e => rw [hg, ha, hn] at h; exact self d' h
      | ok new =>
        rw [hg, ha, hn] at h
        dsimp only at h
        obtain ⟨done, hp⟩ := convertPlan_part w d all new hl
        cases hc : w.graphOf (d.runAll (convertPlan w d all new).1).1 with
        | error e => rw [hc] at h; exact hp.crash d' h
        | ok current =>
          rw [hc] at h
          dsimp only at h
          by_cases h1 : sameSet initial current = true
          · rw [if_pos h1] at h; exact hp.crash d' h
          · rw [if_neg h1] at h
            by_cases h2 : (w.answer.map Char.toUpper == c!"N") = true
            · rw [if_pos h2] at h; exact hp.crash d' h
            · rw [if_neg h2] at h
              rcases crash_append h with h | ⟨_, h⟩
              · exact hp.crash d' h
              · exact revert_crash _ (RestInv.ofConv hp.inv) d' h

theorem sameSet_iff {a b : List Str} : sameSet a b = true ↔ ∀ l, l ∈ a ↔ l ∈ b := by
  unfold sameSet
  rw [Bool.and_eq_true, List.all_eq_true, List.all_eq_true]
  constructor
  · rintro ⟨h1, h2⟩ l
    exact ⟨fun h => by simpa using h1 l h, fun h => by simpa using h2 l h⟩
  · intro h
    exact ⟨fun l hl => by simpa using (h l).1 hl, fun l hl => by simpa using (h l).2 hl⟩

/-- The disk after the conversion, before anything is restored. -/
def convertedDisk (w : ConvWorld) (d : ConvDisk) (all new : List LRule) : ConvDisk :=
  (d.runAll (convertPlan w d all new).1).1

/-- **C88, the verdict.** The tool reports success without asking exactly if the policy loads, both graphs could be drawn,
and the one after the conversion has the lines of the one before; the converted files are then left in place. -/
theorem C88_verdict (w : ConvWorld) (d : ConvDisk) :
    (convertMain w d).2 = .success false ↔
      ∃ all new before after, w.rulesOf d = .ok all ∧ w.newRulesOf d = .ok new ∧ w.graphOf d = .ok before ∧
        w.graphOf (convertedDisk w d all new) = .ok after ∧ (∀ line, line ∈ before ↔ line ∈ after) ∧
        (d.runAll (convertMain w d).1).1 = convertedDisk w d all new := by
  unfold convertMain convertedDisk
  cases hg : w.graphOf d with
  | error e => simp
  | ok initial =>
    cases ha : w.rulesOf d with
    | error e => simp
    | ok all =>
      cases hn : w.newRulesOf d with
      | error e => simp
      | ok new =>
        dsimp only
        cases hc : w.graphOf (d.runAll (convertPlan w d all new).1).1 with
        | error e =>
          simp only [reduceCtorEq, false_iff]
          rintro ⟨a, n, b, a', h1, h2, h3, h4, _⟩
          cases h1; cases h2
          rw [hc] at h4; cases h4
        | ok current =>
          dsimp only
          by_cases h1 : sameSet initial current = true
          · rw [if_pos h1]
            simp only [true_iff]
            exact ⟨all, new, initial, current, rfl, rfl, rfl, hc, sameSet_iff.1 h1, rfl⟩
          · rw [if_neg h1]
            have no : ¬ ∃ all' new' before after, (Except.ok all : Except Err _) = .ok all' ∧
                (Except.ok new : Except Err _) = .ok new' ∧ (Except.ok initial : Except Err _) = .ok before ∧
                w.graphOf (d.runAll (convertPlan w d all' new').1).1 = .ok after ∧ ∀ line, line ∈ before ↔ line ∈ after := by
              rintro ⟨a, n, b, a', e1, e2, e3, e4, hl⟩
              cases e1; cases e2; cases e3
              rw [hc] at e4; cases e4
              exact h1 (sameSet_iff.2 hl)
            by_cases h2 : (w.answer.map Char.toUpper == c!"N") = true
            · rw [if_pos h2]
              dsimp only
              simp only [ConvEnd.success.injEq, Bool.true_eq_false, false_iff]
              rintro ⟨a, n, b, a', e1, e2, e3, e4, hl, _⟩
              exact no ⟨a, n, b, a', e1, e2, e3, e4, hl⟩
            · rw [if_neg h2]
              dsimp only
              have : ∀ c : Bool, (if c then ConvEnd.reverted else ConvEnd.raised) ≠ .success false := by decide
              simp only [this, false_iff]
              rintro ⟨a, n, b, a', e1, e2, e3, e4, hl, _⟩
              exact no ⟨a, n, b, a', e1, e2, e3, e4, hl⟩

theorem runAll_old : ∀ (ops : List ConvOp) (d : ConvDisk), (∀ op ∈ ops, (∃ p q, op = .copy p q ∧ q.1 = .new) ∨
    ∃ p t, op = .write p t ∧ p.1 = .new) → ∀ n, (d.runAll ops).1.get (.old, n) = d.get (.old, n) := by
  intro ops
  induction ops with
  | nil => intro d _ n; rfl
  | cons op ops ih =>
    intro d h n
    rw [ConvDisk.runAll]
    cases hr : d.run op with
    | none => rfl
    | some d1 =>
      dsimp only
      rw [ih d1 (fun o ho => h o (List.mem_cons_of_mem _ ho)) n]
      rcases h op (by simp) with ⟨p, q, rfl, hq⟩ | ⟨p, t, rfl, hp⟩
      · obtain ⟨t, _, rfl⟩ := Option.map_eq_some_iff.1 hr
        rw [conv_get_set, if_neg (by rintro rfl; cases hq)]
      · cases hr
        rw [conv_get_set, if_neg (by rintro rfl; cases hp)]

theorem saveFile_old {d : ConvDisk} {file : Str} {rules : List LRule} : ∀ op ∈ (saveFile d file rules).1,
    (∃ p q, op = ConvOp.copy p q ∧ q.1 = .new) ∨ ∃ p t, op = .write p t ∧ p.1 = .new := by
  intro op h
  unfold saveFile at h
  by_cases hr : rules.isEmpty
  · rw [if_pos hr] at h; cases h
  · rw [if_neg hr] at h
    dsimp only at h
    cases hd : d.get (convPath file) with
    | none =>
      rw [hd] at h
      rw [List.mem_singleton.1 h]
      exact .inr ⟨_, _, rfl, rfl⟩
    | some raw =>
      rw [hd] at h
      rcases List.mem_cons.1 h with rfl | h
      · exact .inl ⟨_, _, rfl, rfl⟩
      · rw [List.mem_singleton.1 h]
        exact .inr ⟨_, _, rfl, rfl⟩

theorem savePlan_old (save : Str → List LRule) : ∀ (files : List Str) (d : ConvDisk), ∀ op ∈ (savePlan save d files).1,
    (∃ p q, op = ConvOp.copy p q ∧ q.1 = .new) ∨ ∃ p t, op = .write p t ∧ p.1 = .new := by
  intro files
  induction files with
  | nil => intro d op h; cases h
  | cons f fs ih =>
    intro d op h
    rw [savePlan] at h
    dsimp only at h
    rcases List.mem_append.1 h with h | h
    · exact saveFile_old op h
    · exact ih _ op h

theorem toUpper_n (c : Char) : c.toUpper = 'N' ↔ c = 'n' ∨ c = 'N' := by
  constructor
  · intro h
    unfold Char.toUpper at h
    split_ifs at h with hc
    · left
      have h2 := congrArg Char.toNat h
      apply Char.ext
      apply UInt32.toNat.inj
      have h3 := congrArg (fun c : Char => c.val.toNat) h
      dsimp only at h3
      have h1 : 97 ≤ c.val.toNat ∧ c.val.toNat ≤ 122 := by
        exact ⟨hc.1, hc.2⟩
      rw [UInt32.toNat_add] at h3
      have e1 : (UInt32.toNat ('A'.val - 'a'.val)) = 4294967264 := by decide
      have e2 : 'N'.val.toNat = 78 := by decide
      have e3 : 'n'.val.toNat = 110 := by decide
      rw [e1, e2] at h3
      rw [e3]
      omega
    · exact .inr h
  · rintro (rfl | rfl) <;> decide

theorem answer_no (a : Str) : a.map Char.toUpper = c!"N" ↔ a = c!"n" ∨ a = c!"N" := by
  match a with
  | [] => simp
  | [c] => simp [toUpper_n]
  | _ :: _ :: _ => simp

/-- The parts of the state after the conversion. -/
theorem convertPlan_state (w : ConvWorld) (d : ConvDisk) (all new : List LRule) (hl : ∀ d, Lists d (w.listing d)) :
    ∃ bs1 bs2, (convertPlan w d all new).2 = bs1 ++ bs2 ∧ (∀ fb ∈ bs1, fb.1.1 = .new) ∧
      (∀ fb ∈ bs2, ∃ n, fb.1 = (.old, n) ∧ (convertedDisk w d all new).get (.old, n) = none ∧
        (d.get (.old, n)).isSome = true) ∧
      (∀ n, (d.get (.old, n)).isSome = true → (¬ ∃ m, n = m ++ c!".rpmsave") →
        (convertedDisk w d all new).get (.old, n) = none ∧ bs2 ≠ []) := by
  have hrun : ∃ done, PartOk d d [] done [] (savePlan (rulesToSave (w.order ((legacyRules all new).map
      fun r => r.rule.service)) (legacyRules all new) new) d convFiles).2 (savePlan (rulesToSave (w.order
      ((legacyRules all new).map fun r => r.rule.service)) (legacyRules all new) new) d convFiles).1 ∧
      ∀ q ∈ done, q.1 = .new := by
    obtain ⟨done1, h1, hd1⟩ := savePlan_part (rulesToSave (w.order ((legacyRules all new).map
      fun r => r.rule.service)) (legacyRules all new) new) convFiles (convInv_start d) (by decide)
      (fun f hf => ⟨by simp, hf⟩)
    exact ⟨done1, by simpa using h1, fun q hq => by
      rcases hd1 q hq with h | h
      · exact h
      · cases h⟩
  unfold convertedDisk convertPlan
  dsimp only
  generalize rulesToSave (w.order ((legacyRules all new).map fun r => r.rule.service)) (legacyRules all new) new = save at *
  obtain ⟨done, h1, hd⟩ := hrun
  rw [runAll_append _ _ _ h1.ok]
  have hsame := runAll_old _ d (savePlan_old save convFiles d)
  generalize hd1 : (d.runAll (savePlan save d convFiles).1).1 = d1 at *
  obtain ⟨l1, l2⟩ := hl d1
  have hgone := renamePlan_gone (w.listing d1) (fun m hm => (l2 m).1 hm) l1
  refine ⟨_, _, rfl, fun fb h => savePlan_entries save _ h, ?_, ?_⟩
  · intro fb hfb
    obtain ⟨n, hn, h2, h3⟩ := renamePlan_entries _ hfb
    exact ⟨n, h2, hgone n hn h3, by rw [← hsame]; exact (l2 n).1 hn⟩
  · intro n hn he
    obtain ⟨t, ht⟩ := Option.isSome_iff_exists.1 hn
    have hi := h1.inv
    rw [hd1] at hi
    have h3 : d1.get (.old, n) = some t := hi.same _ (fun hc => by cases hd _ hc) t ht
    have hm : n ∈ w.listing d1 := (l2 n).2 (by rw [h3]; rfl)
    have he' := endsWith_false_iff.2 he
    exact ⟨hgone n hm he', renamePlan_nonempty _ hm he'⟩

/-- **C88, after success.** When the tool reports success no file of the old format is left in use: each has the suffix
".rpmsave". -/
theorem C88_old_retired (w : ConvWorld) (d : ConvDisk) (hl : ∀ d, Lists d (w.listing d)) (asked : Bool)
    (h : (convertMain w d).2 = .success asked) (n : Str) (hn : (d.get (.old, n)).isSome = true)
    (hp : ¬ ∃ m, n = m ++ c!".rpmsave") : (d.runAll (convertMain w d).1).1.get (.old, n) = none := by
  unfold convertMain at h ⊢
  cases hg : w.graphOf d with
  | error e => rw [hg] at h; cases h
  | ok initial =>
    cases ha : w.rulesOf d with
    | error e => rw [hg, ha] at h; cases h
    | ok all =>
      cases hw : w.newRulesOf d with
      | error e => rw [hg, ha, hw] at h; cases h
      | ok new =>
        rw [hg, ha, hw] at h
        dsimp only at h ⊢
        obtain ⟨bs1, bs2, _, _, _, hs⟩ := convertPlan_state w d all new hl
        have := (hs n hn hp).1
        cases hc : w.graphOf (d.runAll (convertPlan w d all new).1).1 with
        | error e => rw [hc] at h; cases h
        | ok current =>
          rw [hc] at h
          dsimp only at h ⊢
          by_cases h1 : sameSet initial current = true
          · rw [if_pos h1]; exact this
          · rw [if_neg h1] at h ⊢
            by_cases h2 : (w.answer.map Char.toUpper == c!"N") = true
            · rw [if_pos h2]; exact this
            · rw [if_neg h2] at h
              dsimp only at h
              cases hb : ((d.runAll (convertPlan w d all new).1).1.runAll (revertOps (convertPlan w d all new).2)).2 <;>
                rw [hb] at h <;> cases h

/-- The user is asked, and does not answer "n". -/
def AsksAndReverts (w : ConvWorld) (d : ConvDisk) : Prop :=
  ∃ all new before after, w.rulesOf d = .ok all ∧ w.newRulesOf d = .ok new ∧ w.graphOf d = .ok before ∧
    w.graphOf (convertedDisk w d all new) = .ok after ∧ (¬ ∀ line, line ∈ before ↔ line ∈ after) ∧
    w.answer ≠ c!"n" ∧ w.answer ≠ c!"N"

/-- **C89 (partial).** If the user wants the previous state back, every file of the new directory that was there
gets its text back.  Missing: the files of the old format.  They were renamed, so that removing the first of them fails, and
the program ends with an exception: they stay out of use.  (Files of the new directory that did not exist before stay, too.) -/
theorem C89_revert_partial (w : ConvWorld) (d : ConvDisk) (hl : ∀ d, Lists d (w.listing d)) (h : AsksAndReverts w d) :
    (∀ n t, d.get (.new, n) = some t → (d.runAll (convertMain w d).1).1.get (.new, n) = some t) ∧
    (∀ n, (d.get (.old, n)).isSome = true → (¬ ∃ m, n = m ++ c!".rpmsave") →
      (convertMain w d).2 = .raised ∧ (d.runAll (convertMain w d).1).1.get (.old, n) = none) ∧
    ((∀ n, (d.get (.old, n)).isSome = true → ∃ m, n = m ++ c!".rpmsave") →
      (convertMain w d).2 = .reverted ∧ ∀ p t, d.get p = some t → (d.runAll (convertMain w d).1).1.get p = some t) := by
  obtain ⟨all, new, before, after, e1, e2, e3, e4, hdiff, a1, a2⟩ := h
  have hs : sameSet before after ≠ true := fun hc => hdiff (sameSet_iff.1 hc)
  have ha : ¬ (w.answer.map Char.toUpper == c!"N") = true := by
    rw [beq_iff_eq, answer_no]
    rintro (h | h)
    · exact a1 h
    · exact a2 h
  have hm : convertMain w d = ((convertPlan w d all new).1 ++ revertOps (convertPlan w d all new).2,
      if ((convertedDisk w d all new).runAll (revertOps (convertPlan w d all new).2)).2 then .reverted else .raised) := by
    unfold convertMain
    rw [e1, e2, e3]
    dsimp only
    rw [show w.graphOf (d.runAll (convertPlan w d all new).1).1 = .ok after from e4]
    dsimp only
    rw [if_neg hs, if_neg ha]
    rfl
  obtain ⟨done, hp⟩ := convertPlan_part w d all new hl
  obtain ⟨bs1, bs2, hb, hb1, hb2, hb3⟩ := convertPlan_state w d all new hl
  rw [hm]
  dsimp only
  rw [runAll_append _ _ _ hp.ok, show (d.runAll (convertPlan w d all new).1).1 = convertedDisk w d all new from rfl]
  have hinv : ConvInv d (convertedDisk w d all new) done (bs1 ++ bs2) := by rw [← hb]; exact hp.inv
  have hent : ∀ p b, (p, b) ∈ bs1 → ((convertedDisk w d all new).get p).isSome = true ∧
      ((convertedDisk w d all new).get b).isSome = true := by
    intro p b hpb
    exact ⟨hinv.there p b (by simp [hpb]) (hb1 _ hpb), (hinv.entry p b (by simp [hpb])).2.2.2⟩
  obtain ⟨g1, g2, g3⟩ := revert_ok bs2 bs1 (RestInv.ofConv hinv) hent
  have hbackup : ∀ p b, (p, b) ∈ bs1 → b.1 = .new := by
    intro p b hpb
    have h1 := hb1 _ hpb
    have h2 := (hinv.entry p b (by simp [hpb])).2.1
    cases h2 with
    | bak => rfl
    | rpmsave => cases h1
  have hops : revertOps (convertPlan w d all new).2 = revertOps bs1 ++ revertOps bs2 := by
    rw [hb]; unfold revertOps; rw [List.flatMap_append]
  rw [hops, runAll_append _ _ _ g1]
  have hold : ∀ n, ((convertedDisk w d all new).runAll (revertOps bs1)).1.get (.old, n) =
      (convertedDisk w d all new).get (.old, n) := by
    intro n
    apply g3
    intro p b hpb
    refine ⟨?_, ?_⟩
    · rintro rfl; have := hb1 _ hpb; cases this
    · rintro rfl; have := hbackup _ _ hpb; cases this
  cases bs2 with
  | nil =>
    have e : revertOps [] = ([] : List ConvOp) := rfl
    rw [e]
    have hall : ∀ p t, d.get p = some t → ((convertedDisk w d all new).runAll (revertOps bs1)).1.get p = some t := by
      intro p t ht
      rcases g2.kept p t ht with h | ⟨b, hb⟩
      · exact h
      · cases hb
    refine ⟨fun n t ht => hall _ t ht, fun n hn hne => absurd rfl (hb3 n hn hne).2, fun _ => ⟨rfl, hall⟩⟩
  | cons fb rest =>
    obtain ⟨p, b⟩ := fb
    have hfail : ((convertedDisk w d all new).runAll (revertOps bs1)).1.runAll (revertOps ((p, b) :: rest)) =
        (((convertedDisk w d all new).runAll (revertOps bs1)).1, false) := by
      obtain ⟨n, hn, hg, hd0⟩ := hb2 (p, b) (by simp)
      dsimp only at hn
      subst hn
      have e : revertOps (((.old, n), b) :: rest) = .unlink (.old, n) :: .rename b (.old, n) :: revertOps rest := rfl
      rw [e, ConvDisk.runAll]
      have : ((convertedDisk w d all new).runAll (revertOps bs1)).1.run (.unlink (.old, n)) = none := by
        simp [ConvDisk.run, hold, hg]
      rw [this]
    rw [hfail]
    dsimp only
    refine ⟨?_, ?_, ?_⟩
    · intro n t ht
      rcases g2.kept _ t ht with h | ⟨b', hb'⟩
      · exact h
      · obtain ⟨m, hm, _⟩ := hb2 _ hb'
        cases hm
    · intro n hn hne
      exact ⟨rfl, by rw [hold]; exact (hb3 n hn hne).1⟩
    · intro hno
      exfalso
      obtain ⟨n, hn, hg, hd0⟩ := hb2 (p, b) (by simp)
      dsimp only at hn
      subst hn
      have hk := hinv.entry (.old, n) b (by simp)
      rcases hinv.plain _ hk.1 with h | ⟨_, h⟩
      · cases h.1
      · exact h (hno n hd0)

end Qrexec
