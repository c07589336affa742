import Verif.Lemmas.LoadSame
import Verif.Lemmas.Sort
import Mathlib.Tactic.ByContra

namespace Qrexec
open Spec

theorem collectRules_ok {α : Type} {f : α → Except Err (List Rule)} {l : List α}
    {rules : List Rule} :
    collectRules f l = .ok rules ↔
      ∃ parts, List.Forall₂ (fun x p => f x = .ok p) l parts ∧ rules = parts.flatten := by
  induction l generalizing rules with
  | nil =>
    simp only [collectRules, Except.ok.injEq]
    constructor
    · rintro rfl; exact ⟨[], .nil, rfl⟩
    · rintro ⟨parts, h, rfl⟩; cases h; rfl
  | cons x xs ih =>
    simp only [collectRules, bind_eq_ok, pure_ok, Except.ok.injEq]
    constructor
    · rintro ⟨a, ha, b, hb, rfl⟩
      obtain ⟨parts, hp, rfl⟩ := ih.1 hb
      exact ⟨a :: parts, .cons ha hp, rfl⟩
    · rintro ⟨parts, h, rfl⟩
      cases h with
      | cons ha hp => exact ⟨_, ha, _, ih.2 ⟨_, hp, rfl⟩, rfl⟩

theorem collectRules_error_of {α : Type} {f : α → Except Err (List Rule)} {l : List α} {x : α}
    (hx : x ∈ l) {e : Err} (h : f x = .error e) : ∃ e', collectRules f l = .error e' := by
  cases hc : collectRules f l with
  | error e' => exact ⟨e', rfl⟩
  | ok rules =>
    obtain ⟨parts, hp, hfl⟩ := collectRules_ok.1 hc
    exfalso
    clear hc hfl
    induction hp with
    | nil => simp at hx
    | cons ha _ ih =>
      rcases List.mem_cons.1 hx with rfl | hx
      · rw [h] at ha; simp at ha
      · exact ih hx

theorem collectRules_error {α : Type} {f : α → Except Err (List Rule)} {l : List α} {e : Err}
    (h : collectRules f l = .error e) : ∃ x ∈ l, f x = .error e := by
  induction l with
  | nil => simp [collectRules] at h
  | cons x xs ih =>
    simp only [collectRules, bind_eq_error, pure_ok, reduceCtorEq, and_false, exists_false,
      or_false] at h
    rcases h with h | ⟨a, ha, h⟩
    · exact ⟨x, by simp, h⟩
    · obtain ⟨y, hy, h'⟩ := ih h
      exact ⟨y, by simp [hy], h'⟩

theorem collectRules_append {α : Type} (f : α → Except Err (List Rule)) (l1 l2 : List α) :
    collectRules f (l1 ++ l2) =
      (do let a ← collectRules f l1; let b ← collectRules f l2; return a ++ b) := by
  induction l1 with
  | nil => simp only [List.nil_append, collectRules, ok_bind]; cases collectRules f l2 <;> rfl
  | cons x xs ih =>
    rw [List.cons_append]
    simp only [collectRules]
    rw [ih]
    cases f x with
    | error e => rfl
    | ok a =>
      simp only [ok_bind]
      cases collectRules f xs with
      | error e => rfl
      | ok b =>
        simp only [ok_bind]
        cases collectRules f l2 with
        | error e => rfl
        | ok c => simp

theorem fileNameChar_lt {c : Char} (h : fileNameChar c = true) : c.toNat < 128 := by
  simp only [fileNameChar, Bool.or_eq_true, Bool.and_eq_true, decide_eq_true_eq, beq_iff_eq,
    Char.le_def, UInt32.le_iff_toNat_le] at h
  change c.val.toNat < 128
  rcases h with ((((h | h) | h) | h) | h)
  · have : ('9' : Char).val.toNat = 57 := rfl
    omega
  · have : ('z' : Char).val.toNat = 122 := rfl
    omega
  all_goals subst h; decide

theorem policyNameChar_iff (c : Char) : fileNameChar c = true ↔ PolicyNameChar c := by
  constructor
  · intro h
    have key : ∀ n : Fin 128, fileNameChar (Char.ofNat n.1) = true → Char.ofNat n.1 ∈
        c!"0123456789abcdefghijklmnopqrstuvwxyz_.-" := by decide
    have := key ⟨c.toNat, fileNameChar_lt h⟩
    simp only [char_ofNat_toNat] at this
    exact this h
  · intro h
    have key : ∀ c ∈ c!"0123456789abcdefghijklmnopqrstuvwxyz_.-",
      fileNameChar c = true := by decide
    exact key c h

theorem endsWith_iff {p s : Str} : endsWith p s = true ↔ ∃ t, s = t ++ p := by
  unfold endsWith
  rw [List.isSuffixOf_iff_suffix]
  constructor
  · rintro ⟨t, h⟩; exact ⟨t, h.symm⟩
  · rintro ⟨t, h⟩; exact ⟨t, h.symm⟩

theorem startsDot_iff {s : Str} : startsWith c!"." s = true ↔ s.head? = some '.' := by
  cases s with
  | nil => simp [startsWith]
  | cons c cs =>
    simp only [startsWith, List.isPrefixOf, Bool.and_true, beq_iff_eq, List.head?_cons,
      Option.some.injEq]
    exact ⟨Eq.symm, Eq.symm⟩

theorem isPolicyFile_iff {fs : FS} {d : Path} {names : List Str} (hd : fs.dir d = some names)
    {name : Str} : (name ∈ names ∧ isPolicyFile fs d name = true) ↔ PolicyFile fs d name := by
  unfold isPolicyFile PolicyFile
  rw [Bool.and_eq_true, Bool.and_eq_true, endsWith_iff, Bool.not_eq_true', Bool.eq_false_iff, ne_eq,
    startsDot_iff, Option.isSome_iff_ne_none, hd]
  simp only [Option.some.injEq, exists_eq_left', and_assoc, ne_eq]

theorem filterFilepaths_ok {fs : FS} {d : Path} {names files : List Str}
    (h : filterFilepaths fs d names = .ok files) :
    files = sortBy strLe (names.filter (isPolicyFile fs d)) ∧
      ∀ n ∈ names, isPolicyFile fs d n = true → ∀ c ∈ n, PolicyNameChar c := by
  unfold filterFilepaths at h
  simp only [bind_eq_ok, require_eq_ok, pure_ok, Except.ok.injEq, List.all_eq_true] at h
  obtain ⟨_, h1, h2⟩ := h
  refine ⟨h2.symm, fun n hn hp c hc => (policyNameChar_iff c).1 ?_⟩
  exact h1 n (List.mem_filter.2 ⟨hn, hp⟩) c hc

theorem filterFilepaths_error {fs : FS} {d : Path} {names : List Str} {e : Err}
    (h : filterFilepaths fs d names = .error e) : e = .accessDenied true := by
  unfold filterFilepaths at h
  simp only [bind_eq_error, require_eq_error, pure_ok, reduceCtorEq, and_false, exists_false,
    or_false] at h
  exact h.2.symm

theorem filterFilepaths_mem {fs : FS} {d : Path} {names files : List Str}
    (hd : fs.dir d = some names) (h : filterFilepaths fs d names = .ok files) (n : Str) :
    n ∈ files ↔ PolicyFile fs d n := by
  rw [(filterFilepaths_ok h).1, mem_sortBy, List.mem_filter, isPolicyFile_iff hd]

theorem filterFilepaths_nodup {fs : FS} {d : Path} {names files : List Str}
    (hn : names.Nodup) (h : filterFilepaths fs d names = .ok files) : files.Nodup := by
  rw [(filterFilepaths_ok h).1]
  exact (sortBy_perm _ _).nodup_iff.2 (hn.filter _)

theorem selectFiles_spec {fs : FS} (hdn : DistinctNames fs) :
    ∀ {dirs : List Path} {seen : List Str} {files : List (Path × Str)},
      selectFiles fs dirs seen = .ok files →
      (∀ f, f ∈ files ↔ f.2 ∉ seen ∧ Chosen fs dirs f) ∧ (files.map Prod.snd).Nodup := by
  intro dirs
  induction dirs with
  | nil =>
    intro seen files h
    simp only [selectFiles, Except.ok.injEq] at h
    subst h
    refine ⟨fun f => ?_, by simp⟩
    simp only [List.not_mem_nil, false_iff]
    rintro ⟨_, pre, post, h, _⟩
    simp at h
  | cons d ds ih =>
    intro seen files h
    simp only [selectFiles] at h
    rcases Option.eq_none_or_eq_some (fs.dir d) with hd | ⟨names, hd⟩
    · rw [hd] at h; simp at h
    · rw [hd] at h
      simp only [bind_eq_ok, pure_ok, Except.ok.injEq] at h
      obtain ⟨here, hh, rest, hr, rfl⟩ := h
      obtain ⟨hmem, hnd⟩ := ih hr
      have hm := filterFilepaths_mem hd hh
      have hno := filterFilepaths_nodup (hdn d names hd) hh
      constructor
      · rintro ⟨fd, fn⟩
        rw [List.mem_append, hmem]
        simp only [List.mem_map, List.mem_filter, Prod.mk.injEq, List.mem_append]
        constructor
        · rintro (⟨n, ⟨h1, h2⟩, rfl, rfl⟩ | ⟨h1, pre, post, h2, h3, h4⟩)
          · exact ⟨by simpa using h2, [], ds, rfl, (hm n).1 h1, by simp⟩
          · refine ⟨fun hs => h1 (Or.inl hs), d :: pre, post, by rw [h2]; rfl, h3, ?_⟩
            intro d' hd'
            rcases List.mem_cons.1 hd' with rfl | hd'
            · intro hp
              by_cases hs : fn ∈ seen
              · exact h1 (Or.inl hs)
              · exact h1 (Or.inr ⟨(hm fn).2 hp, by simpa using hs⟩)
            · exact h4 d' hd'
        · rintro ⟨h1, pre, post, h2, h3, h4⟩
          cases pre with
          | nil =>
            simp only [List.nil_append, List.cons.injEq] at h2
            left
            exact ⟨fn, ⟨(hm fn).2 (h2.1 ▸ h3), by simpa using h1⟩, h2.1, rfl⟩
          | cons p ps =>
            simp only [List.cons_append, List.cons.injEq] at h2
            right
            refine ⟨?_, ps, post, h2.2, h3, fun d' hd' => h4 d' (by simp [hd'])⟩
            rintro (hs | ⟨hs, _⟩)
            · exact h1 hs
            · exact h4 p (by simp) (h2.1 ▸ (hm fn).1 hs)
      · rw [List.map_append, List.nodup_append]
        refine ⟨?_, hnd, ?_⟩
        · rw [List.map_map]
          have : (here.filter fun n => !seen.contains n).map (Prod.snd ∘ fun n => (d, n)) =
              here.filter fun n => !seen.contains n := by
            rw [show (Prod.snd ∘ fun n => (d, n)) = (id : Str → Str) from rfl, List.map_id]
          rw [this]
          exact hno.filter _
        · rintro a ha b hb rfl
          simp only [List.mem_map] at ha hb
          obtain ⟨⟨d1, n1⟩, ha, rfl⟩ := ha
          obtain ⟨⟨d2, n2⟩, hb, hb'⟩ := hb
          simp only at hb'
          subst hb'
          obtain ⟨n, hn, hn'⟩ := ha
          simp only [Prod.mk.injEq] at hn'
          obtain ⟨_, rfl⟩ := hn'
          exact ((hmem _).1 hb).1 (List.mem_append.2 (Or.inr hn))

theorem selectFiles_error {fs : FS} {dirs : List Path} {seen : List Str} {e : Err}
    (h : selectFiles fs dirs seen = .error e) : e = .osError ∨ e = .accessDenied true := by
  induction dirs generalizing seen with
  | nil => simp [selectFiles] at h
  | cons d ds ih =>
    simp only [selectFiles] at h
    rcases Option.eq_none_or_eq_some (fs.dir d) with hd | ⟨names, hd⟩
    · rw [hd] at h; simp at h; exact Or.inl h.symm
    · rw [hd] at h
      simp only [bind_eq_error, pure_ok, reduceCtorEq, and_false, exists_false, or_false] at h
      rcases h with h | ⟨_, _, h⟩
      · exact Or.inr (filterFilepaths_error h)
      · exact ih h

/-- A successful selection means every directory is readable and all names are fine. -/
theorem selectFiles_names {fs : FS} {dirs : List Path} {seen : List Str}
    {files : List (Path × Str)} (h : selectFiles fs dirs seen = .ok files) :
    ∀ d ∈ dirs, fs.dir d ≠ none ∧ ∀ n, PolicyFile fs d n → ∀ c ∈ n, PolicyNameChar c := by
  induction dirs generalizing seen files with
  | nil => simp
  | cons d ds ih =>
    simp only [selectFiles] at h
    rcases Option.eq_none_or_eq_some (fs.dir d) with hd | ⟨names, hd⟩
    · rw [hd] at h; simp at h
    · rw [hd] at h
      simp only [bind_eq_ok, pure_ok, Except.ok.injEq] at h
      obtain ⟨here, hh, rest, hr, rfl⟩ := h
      intro d' hd'
      rcases List.mem_cons.1 hd' with rfl | hd'
      · refine ⟨by rw [hd]; simp, fun n hn c hc => ?_⟩
        have := (isPolicyFile_iff hd).2 hn
        exact (filterFilepaths_ok hh).2 n this.1 this.2 c hc
      · exact ih hr d' hd'

/-! ### Order of listings -/

theorem sortBy_strLe_perm {l1 l2 : List Str} (hp : l1.Perm l2) (hn : l1.Nodup) :
    sortBy strLe l1 = sortBy strLe l2 := by
  have := sortBy_eq_of_perm (key := (id : Str → Str)) hp (by simpa using hn)
  exact this

theorem filterFilepaths_relist {a b : FS} (h : Relisted a b) {d : Path} {x y : List Str}
    (hp : x.Perm y) (hn : x.Nodup) : filterFilepaths a d x = filterFilepaths b d y := by
  have hi : isPolicyFile a d = isPolicyFile b d := by
    funext n; unfold isPolicyFile; rw [h.file]
  have hpf := hp.filter (isPolicyFile b d)
  unfold filterFilepaths
  simp only [hi]
  rw [sortBy_strLe_perm hpf (hn.filter _)]
  have : (List.filter (isPolicyFile b d) x).all (fun n => n.all fileNameChar) =
      (List.filter (isPolicyFile b d) y).all (fun n => n.all fileNameChar) := by
    rw [Bool.eq_iff_iff, List.all_eq_true, List.all_eq_true]
    constructor
    · intro h z hz; exact h z (hpf.mem_iff.2 hz)
    · intro h z hz; exact h z (hpf.mem_iff.1 hz)
  rw [this]

theorem selectFiles_relist {a b : FS} (h : Relisted a b) (hdn : DistinctNames a)
    (dirs : List Path) (seen : List Str) : selectFiles a dirs seen = selectFiles b dirs seen := by
  induction dirs generalizing seen with
  | nil => rfl
  | cons d ds ih =>
    simp only [selectFiles]
    rcases h.dir d with ⟨h1, h2⟩ | ⟨x, y, h1, h2, hp⟩
    · rw [h1, h2]
    · rw [h1, h2]
      simp only
      rw [filterFilepaths_relist h hp (hdn d x h1)]
      simp only [ih]

theorem openPath_relist {a b : FS} (h : Relisted a b) : openPath a = openPath b := by
  funext p; unfold openPath; rw [h.file]

theorem resolveFilepath_relist {a b : FS} (h : Relisted a b) :
    resolveFilepath a = resolveFilepath b := by
  funext p i; unfold resolveFilepath; rw [h.file, h.resolve]

theorem resolveDir_relist {a b : FS} (h : Relisted a b) (hdn : DistinctNames a) :
    resolveDir a = resolveDir b := by
  funext base i
  unfold resolveDir
  rw [h.resolve]
  simp only
  rcases h.dir (b.resolve (joinPath base i)) with ⟨h1, h2⟩ | ⟨x, y, h1, h2, hp⟩
  · rw [h1, h2]
  · rw [h1, h2]
    simp only
    rw [filterFilepaths_relist h hp (hdn _ x h1), openPath_relist h]

theorem parseServiceAndArgument_inj {a b : Str}
    (h : parseServiceAndArgument a = parseServiceAndArgument b) : a = b := by
  unfold parseServiceAndArgument at h
  rcases Option.eq_none_or_eq_some (splitOnce '+' a) with ha | ⟨⟨a1, a2⟩, ha⟩ <;>
  rcases Option.eq_none_or_eq_some (splitOnce '+' b) with hb | ⟨⟨b1, b2⟩, hb⟩ <;>
  rw [ha, hb] at h <;> simp at h
  · exact h
  · rw [(splitOnce_eq_some.1 ha).1, (splitOnce_eq_some.1 hb).1, h.1, h.2]

theorem argLe_total (a b : Str) : argLe a b = true ∨ argLe b a = true := by
  unfold argLe
  by_cases h : a = b
  · simp [h]
  · by_cases ha : a = c!"*"
    · right
      simp [ha]
    · by_cases hb : b = c!"*"
      · left; simp [hb]
      · rcases strLt_total a b with h' | h' | h'
        · left; simp [h', ha, hb]
        · exact absurd h' h
        · right; simp [h', ha, hb]

theorem argLe_trans {a b c : Str} (h1 : argLe a b = true) (h2 : argLe b c = true) :
    argLe a c = true := by
  unfold argLe at *
  simp only [beq_iff_eq] at *
  by_cases hab : a = b
  · subst hab; exact h2
  · by_cases hbc : b = c
    · subst hbc; exact h1
    · rw [if_neg hab] at h1
      rw [if_neg hbc] at h2
      by_cases hac : a = c
      · rw [if_pos hac]
      · rw [if_neg hac]
        by_cases ha : a = c!"*"
        · rw [if_pos ha] at h1; simp at h1
        · rw [if_neg ha] at h1 ⊢
          by_cases hb : b = c!"*"
          · rw [if_pos hb] at h2; simp at h2
          · rw [if_neg hb] at h1 h2
            by_cases hc : c = c!"*"
            · rw [if_pos hc]
            · rw [if_neg hc] at h2 ⊢
              exact strLt_trans h1 h2

theorem argLe_antisymm {a b : Str} (h1 : argLe a b = true) (h2 : argLe b a = true) : a = b := by
  by_contra hab
  unfold argLe at h1 h2
  simp only [beq_iff_eq] at h1 h2
  rw [if_neg hab] at h1
  rw [if_neg (Ne.symm hab)] at h2
  by_cases ha : a = c!"*"
  · rw [if_pos ha] at h1; simp at h1
  · rw [if_neg ha] at h1 h2
    by_cases hb : b = c!"*"
    · rw [if_pos hb] at h2; simp at h2
    · rw [if_neg hb] at h1 h2
      rw [strLt_asymm h1] at h2; simp at h2

theorem compatLe_total (a b : Str × Str × Str) : compatLe a b = true ∨ compatLe b a = true := by
  unfold compatLe
  by_cases h : a.1 = b.1
  · simp only [h, beq_self_eq_true, if_true]; exact argLe_total _ _
  · simp only [beq_iff_eq, if_neg h, if_neg (Ne.symm h)]
    rcases strLt_total a.1 b.1 with h' | h' | h'
    · exact Or.inl h'
    · exact absurd h' h
    · exact Or.inr h'

theorem compatLe_trans (a b c : Str × Str × Str) (h1 : compatLe a b = true)
    (h2 : compatLe b c = true) : compatLe a c = true := by
  unfold compatLe at *
  simp only [beq_iff_eq] at *
  by_cases hab : a.1 = b.1
  · rw [if_pos hab] at h1
    by_cases hbc : b.1 = c.1
    · rw [if_pos hbc] at h2
      rw [if_pos (hab.trans hbc)]
      exact argLe_trans h1 h2
    · rw [if_neg hbc] at h2
      rw [if_neg (fun h => hbc (hab.symm.trans h)), hab]
      exact h2
  · rw [if_neg hab] at h1
    by_cases hbc : b.1 = c.1
    · rw [if_neg (fun h => hab (h.trans hbc.symm)), ← hbc]
      exact h1
    · rw [if_neg hbc] at h2
      have h3 := strLt_trans h1 h2
      rw [if_neg (fun h => by rw [h, strLt_irrefl] at h3; simp at h3)]
      exact h3

/-- Strict order of legacy files: by service, then argument with `*` last. -/
def compatLt (a b : Str × Str × Str) : Prop :=
  compatLe a b = true ∧ ¬ (a.1 = b.1 ∧ a.2.1 = b.2.1)

theorem compatLe_antisymm {a b : Str × Str × Str} (h1 : compatLe a b = true)
    (h2 : compatLe b a = true) : a.1 = b.1 ∧ a.2.1 = b.2.1 := by
  unfold compatLe at *
  simp only [beq_iff_eq] at *
  by_cases hab : a.1 = b.1
  · rw [if_pos hab] at h1
    rw [if_pos hab.symm] at h2
    exact ⟨hab, argLe_antisymm h1 h2⟩
  · rw [if_neg hab] at h1
    rw [if_neg (Ne.symm hab)] at h2
    rw [strLt_asymm h1] at h2; simp at h2

theorem compatLt_trans (a b c : Str × Str × Str) (h1 : compatLt a b) (h2 : compatLt b c) :
    compatLt a c := by
  refine ⟨compatLe_trans a b c h1.1 h2.1, fun h => ?_⟩
  have hcb : compatLe c b = true := by
    have := h1.1
    unfold compatLe at this ⊢
    rw [h.1, h.2] at this
    exact this
  exact h2.2 (compatLe_antisymm h2.1 hcb)

/-- The triple of a legacy file name. -/
def compatTriple (n : Str) : Str × Str × Str :=
  ((parseServiceAndArgument n).1, (parseServiceAndArgument n).2, n)

theorem compat_sorted {l : List Str} (hn : l.Nodup) :
    (sortBy compatLe (l.map compatTriple)).Pairwise compatLt := by
  have hp := sortBy_pairwise compatLe_total compatLe_trans (l.map compatTriple)
  have hk : ((sortBy compatLe (l.map compatTriple)).map fun t => (t.1, t.2.1)).Nodup := by
    refine ((sortBy_perm compatLe (l.map compatTriple)).map _).nodup_iff.2 ?_
    rw [List.map_map]
    rw [List.Nodup, List.pairwise_map]
    refine hn.imp ?_
    intro a b hab h
    exact hab (parseServiceAndArgument_inj h)
  rw [List.Nodup, List.pairwise_map] at hk
  refine (hp.and hk).imp ?_
  rintro a b ⟨h1, h2⟩
  exact ⟨h1, fun h => h2 (Prod.ext h.1 h.2)⟩

theorem walkCompat_eq {fs : FS} {legacy : Path} {names : List Str}
    (h : fs.dir legacy = some names) :
    walkCompat fs legacy =
      .ok (sortBy compatLe ((names.filter (isCompatFile fs legacy)).map compatTriple)) := by
  unfold walkCompat; rw [h]; rfl

theorem compat40_relist {a b : FS} (h : Relisted a b) (hdn : DistinctNames a) (legacy : Path) :
    compat40 a legacy = compat40 b legacy := by
  have h1 : isCompatFile a legacy = isCompatFile b legacy := by
    funext n; unfold isCompatFile; rw [h.file]
  have h2 : walkCompat a legacy = walkCompat b legacy := by
    rcases h.dir legacy with ⟨ha, hb⟩ | ⟨x, y, ha, hb, hp⟩
    · unfold walkCompat; rw [ha, hb]
    · rw [walkCompat_eq ha, walkCompat_eq hb, h1]
      congr 1
      have hx := hdn _ _ ha
      have hpf := hp.filter (isCompatFile b legacy)
      refine strict_sorted_unique (lt := compatLt) (fun a h => h.2 ⟨rfl, rfl⟩) compatLt_trans
        (compat_sorted (hx.filter _)) (compat_sorted (hpf.nodup_iff.1 (hx.filter _))) fun t => ?_
      rw [mem_sortBy, mem_sortBy, (hpf.map _).mem_iff]
  have h3 : compatBlock a legacy = compatBlock b legacy := by
    funext n f
    unfold compatBlock
    rw [h.file, h.resolve, resolveFilepath_relist h]
  funext n
  unfold compat40
  rw [h2, h3]

theorem policyEnv_relist {a b : FS} (h : Relisted a b) (hdn : DistinctNames a)
    (legacy base : Path) : policyEnv a legacy base = policyEnv b legacy base := by
  unfold policyEnv
  rw [resolveFilepath_relist h, resolveDir_relist h hdn, compat40_relist h hdn]

theorem filePolicy_relist {a b : FS} (h : Relisted a b) (hdn : DistinctNames a) (legacy : Path)
    (dirs : List Path) (n : Nat) : filePolicy a legacy dirs n = filePolicy b legacy dirs n := by
  have hl : loadTopFile a legacy n = loadTopFile b legacy n := by
    funext f
    unfold loadTopFile
    rw [openPath_relist h, policyEnv_relist h hdn]
  unfold filePolicy loadPolicyDirs
  rw [selectFiles_relist h hdn, hl]

end Qrexec
