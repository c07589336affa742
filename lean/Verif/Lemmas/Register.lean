import Verif.Spec.Register
import Verif.Props.Load
import Verif.Props.RuleLine
import Verif.Lemmas.AdminLoad
import Verif.Props.AdminConc

namespace Qrexec
open Spec

/-! ### Lines of a text that grows -/

theorem universalNewlines_append_nl (a b : Str) :
    universalNewlines (a ++ '\n' :: b) = universalNewlines (a ++ ['\n']) ++ universalNewlines b := by
  induction a using universalNewlines.induct with
  | case1 => simp [universalNewlines]
  | case2 cs ih => simp only [List.cons_append, universalNewlines, ih]
  | case3 cs hne ih =>
    cases cs with
    | nil => simp [universalNewlines]
    | cons c cs =>
      have hc : c ≠ '\n' := fun h => hne cs (by rw [h])
      simp only [List.cons_append] at ih ⊢
      rw [universalNewlines.eq_3, universalNewlines.eq_3, ih]
      · rfl
      · rintro x ⟨⟩; exact hc rfl
      · rintro x ⟨⟩; exact hc rfl
  | case4 c cs h1 h2 ih =>
    simp only [List.cons_append]
    rw [universalNewlines.eq_4, universalNewlines.eq_4, ih]
    · rfl
    all_goals first
      | exact fun x hx => h1 x hx
      | skip
    all_goals (intros; simp_all)

theorem universalNewlines_plain {s : Str} (h : '\r' ∉ s) : universalNewlines s = s := by
  induction s with
  | nil => rfl
  | cons c cs ih =>
    simp only [List.mem_cons, not_or] at h
    rw [universalNewlines.eq_4, ih h.2]
    · intro x hx; exact absurd hx (Ne.symm h.1)
    · intro hx; exact absurd hx (Ne.symm h.1)

theorem splitOn_append_nl (sep : Char) (a b : Str) :
    splitOn sep (a ++ sep :: b) = splitOn sep a ++ splitOn sep b := by
  induction a with
  | nil => simp [splitOn]
  | cons c cs ih =>
    by_cases hc : c = sep
    · subst hc
      rw [List.cons_append, splitOn_cons_eq, splitOn_cons_eq, ih]; rfl
    · obtain ⟨w, ws, h1, h2⟩ := splitOn_cons_other hc (cs ++ sep :: b)
      obtain ⟨w', ws', h1', h2'⟩ := splitOn_cons_other hc cs
      rw [List.cons_append, h2, h2']
      rw [ih, h1'] at h1
      simp only [List.cons_append, List.cons.injEq] at h1
      rw [← h1.1, ← h1.2]; rfl

theorem universalNewlines_ends (u : Str) : ∃ v, universalNewlines (u ++ ['\n']) = v ++ ['\n'] := by
  induction u using universalNewlines.induct with
  | case1 => exact ⟨[], rfl⟩
  | case2 cs ih =>
    obtain ⟨v, hv⟩ := ih
    exact ⟨'\n' :: v, by simp only [List.cons_append, universalNewlines, hv]⟩
  | case3 cs hne ih =>
    obtain ⟨v, hv⟩ := ih
    cases cs with
    | nil => exact ⟨[], by simp [universalNewlines]⟩
    | cons c cs =>
      refine ⟨'\n' :: v, ?_⟩
      simp only [List.cons_append] at hv ⊢
      rw [universalNewlines.eq_3, hv]
      rintro x ⟨⟩; exact hne cs rfl
  | case4 c cs h1 h2 ih =>
    obtain ⟨v, hv⟩ := ih
    refine ⟨c :: v, ?_⟩
    simp only [List.cons_append]
    rw [universalNewlines.eq_4, hv]
    all_goals (intros; simp_all)

/-- The text is empty or ends with a newline. -/
def EndsOk (t : Str) : Prop := t = [] ∨ ∃ u, t = u ++ ['\n']

theorem EndsOk.append {t x : Str} (hx : EndsOk x) (ht : EndsOk t) : EndsOk (t ++ x) := by
  rcases hx with rfl | ⟨u, rfl⟩
  · rwa [List.append_nil]
  · exact Or.inr ⟨t ++ u, by rw [List.append_assoc]⟩

/-- A complete line of a text is one of its lines. -/
theorem splitOn_mem_line {pre core post : Str} (hp : EndsOk pre) (hc : '\n' ∉ core) :
    core ∈ splitOn '\n' (pre ++ (core ++ '\n' :: post)) := by
  rcases hp with rfl | ⟨u, rfl⟩
  · rw [List.nil_append, splitOn_append_nl, splitOn_of_not_mem hc]; simp
  · rw [List.append_assoc, List.singleton_append, splitOn_append_nl, splitOn_append_nl,
      splitOn_of_not_mem hc]
    simp

theorem fileLines_mem_line {t pre core post : Str} (ht : EndsOk t) (hp : EndsOk pre)
    (hc : '\n' ∉ core) (hr : '\r' ∉ pre ++ (core ++ '\n' :: post)) :
    core ∈ fileLines (t ++ (pre ++ (core ++ '\n' :: post))) := by
  unfold fileLines
  rcases ht with rfl | ⟨u, rfl⟩
  · rw [List.nil_append, universalNewlines_plain hr]
    exact splitOn_mem_line hp hc
  · rw [List.append_assoc, List.singleton_append, universalNewlines_append_nl,
      universalNewlines_plain hr]
    obtain ⟨v, hv⟩ := universalNewlines_ends u
    rw [hv, ← List.append_assoc]
    exact splitOn_mem_line (hp.append (Or.inr ⟨v, rfl⟩)) hc

/-! ### One line -/

theorem regChar_iff (c : Char) : regChar c = true ↔
    c ∈ c!"ABCDEFGHIJKLMNOPQRSTUVWXYZabcdefghijklmnopqrstuvwxyz0123456789-._" := by
  constructor
  · intro h
    have hlt : c.toNat < 128 := by
      simp only [regChar, Bool.or_eq_true, Bool.and_eq_true, decide_eq_true_eq, beq_iff_eq] at h
      rcases h with ((((⟨_, h⟩ | ⟨_, h⟩) | ⟨_, h⟩) | rfl) | rfl) | rfl
      · exact Nat.lt_of_le_of_lt (show c.toNat ≤ 122 from h) (by decide)
      · exact Nat.lt_of_le_of_lt (show c.toNat ≤ 90 from h) (by decide)
      · exact Nat.lt_of_le_of_lt (show c.toNat ≤ 57 from h) (by decide)
      all_goals decide
    have key : ∀ n < 128, regChar (Char.ofNat n) = true → Char.ofNat n ∈
        c!"ABCDEFGHIJKLMNOPQRSTUVWXYZabcdefghijklmnopqrstuvwxyz0123456789-._" := by decide
    have := key c.toNat hlt
    rw [char_ofNat_toNat] at this
    exact this h
  · intro h
    revert h
    have key : ∀ x ∈ c!"ABCDEFGHIJKLMNOPQRSTUVWXYZabcdefghijklmnopqrstuvwxyz0123456789-._",
        regChar x = true := by decide
    exact key c

theorem validArgument_iff (a : Bytes) :
    ValidArgument a ↔ ¬ 64 < a.length ∧ a.isEmpty = false ∧ a.all regChar = true := by
  unfold ValidArgument
  simp only [Nat.not_lt, List.isEmpty_eq_false_iff, List.all_eq_true, regChar_iff]
  constructor
  · rintro ⟨h1, h2, h3⟩
    exact ⟨h2, by rintro rfl; simp at h1, h3⟩
  · rintro ⟨h1, h2, h3⟩
    exact ⟨List.length_pos_iff.2 h2, h1, h3⟩

theorem nameChar_word {c : Char} (h : NameChar c) : c.toNat < 128 ∧ isSpace c = false ∧ c ≠ '#' ∧
    c ≠ '!' ∧ c ≠ '*' := by
  revert h
  have key : ∀ x ∈ c!"ABCDEFGHIJKLMNOPQRSTUVWXYZabcdefghijklmnopqrstuvwxyz0123456789+-._",
      x.toNat < 128 ∧ isSpace x = false ∧ x ≠ '#' ∧ x ≠ '!' ∧ x ≠ '*' := by decide
  exact key c

theorem argChar_nameChar {c : Char} (h : c ∈ c!"ABCDEFGHIJKLMNOPQRSTUVWXYZabcdefghijklmnopqrstuvwxyz0123456789-._") :
    NameChar c := by
  revert h
  have key : ∀ x ∈ c!"ABCDEFGHIJKLMNOPQRSTUVWXYZabcdefghijklmnopqrstuvwxyz0123456789-._",
      x ∈ c!"ABCDEFGHIJKLMNOPQRSTUVWXYZabcdefghijklmnopqrstuvwxyz0123456789+-._" := by decide
  exact key c

/-- The line without its newline. -/
def regCore (r : Registration) : Str :=
  r.service ++ ' ' :: ('+' :: r.argument ++ ' ' :: (r.frontend ++ ' ' :: (r.backend ++ c!" allow")))

theorem line_core (r : Registration) : r.line = regCore r ++ ['\n'] := by
  unfold Registration.line regCore
  simp only [List.append_assoc, List.cons_append, List.nil_append]

theorem regRule_line (r : Registration) :
    regRule r.service r.argument r.frontend r.backend = r.line := rfl

theorem words_sp {w rest : Str} {ws : List Str} (hne : w ≠ []) (hw : ∀ c ∈ w, isSpace c = false)
    (h : splitWs rest = ws) : splitWs (w ++ ' ' :: rest) = w :: ws := by
  unfold splitWs at h ⊢
  rw [splitWs_word hne hw (by intro c hc; cases hc; decide), splitWsAux_space (by decide), h]

theorem words_core {r : Registration} (hp : r.Plain) (ha : ValidArgument r.argument) :
    splitWs (regCore r) = [r.service, '+' :: r.argument, r.frontend, r.backend, c!"allow"] := by
  unfold regCore
  refine words_sp hp.service.1 (fun c hc => (nameChar_word (hp.service.2 c hc)).2.1) ?_
  refine words_sp (by simp) ?_ ?_
  · intro c hc
    rcases List.mem_cons.1 hc with rfl | hc
    · decide
    · exact (nameChar_word (argChar_nameChar (ha.2.2 c hc))).2.1
  · refine words_sp hp.frontend.1 (fun c hc => (hp.frontend.2 c hc).2) ?_
    exact words_sp hp.backend.1 (fun c hc => (hp.backend.2 c hc).2) (by decide)

theorem core_chars {r : Registration} (hp : r.Plain) (ha : ValidArgument r.argument) :
    ∀ c ∈ regCore r, c.toNat < 128 ∧ c ≠ '\n' ∧ c ≠ '\r' := by
  have key : ∀ c : Char, isSpace c = false → c ≠ '\n' ∧ c ≠ '\r' := by
    intro c h
    constructor <;> (rintro rfl; revert h; decide)
  intro c hc
  unfold regCore at hc
  simp only [List.mem_append, List.mem_cons] at hc
  rcases hc with h | rfl | (rfl | h) | rfl | h | rfl | h | h
  · have := nameChar_word (hp.service.2 c h); exact ⟨this.1, key c this.2.1⟩
  · decide
  · decide
  · have := nameChar_word (argChar_nameChar (ha.2.2 c h)); exact ⟨this.1, key c this.2.1⟩
  · decide
  · have := hp.frontend.2 c h; exact ⟨this.1, key c this.2⟩
  · decide
  · have := hp.backend.2 c h; exact ⟨this.1, key c this.2⟩
  · revert h
    have : ∀ x ∈ c!" allow", x.toNat < 128 ∧ x ≠ '\n' ∧ x ≠ '\r' := by decide
    intro h
    exact this c (by simpa using h)

theorem line_chars {r : Registration} (hp : r.Plain) (ha : ValidArgument r.argument) :
    ∀ c ∈ r.line, c.toNat < 128 ∧ c ≠ '\r' := by
  intro c hc
  rw [line_core] at hc
  rcases List.mem_append.1 hc with h | h
  · have := core_chars hp ha c h; exact ⟨this.1, this.2.2⟩
  · rw [List.mem_singleton] at h; subst h; decide

/-- If a file with such a line loads, the policy has a rule for the argument. -/
theorem fileLine_core {r : Registration} (hp : r.Plain) (ha : ValidArgument r.argument)
    {env : LoadEnv} {n : Nat} {load : Opened → Except Err (List Rule)} {path : Path}
    {rules : List Rule} (h : fileLine env n load path (regCore r) = .ok rules) :
    ∃ x ∈ rules, x.service = some r.service ∧ x.argument = some ('+' :: r.argument) := by
  have hs := words_core hp ha
  have hne := hp.service.1
  have hc := hp.service.2
  have c1 : isCommentLine (strip (regCore r)) = false := by
    rw [isCommentLine_strip, hs]
    cases hsv : r.service with
    | nil => exact absurd hsv hne
    | cons a as =>
      have := (nameChar_word (hc a (by rw [hsv]; simp))).2.2.1
      simpa using this
  have c2 : startsWith c!"!" (strip (regCore r)) = false := by
    rw [startsBang_strip, hs]
    cases hsv : r.service with
    | nil => exact absurd hsv hne
    | cons a as =>
      have := (nameChar_word (hc a (by rw [hsv]; simp))).2.2.2.1
      simp only [startsWith, List.isPrefixOf, Bool.and_true, beq_eq_false_iff_ne, ne_eq]
      exact fun h => this h.symm
  unfold fileLine at h
  simp only [c1, c2, Bool.false_eq_true, if_false] at h
  obtain ⟨x, hx, h⟩ := bind_eq_ok.1 h
  cases h
  refine ⟨x, by simp, ?_⟩
  obtain ⟨ws, hw, hr⟩ := (C23_rule_line _ _ _).1 hx
  have : ws = [r.service, '+' :: r.argument, r.frontend, r.backend, c!"allow"] := by
    rw [← hs, ← splitWs_strip]; exact (splitWs_of_words hw).symm
  subst this
  cases hr with
  | mk h1 h2 =>
    constructor
    · generalize r.service = sv at h1 hne hc
      cases h1 with
      | any => exact absurd rfl ((nameChar_word (hc '*' (by simp))).2.2.2.2)
      | name => rfl
    · generalize hq : '+' :: r.argument = q at h2
      cases h2 with
      | any => cases hq
      | arg => rfl

/-! ### The disk -/

/-- What stays true of the disk: see `RegisterReady`. -/
structure RegState (c : RegConf) (d0 d : Disk) : Prop where
  resolve : d.resolve = d0.resolve
  distinct : ∀ p ns, d.entries p = some ns → ns.Nodup
  runtime : d.entries (d0.resolve c.runtime) = d0.entries (d0.resolve c.runtime)
  listed : ∀ ns, d.content (registeredFile c d0) ≠ none →
    d.entries (d0.resolve c.policy) = some ns → regFileName ∈ ns

theorem regState_start {h : Host} {c : RegConf} {d0 : Disk} (hr : RegisterReady h c d0) :
    RegState c d0 d0 := ⟨rfl, hr.distinct, rfl, hr.listed⟩

theorem setFile_distinct {d : Disk} {p : Path} {b : Bytes}
    (h : ∀ p ns, d.entries p = some ns → ns.Nodup) :
    ∀ q ns, (d.setFile p b).entries q = some ns → ns.Nodup := by
  intro q ns hq
  simp only [Disk.setFile] at hq
  split at hq
  · cases he : d.entries q with
    | none => rw [he] at hq; simp at hq
    | some ms =>
      rw [he] at hq
      simp only [Option.map_some, Option.some.injEq] at hq
      have := h q ms he
      split at hq
      · rw [← hq]; exact this
      · rename_i hc
        rw [← hq, List.nodup_append]
        refine ⟨this, by simp, ?_⟩
        intro x hx y hy
        rw [List.mem_singleton] at hy
        subst hy
        rintro rfl
        exact hc (List.contains_iff_mem.2 hx)
  · exact h q ns hq

theorem removeFile_distinct {d : Disk} {p : Path}
    (h : ∀ p ns, d.entries p = some ns → ns.Nodup) :
    ∀ q ns, (d.removeFile p).entries q = some ns → ns.Nodup := by
  intro q ns hq
  simp only [Disk.removeFile] at hq
  split at hq
  · cases he : d.entries q with
    | none => rw [he] at hq; simp at hq
    | some ms =>
      rw [he] at hq
      simp only [Option.map_some, Option.some.injEq] at hq
      rw [← hq]
      exact (h q ms he).filter _
  · exact h q ns hq

theorem apply_distinct {d d' : Disk} {w : Write} (ha : d.apply w = .ok d')
    (h : ∀ p ns, d.entries p = some ns → ns.Nodup) :
    ∀ q ns, d'.entries q = some ns → ns.Nodup := by
  cases w with
  | create p =>
    simp only [Disk.apply] at ha
    split at ha
    · simp at ha
    · cases ha; exact setFile_distinct h
  | append p b =>
    simp only [Disk.apply] at ha
    split at ha
    · simp at ha
    · cases ha; exact setFile_distinct h
  | setOwner p =>
    simp only [Disk.apply] at ha
    split at ha
    · cases ha; exact h
    · simp at ha
  | rename p p' =>
    simp only [Disk.apply] at ha
    split at ha
    · simp at ha
    · split at ha
      · simp at ha
      · cases ha; exact removeFile_distinct (setFile_distinct h)
  | unlink p =>
    simp only [Disk.apply] at ha
    split at ha
    · cases ha; exact removeFile_distinct h
    · simp at ha
  | touch p =>
    simp only [Disk.apply] at ha
    split at ha
    · simp at ha
    · cases ha
      split
      · exact h
      · exact setFile_distinct h
  | appendText p b =>
    simp only [Disk.apply] at ha
    split at ha
    · simp at ha
    · cases ha; exact setFile_distinct h

/-- Writing a file of another directory changes no listing. -/
theorem setFile_entries_other {d : Disk} {p q : Path} {b : Bytes} (h : p.dropLast ≠ q) :
    (d.setFile p b).entries q = d.entries q := by
  simp only [Disk.setFile]; rw [if_neg (Ne.symm h)]

theorem removeFile_entries_other {d : Disk} {p q : Path} (h : p.dropLast ≠ q) :
    (d.removeFile p).entries q = d.entries q := by
  simp only [Disk.removeFile]; rw [if_neg (Ne.symm h)]

theorem apply_entries_other {d d' : Disk} {w : Write} (ha : d.apply w = .ok d') {q : Path}
    (h : ∀ p, w.touches p → p.dropLast ≠ q) : d'.entries q = d.entries q := by
  cases w with
  | create p =>
    simp only [Disk.apply] at ha
    split at ha
    · simp at ha
    · cases ha; exact setFile_entries_other (h p rfl)
  | append p b =>
    simp only [Disk.apply] at ha
    split at ha
    · simp at ha
    · cases ha; exact setFile_entries_other (h p rfl)
  | setOwner p =>
    simp only [Disk.apply] at ha
    split at ha
    · cases ha; rfl
    · simp at ha
  | rename p p' =>
    simp only [Disk.apply] at ha
    split at ha
    · simp at ha
    · split at ha
      · simp at ha
      · cases ha
        rw [removeFile_entries_other (h p (Or.inl rfl)), setFile_entries_other (h p' (Or.inr rfl))]
  | unlink p =>
    simp only [Disk.apply] at ha
    split at ha
    · cases ha; exact removeFile_entries_other (h p rfl)
    · simp at ha
  | touch p =>
    simp only [Disk.apply] at ha
    split at ha
    · simp at ha
    · cases ha
      split
      · rfl
      · exact setFile_entries_other (h p rfl)
  | appendText p b =>
    simp only [Disk.apply] at ha
    split at ha
    · simp at ha
    · cases ha; exact setFile_entries_other (h p rfl)

/-- The name `x` of the directory `q` stays listed when other files are written. -/
theorem setFile_keeps_name {d : Disk} {p q : Path} {b : Bytes} {x : Str}
    (h : ∀ ns, d.entries q = some ns → x ∈ ns) :
    ∀ ns, (d.setFile p b).entries q = some ns → x ∈ ns := by
  intro ns hq
  simp only [Disk.setFile] at hq
  split at hq
  · cases he : d.entries q with
    | none => rw [he] at hq; simp at hq
    | some ms =>
      rw [he] at hq
      simp only [Option.map_some, Option.some.injEq] at hq
      have := h ms he
      rw [← hq]
      split
      · exact this
      · exact List.mem_append_left _ this
  · exact h ns hq

theorem removeFile_keeps_name {d : Disk} {p q : Path} {x : Str} (hx : x ≠ [])
    (h : ∀ ns, d.entries q = some ns → x ∈ ns) (hp : p ≠ q ++ [x]) :
    ∀ ns, (d.removeFile p).entries q = some ns → x ∈ ns := by
  intro ns hq
  simp only [Disk.removeFile] at hq
  split at hq
  · rename_i hqp
    cases he : d.entries q with
    | none => rw [he] at hq; simp at hq
    | some ms =>
      rw [he] at hq
      simp only [Option.map_some, Option.some.injEq] at hq
      rw [← hq, List.mem_filter]
      refine ⟨h ms he, ?_⟩
      simp only [bne_iff_ne, ne_eq]
      rintro rfl
      by_cases hpn : p = []
      · subst hpn; exact hx rfl
      · apply hp
        rw [hqp]
        unfold fileName
        have := List.dropLast_append_getLast hpn
        rw [List.getLast?_eq_some_getLast hpn]
        exact this.symm
  · exact h ns hq

theorem apply_keeps_name {d d' : Disk} {w : Write} (ha : d.apply w = .ok d') {q : Path} {x : Str}
    (hx : x ≠ []) (hw : ¬ w.touches (q ++ [x])) (h : ∀ ns, d.entries q = some ns → x ∈ ns) :
    ∀ ns, d'.entries q = some ns → x ∈ ns := by
  cases w with
  | create p =>
    simp only [Disk.apply] at ha
    split at ha
    · simp at ha
    · cases ha; exact setFile_keeps_name h
  | append p b =>
    simp only [Disk.apply] at ha
    split at ha
    · simp at ha
    · cases ha; exact setFile_keeps_name h
  | setOwner p =>
    simp only [Disk.apply] at ha
    split at ha
    · cases ha; exact h
    · simp at ha
  | rename p p' =>
    simp only [Disk.apply] at ha
    split at ha
    · simp at ha
    · split at ha
      · simp at ha
      · cases ha
        exact removeFile_keeps_name hx (setFile_keeps_name h) fun e => hw (Or.inl e.symm)
  | unlink p =>
    simp only [Disk.apply] at ha
    split at ha
    · cases ha; exact removeFile_keeps_name hx h fun e => hw e.symm
    · simp at ha
  | touch p =>
    simp only [Disk.apply] at ha
    split at ha
    · simp at ha
    · cases ha
      split
      · exact h
      · exact setFile_keeps_name h
  | appendText p b =>
    simp only [Disk.apply] at ha
    split at ha
    · simp at ha
    · cases ha; exact setFile_keeps_name h

/-- A file that is written is listed. -/
theorem setFile_lists {d : Disk} {q : Path} {x : Str} {b : Bytes} :
    ∀ ns, (d.setFile (q ++ [x]) b).entries q = some ns → x ∈ ns := by
  intro ns hq
  simp only [Disk.setFile, List.dropLast_concat, if_true] at hq
  cases he : d.entries q with
  | none => rw [he] at hq; simp at hq
  | some ms =>
    rw [he] at hq
    simp only [Option.map_some, Option.some.injEq] at hq
    have hf : fileName (q ++ [x]) = x := by simp [fileName]
    rw [hf] at hq
    rw [← hq]
    split
    · rename_i hc; exact List.contains_iff_mem.1 hc
    · simp

/-- Programs that leave the file alone keep the state and the file. -/
theorem regState_other {h : Host} {c : RegConf} {d0 d d' : Disk} {w : Write}
    (hr : RegisterReady h c d0) (hs : RegState c d0 d) (ha : d.apply w = .ok d')
    (hw : ∀ q, w.touches q → q ≠ registeredFile c d0 ∧ q.dropLast ≠ d0.resolve c.runtime) :
    RegState c d0 d' ∧ d'.content (registeredFile c d0) = d.content (registeredFile c d0) := by
  have hnt : ¬ w.touches (registeredFile c d0) := fun h => (hw _ h).1 rfl
  have hc := apply_frame ha hnt
  refine ⟨⟨(apply_resolve ha).trans hs.resolve, apply_distinct ha hs.distinct, ?_, ?_⟩, hc⟩
  · rw [apply_entries_other ha fun p hp => (hw p hp).2]; exact hs.runtime
  · intro ns hne
    rw [hc] at hne
    refine apply_keeps_name ha (by decide) ?_ (fun ms => hs.listed ms hne) ns
    rw [hr.noLink] at hnt
    exact hnt

/-- The operations of a registration keep the state. -/
theorem regState_touch {h : Host} {c : RegConf} {d0 d d' : Disk}
    (hr : RegisterReady h c d0) (hs : RegState c d0 d)
    (ha : d.apply (.touch (registeredFile c d0)) = .ok d') :
    RegState c d0 d' ∧ (d'.content (registeredFile c d0)) =
      some ((d.content (registeredFile c d0)).getD []) := by
  have hcd : d.content (registeredFile c d0) = none → ∃ b, d' = d.setFile (registeredFile c d0) b ∧ b = [] := by
    intro hn
    simp only [Disk.apply] at ha
    split at ha
    · simp at ha
    · rw [hn] at ha; cases ha; exact ⟨_, rfl, rfl⟩
  have hsame : ∀ b, d.content (registeredFile c d0) = some b → d' = d := by
    intro b hb
    simp only [Disk.apply] at ha
    split at ha
    · simp at ha
    · rw [hb] at ha; cases ha; rfl
  cases hc : d.content (registeredFile c d0) with
  | some b => rw [hsame b hc]; exact ⟨hs, by rw [hc]; rfl⟩
  | none =>
    obtain ⟨b, rfl, rfl⟩ := hcd hc
    refine ⟨⟨hs.resolve, setFile_distinct hs.distinct, ?_, ?_⟩, ?_⟩
    · rw [setFile_entries_other ?_]
      · exact hs.runtime
      · rw [hr.noLink, List.dropLast_concat]; exact fun h => hr.apart h.symm
    · intro ns _
      rw [hr.noLink]
      exact setFile_lists ns
    · rw [setFile_self_content]; rfl

theorem regState_append {h : Host} {c : RegConf} {d0 d d' : Disk} {bs : Bytes}
    (hr : RegisterReady h c d0) (hs : RegState c d0 d)
    (ha : d.apply (.appendText (registeredFile c d0) bs) = .ok d') :
    RegState c d0 d' ∧ ∃ old, d.content (registeredFile c d0) = some old ∧
      d'.content (registeredFile c d0) = some (old ++ bs) := by
  simp only [Disk.apply] at ha
  split at ha
  · simp at ha
  · rename_i old ho
    cases ha
    refine ⟨⟨hs.resolve, setFile_distinct hs.distinct, ?_, ?_⟩, old, ho, ?_⟩
    · rw [setFile_entries_other ?_]
      · exact hs.runtime
      · rw [hr.noLink, List.dropLast_concat]; exact fun h => hr.apart h.symm
    · intro ns _
      rw [hr.noLink]
      exact setFile_lists ns
    · rw [setFile_self_content]

theorem forall₂_mem_left {α β : Type} {R : α → β → Prop} {l : List α} {ps : List β}
    (h : List.Forall₂ R l ps) {x : α} (hx : x ∈ l) : ∃ y ∈ ps, R x y := by
  induction h with
  | nil => cases hx
  | @cons a b l ps hab _ ih =>
    rcases List.mem_cons.1 hx with rfl | hx
    · exact ⟨b, by simp, hab⟩
    · obtain ⟨y, h1, h2⟩ := ih hx
      exact ⟨y, by simp [h1], h2⟩

/-- A complete line of the file is a rule of the policy, if the policy loads. -/
theorem registered_rule {h : Host} {c : RegConf} {d0 d : Disk} (hr : RegisterReady h c d0)
    (hs : RegState c d0 d) {r : Registration} (hp : r.Plain) (ha : ValidArgument r.argument)
    {b : Bytes} {text : Str} (hc : d.content (registeredFile c d0) = some b)
    (ht : h.decode b = some text) (hl : regCore r ∈ fileLines text) {rules : List Rule}
    (hf : filePolicy (d.fs h) c.legacy [c.runtime, c.policy] c.depth = .ok rules) :
    ∃ x ∈ rules, x.service = some r.service ∧ x.argument = some ('+' :: r.argument) := by
  have hdn : DistinctNames (d.fs h) := fun p ns hn => hs.distinct _ ns hn
  have hfile : (d.fs h).file (c.policy ++ [regFileName]) = some (.ok text) := by
    show (d.content (d.resolve (c.policy ++ [regFileName]))).map (decodeText h) = _
    rw [hs.resolve, show d0.resolve (c.policy ++ [regFileName]) = registeredFile c d0 from rfl, hc]
    simp [decodeText, ht]
  -- the directory can be listed
  have hdir : ∃ ns, d.entries (d0.resolve c.policy) = some ns := by
    cases hn : (d.fs h).dir c.policy with
    | some ns =>
      refine ⟨ns, ?_⟩
      rw [← hn, ← hs.resolve]; rfl
    | none =>
      have := C26_missing_dir (d.fs h) c.legacy [c.runtime, c.policy] c.depth c.policy (by simp) hn
      rw [hf] at this; cases this
  obtain ⟨ns, hns⟩ := hdir
  have hch : Chosen (d.fs h) [c.runtime, c.policy] (c.policy, regFileName) := by
    refine ⟨[c.runtime], [], rfl, ⟨⟨ns, ?_, hs.listed ns (by rw [hc]; simp) hns⟩, ?_, ?_, ?_⟩, ?_⟩
    · show d.entries (d.resolve c.policy) = _
      rw [hs.resolve]; exact hns
    · show (d.fs h).file (c.policy ++ [regFileName]) ≠ none
      rw [hfile]; simp
    · exact ⟨c!"60-registered-arguments", rfl⟩
    · show regFileName.head? ≠ some '.'
      decide
    · intro p hpm
      rw [List.mem_singleton] at hpm
      subst hpm
      rintro ⟨⟨ms, hm, hmem⟩, _⟩
      have hm : d.entries (d.resolve c.runtime) = some ms := hm
      rw [hs.resolve, hs.runtime] at hm
      exact hr.notHidden ms hm hmem
  obtain ⟨files, parts, _, hmem, hall, rfl⟩ := C25_load_order _ hdn _ _ _ _ hf
  have hin := (hmem _).2 hch
  obtain ⟨part, hpart, hload⟩ := forall₂_mem_left hall hin
  unfold loadTopFile openPath at hload
  simp only [hfile] at hload
  obtain ⟨f, hf1, hf2⟩ := bind_eq_ok.1 hload
  cases hf1
  cases hd : c.depth with
  | zero => rw [hd] at hf2; simp [loadFile] at hf2
  | succ n =>
    rw [hd] at hf2
    simp only [loadFile] at hf2
    obtain ⟨ps, hps, rfl⟩ := collectRules_ok.1 hf2
    obtain ⟨q, hq1, hq2⟩ := forall₂_mem_left hps hl
    obtain ⟨x, hx1, hx2⟩ := fileLine_core hp ha hq2
    exact ⟨x, List.mem_flatten.2 ⟨_, hpart, List.mem_flatten.2 ⟨q, hq1, hx1⟩⟩, hx2⟩

end Qrexec
