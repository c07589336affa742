import Verif.Lemmas.Lint
import Verif.Lemmas.Daemon
import Verif.Props.Legacy

/-!
# C77: the policy linter
-/
namespace Qrexec
open Spec

theorem collectRules_single {α : Type} (f : α → Except Err (List Rule)) (x : α) : collectRules f [x] = f x := by
  simp only [collectRules]
  cases f x with
  | error e => rfl
  | ok a => simp

theorem strip_subset {s : Str} {c : Char} (h : c ∈ strip s) : c ∈ s := by
  obtain ⟨g1, g2, _, _, e, _⟩ := strip_spec s
  rw [e]
  exact List.mem_append_right _ (List.mem_append_left _ h)

theorem dictGet_append_one (P : List (Str × Str)) (k v key : Str) :
    dictGet (P ++ [(k, v)]) key = if k = key then some v else dictGet P key := by
  unfold dictGet
  rw [List.reverse_append]
  show (((k, v) :: P.reverse).find? _).map _ = _
  rw [List.find?_cons]
  by_cases h : k = key
  · simp [h]
  · have : (k == key) = false := by simpa using h
    simp [this, h]

theorem words_ne_nil {line : Str} {ws : List Str} (h : Words line ws) : ∀ w ∈ ws, w ≠ [] := by
  induction h with
  | none => simp
  | word _ hne _ _ _ ih =>
    intro w hw
    rcases List.mem_cons.1 hw with rfl | hw
    · exact hne
    · exact ih w hw

theorem words_unique {line : Str} {ws ws' : List Str} (h : Words line ws) (h' : Words line ws') : ws = ws' :=
  (splitWs_of_words h).symm.trans (splitWs_of_words h')

/-- The in-memory policy of the linter for a line without included file. -/
theorem stringPolicy_main {n : Nat} {P : List (Str × Str)} {text : Str} (h : dictGet P c!"__main__" = some text)
    (hn : '\n' ∉ text) :
    stringPolicy (n + 1) P = fileLine (stringEnv P) n (loadFile (stringEnv P) n) [c!"__main__[in-memory]"] text := by
  unfold stringPolicy stringOpen
  rw [h]
  simp only [ok_bind]
  unfold loadFile stringIOLines
  rw [splitOn_of_not_mem hn, collectRules_single]
  rfl

theorem loadFile_empty {env : LoadEnv} {n : Nat} {path : Path} : loadFile env (n + 1) ([[]], path) = .ok [] := by
  unfold loadFile
  rw [collectRules_single]
  exact fileLine_comment rfl

theorem loadService_empty {op : Str → Except Err Opened} {n : Nat} {s a : Option Str} {path : Path} :
    loadService op (n + 1) s a ([[]], path) = .ok [] := by
  unfold loadService
  rw [collectRules_single]
  exact serviceLine_comment rfl

/-- Opening the included path of the line under test. -/
theorem stringEnv_plain {P : List (Str × Str)} {p : Str} (hne : p ≠ []) (hp : PlainPath p) :
    (stringEnv (P ++ [(p, [])])).openFile p = .ok ([[]], [p ++ c!"[in-memory]"]) := by
  show (if badIncludeKey (purePathStr p) then _ else _) = _
  obtain ⟨h1, h2⟩ := (purePathStr_plain hne).2 hp
  rw [h1, h2]
  simp only [Bool.false_eq_true, if_false]
  unfold stringOpen
  rw [dictGet_append_one, if_pos rfl]
  rfl

theorem stringEnv_odd {P : List (Str × Str)} {p : Str} (hne : p ≠ []) (hp : ¬ PlainPath p) :
    (stringEnv (P ++ [(p, [])])).openFile p =
      if badIncludeKey (purePathStr p) then .error .policySyntax else stringOpen P (purePathStr p) := by
  show (if badIncludeKey (purePathStr p) then _ else _) = _
  split_ifs with hb
  · rfl
  · unfold stringOpen
    rw [dictGet_append_one, if_neg]
    intro he
    refine hp ((purePathStr_plain hne).1 ⟨he.symm, ?_⟩)
    rw [← he] at hb
    simpa using hb

/-- A path that names `__main__` in other words, like `./__main__`. -/
def MainAlias (p : Str) : Prop := purePathStr p = c!"__main__" ∧ p ≠ c!"__main__"

theorem mainAlias_not_plain {p : Str} (hne : p ≠ []) (h : MainAlias p) : ¬ PlainPath p := by
  intro hp
  have := (purePathStr_plain hne).2 hp
  exact h.2 (this.1.symm.trans h.1)

theorem stringEnv_odd_no {t p : Str} (hne : p ≠ []) (hp : ¬ PlainPath p) (ha : ¬ MainAlias p) :
    (stringEnv ([(c!"__main__", t)] ++ [(p, [])])).openFile p = .error .policySyntax := by
  rw [stringEnv_odd hne hp]
  split_ifs
  · rfl
  · have : dictGet [(c!"__main__", t)] (purePathStr p) = none := by
      show dictGet ([] ++ [(c!"__main__", t)]) _ = _
      rw [dictGet_append_one, if_neg]
      · rfl
      · intro he
        refine ha ⟨he.symm, ?_⟩
        rintro rfl
        exact hp (Or.inl (by decide))
    unfold stringOpen
    rw [this]

theorem stringEnv_alias {t p : Str} (hne : p ≠ []) (hn : '\n' ∉ t) (ha : MainAlias p) :
    (stringEnv ([(c!"__main__", t)] ++ [(p, [])])).openFile p = .ok ([t], [c!"__main__[in-memory]"]) := by
  rw [stringEnv_odd hne (mainAlias_not_plain hne ha), ha.1]
  have hb : badIncludeKey c!"__main__" = false := by decide
  have : dictGet [(c!"__main__", t)] c!"__main__" = some t := by
    show dictGet ([] ++ [(c!"__main__", t)]) _ = _
    rw [dictGet_append_one, if_pos rfl]
  rw [hb]
  unfold stringOpen
  rw [this]
  simp only [Bool.false_eq_true, if_false, stringIOLines]
  rw [splitOn_of_not_mem hn]
  rfl

theorem loadFile_self {env : LoadEnv} {t p : Str} {path : Path} (hw : Words t [c!"!include", p])
    (ho : env.openFile p = .ok ([t], path)) : ∀ n, loadFile env n ([t], path) = .error .recursion
  | 0 => rfl
  | n + 1 => by
    unfold loadFile
    rw [collectRules_single, fileLine_include hw, ho]
    simp only [ok_bind]
    exact loadFile_self hw ho n

theorem serviceLine_includeService {op : Str → Except Err Opened}
    {load : Option Str → Option Str → Opened → Except Err (List Rule)} {s r : Option Str} {path : Path}
    {line a b p : Str} (hw : Words line [c!"!include-service", a, b, p]) :
    serviceLine op load s r path line = .error .policySyntax := by
  unfold serviceLine
  have e : splitWs (compatSubst (strip line)) = c!"!include-service" ::
      ([a, b, p].flatMap fun w => splitWs (compatSubst w)) := by
    have hw' : Words (strip line) [c!"!include-service", a, b, p] := by
      rw [words_iff, splitWs_strip, splitWs_of_words hw]
    rw [splitWs_compatSubst hw']
    rfl
  simp only [isCommentLine_strip, startsBang_subst, splitWs_of_words hw, e]
  show serviceDirective op load s r _ = _
  unfold serviceDirective
  split
  · rename_i d i h
    have := congrArg List.head? h
    simp only [List.head?_cons, Option.some.injEq] at this
    subst this
    rfl
  · rfl

theorem ruleWords_head {path : List Str} {w : Str} {ws : List Str} {r : Rule} {line : Str}
    (hw : Words line (w :: ws)) (h : RuleWords path (w :: ws) r) : w.head? ≠ some '!' := by
  have hne := words_ne_nil hw w (by simp)
  generalize hz : (w :: ws) = z at h
  cases h with
  | mk h1 =>
    cases hz
    exact (serviceText_head h1 hne).1

theorem lintDirective_none {ws : List Str} (h : lintDirective ws = .ok none) : ∃ p, ws = [c!"!include-dir", p] := by
  unfold lintDirective at h
  split at h
  · rename_i w params
    by_cases h1 : w = c!"!include-service"
    · rw [if_pos (by simp [h1])] at h
      split at h <;> cases h
    rw [if_neg (by simpa using h1)] at h
    by_cases h2 : w = c!"!include"
    · rw [if_pos (by simp [h2])] at h
      split at h <;> cases h
    rw [if_neg (by simpa using h2)] at h
    by_cases h3 : w = c!"!include-dir"
    · rw [if_pos (by simp [h3])] at h
      split at h
      · rename_i p
        exact ⟨p, by rw [h3]⟩
      · cases h
    rw [if_neg (by simpa using h3)] at h
    cases h
  · cases h

theorem lintDirective_error {ws : List Str} {e : Err} (h : lintDirective ws = .error e) :
    e = .policySyntax ∧ ∃ ps, ws = c!"!include-dir" :: ps ∧ ∀ p, ps ≠ [p] := by
  unfold lintDirective at h
  split at h
  · rename_i w params
    by_cases h1 : w = c!"!include-service"
    · rw [if_pos (by simp [h1])] at h
      split at h <;> cases h
    rw [if_neg (by simpa using h1)] at h
    by_cases h2 : w = c!"!include"
    · rw [if_pos (by simp [h2])] at h
      split at h <;> cases h
    rw [if_neg (by simpa using h2)] at h
    by_cases h3 : w = c!"!include-dir"
    · rw [if_pos (by simp [h3])] at h
      split at h
      · cases h
      · rename_i hx
        cases h
        exact ⟨rfl, params, by rw [h3], fun p hp => hx p hp⟩
    rw [if_neg (by simpa using h3)] at h
    cases h
  · cases h

theorem lintDirective_some {ws : List Str} {p : Str} (h : lintDirective ws = .ok (some p)) :
    (p = [] ∧ (∀ q, ws ≠ [c!"!include", q]) ∧ (∀ s a q, ws ≠ [c!"!include-service", s, a, q]) ∧
      (∀ q, ws ≠ [c!"!include-dir", q])) ∨
    ws = [c!"!include", p] ∨ ∃ s a, ws = [c!"!include-service", s, a, p] := by
  unfold lintDirective at h
  split at h
  · rename_i w params
    by_cases h1 : w = c!"!include-service"
    · subst h1
      rw [if_pos (by simp)] at h
      split at h
      · cases h
        exact Or.inr (Or.inr ⟨_, _, rfl⟩)
      · rename_i hx
        cases h
        refine Or.inl ⟨rfl, by simp, ?_, by simp⟩
        intro s a q he
        simp only [List.cons.injEq, true_and] at he
        exact hx _ _ _ he
    rw [if_neg (by simpa using h1)] at h
    by_cases h2 : w = c!"!include"
    · subst h2
      rw [if_pos (by simp)] at h
      split at h
      · cases h
        exact Or.inr (Or.inl rfl)
      · rename_i hx
        cases h
        refine Or.inl ⟨rfl, ?_, by simp, by simp⟩
        intro q he
        simp only [List.cons.injEq, true_and] at he
        exact hx _ he
    rw [if_neg (by simpa using h2)] at h
    by_cases h3 : w = c!"!include-dir"
    · rw [if_pos (by simp [h3])] at h
      split at h <;> cases h
    rw [if_neg (by simpa using h3)] at h
    cases h
    refine Or.inl ⟨rfl, ?_, ?_, ?_⟩
    · intro q he; simp only [List.cons.injEq] at he; exact h2 he.1
    · intro s a q he; simp only [List.cons.injEq] at he; exact h1 he.1
    · intro q he; simp only [List.cons.injEq] at he; exact h3 he.1
  · cases h
    exact Or.inl ⟨rfl, by simp, by simp, by simp⟩

theorem lintPolicy_false {line p : Str} (hp : p ≠ []) :
    lintPolicy false line p = [(c!"__main__", line)] ++ [(p, [])] := by
  have : p.isEmpty = false := by simpa using hp
  unfold lintPolicy
  rw [this]
  rfl

theorem lintPolicy_true {line p : Str} (hp : p ≠ []) :
    lintPolicy true line p =
      [(c!"__main__", c!"!include-service * * inc"), (c!"inc", line)] ++ [(p, [])] := by
  have : p.isEmpty = false := by simpa using hp
  unfold lintPolicy
  rw [this]
  rfl

/-- What the linter parses for a line that is no comment. -/
theorem lintLine_cases {incl : Bool} {n : Nat} {line : Str} (hc : isCommentLine (strip line) = false) :
    ((∃ p, Words line [c!"!include-dir", p]) ∧ lintLine incl n line = .ok ()) ∨
    ((∃ ps, Words line (c!"!include-dir" :: ps) ∧ ∀ p, ps ≠ [p]) ∧ lintLine incl n line = .error .policySyntax) ∨
    ∃ p, lintLine incl n line = (stringPolicy n (lintPolicy incl (strip line) p)).map (fun _ => ()) ∧
      ((p = [] ∧ (∀ q, ¬ Words line [c!"!include", q]) ∧ (∀ s a q, ¬ Words line [c!"!include-service", s, a, q]) ∧
        (∀ q, ¬ Words line [c!"!include-dir", q])) ∨
       Words line [c!"!include", p] ∨ ∃ s a, Words line [c!"!include-service", s, a, p]) := by
  have hsp := splitWs_strip line
  have hb : startsWith c!"!" (strip line) = false → ∀ w ws, Words line (w :: ws) → w.head? ≠ some '!' := by
    intro h w ws hw he
    rw [startsBang_strip, splitWs_of_words hw] at h
    simp only at h
    rw [startsBang_iff.2 he] at h
    cases h
  have hstep : ∀ p, (match stringPolicy n (lintPolicy incl (strip line) p) with
      | .ok _ => (.ok () : Except Err Unit)
      | .error e => .error e) = (stringPolicy n (lintPolicy incl (strip line) p)).map (fun _ => ()) := by
    intro p
    cases stringPolicy n (lintPolicy incl (strip line) p) <;> rfl
  unfold lintLine
  simp only [hc, Bool.false_eq_true, if_false]
  by_cases hs : startsWith c!"!" (strip line) = true
  · rw [if_pos hs]
    cases hd : lintDirective (splitWs (strip line)) with
    | error e =>
      obtain ⟨rfl, ps, h1, h2⟩ := lintDirective_error hd
      rw [hsp] at h1
      exact Or.inr (Or.inl ⟨⟨ps, words_iff.2 h1, h2⟩, rfl⟩)
    | ok o =>
      cases o with
      | none =>
        obtain ⟨p, h1⟩ := lintDirective_none hd
        rw [hsp] at h1
        exact Or.inl ⟨⟨p, words_iff.2 h1⟩, rfl⟩
      | some p =>
        refine Or.inr (Or.inr ⟨p, hstep p, ?_⟩)
        have := lintDirective_some hd
        rw [hsp] at this
        simpa only [words_iff] using this
  · rw [if_neg hs]
    have hs' : startsWith c!"!" (strip line) = false := by simpa using hs
    refine Or.inr (Or.inr ⟨[], hstep [], Or.inl ⟨rfl, ?_, ?_, ?_⟩⟩)
    · intro q hw; exact hb hs' _ _ hw rfl
    · intro s a q hw; exact hb hs' _ _ hw rfl
    · intro q hw; exact hb hs' _ _ hw rfl

theorem lintLine_comment {incl : Bool} {n : Nat} {line : Str} (hc : isCommentLine (strip line) = true) :
    lintLine incl n line = .ok () := by
  unfold lintLine
  simp only [hc, if_true]

theorem policyLine_comment {line : Str} (h : isCommentLine (strip line) = true) : PolicyLine line := by
  rw [isCommentLine_strip] at h
  have hw := words_splitWs line
  cases hs : splitWs line with
  | nil => rw [hs] at hw; exact .blank hw
  | cons w ws =>
    rw [hs] at hw h
    simp only [beq_iff_eq] at h
    cases w with
    | nil => simp at h
    | cons c cs =>
      simp only [List.head?_cons, Option.some.injEq] at h
      subst h
      exact .comment hw

theorem comment_words {line w : Str} {ws : List Str} (hw : Words line (w :: ws))
    (h : isCommentLine (strip line) = true) : w.head? = some '#' := by
  rw [isCommentLine_strip, splitWs_of_words hw] at h
  simpa using h

/-- Of a line of a policy file the linter finds fault exactly when it is no policy line or includes a path not written
plainly.  Except that an `!include-service` of a file called `__main__` is not checked at all. -/
theorem lintLine_policy (n : Nat) (line : Str) (hn : '\n' ∉ line) :
    (lintLine false (n + 2) line = .ok () ∨ lintLine false (n + 2) line = .error .policySyntax ∨
      lintLine false (n + 2) line = .error .recursion ∧ ∃ p, Words line [c!"!include", p] ∧ MainAlias p) ∧
    (lintLine false (n + 2) line = .ok () ↔ (PolicyLine line ∧ PlainIncludes line) ∨
      ∃ s a, Words line [c!"!include-service", s, a, c!"__main__"]) := by
  have hns : '\n' ∉ strip line := fun h => hn (strip_subset h)
  by_cases hc : isCommentLine (strip line) = true
  · rw [lintLine_comment hc]
    refine ⟨Or.inl rfl, iff_of_true rfl (Or.inl ⟨policyLine_comment hc, ?_, ?_⟩)⟩
    · intro p hw
      exact absurd (comment_words hw hc) (by simp)
    · intro s a p hw
      exact absurd (comment_words hw hc) (by simp)
  have hc' : isCommentLine (strip line) = false := by simpa using hc
  rcases lintLine_cases (incl := false) (n := n + 2) hc' with ⟨⟨p, hw⟩, h⟩ | ⟨⟨ps, hw, hps⟩, h⟩ | ⟨p, h, hp⟩
  · rw [h]
    refine ⟨Or.inl rfl, iff_of_true rfl (Or.inl ⟨.includeDir hw, ?_, ?_⟩)⟩
    · intro q hw'; have := words_unique hw hw'; simp at this
    · intro s a q hw'; have := words_unique hw hw'; simp at this
  · rw [h]
    refine ⟨Or.inr (Or.inl rfl), iff_of_false (by simp) ?_⟩
    rintro (⟨hpl, _⟩ | ⟨s, a, hw'⟩)
    · cases hpl with
      | blank h => have := words_unique hw h; simp at this
      | comment h => have := words_unique hw h; simp at this
      | rule h hr =>
        rw [← words_unique hw h] at hr
        generalize hz : (c!"!include-dir" :: ps) = z at hr
        cases hr with
        | mk h1 =>
          cases hz
          exact (serviceText_head h1 (by simp)).1 rfl
      | includeFile h => have := words_unique hw h; simp at this
      | includeDir h =>
        have := words_unique hw h
        simp only [List.cons.injEq, true_and] at this
        exact hps _ this
      | includeService h _ => have := words_unique hw h; simp at this
      | compat h => have := words_unique hw h; simp at this
    · have := words_unique hw hw'; simp at this
  -- the line is parsed
  rw [h]
  by_cases hmain : p = c!"__main__"
  · -- the text under test is replaced
    subst hmain
    have hr : stringPolicy (n + 2) (lintPolicy false (strip line) c!"__main__") = .ok [] := by
      rw [stringPolicy_main (text := []) rfl (by simp)]
      exact fileLine_comment rfl
    rw [hr]
    refine ⟨Or.inl rfl, iff_of_true rfl ?_⟩
    rcases hp with ⟨h, _⟩ | hw | ⟨s, a, hw⟩
    · cases h
    · refine Or.inl ⟨.includeFile hw, ?_, ?_⟩
      · intro q hw'
        have := words_unique hw hw'
        simp only [List.cons.injEq, true_and, and_true] at this
        rw [← this]
        exact Or.inl (by decide)
      · intro s a q hw'; have := words_unique hw hw'; simp at this
    · exact Or.inr ⟨s, a, hw⟩
  have hget : dictGet (lintPolicy false (strip line) p) c!"__main__" = some (strip line) := by
    unfold lintPolicy
    by_cases he : p = []
    · subst he; rfl
    · show dictGet (lintPolicy false (strip line) p) _ = _
      rw [lintPolicy_false he, dictGet_append_one, if_neg hmain]
      rfl
  rw [stringPolicy_main hget hns, fileLine_words (a := strip line) (b := line) (by rw [splitWs_strip])]
  have hnotmain : ¬ ∃ s a, Words line [c!"!include-service", s, a, c!"__main__"] := by
    rintro ⟨s, a, hw⟩
    rcases hp with ⟨_, _, h, _⟩ | hw' | ⟨s', a', hw'⟩
    · exact h _ _ _ hw
    · have := words_unique hw hw'; simp at this
    · have := words_unique hw hw'
      simp only [List.cons.injEq, true_and, and_true] at this
      exact hmain this.2.2.symm
  by_cases hpl : PolicyLine line
  · have hws : splitWs (strip line) = splitWs line := splitWs_strip line
    cases hpl with
    | blank hw => exact absurd (comment_of_words_nil hw) (by simp [hc'])
    | comment hw =>
      rw [isCommentLine_strip, splitWs_of_words hw] at hc'
      simp at hc'
    | rule hw hr =>
      obtain ⟨r', e⟩ := fileLine_rule (env := stringEnv (lintPolicy false (strip line) p)) (n := n + 1)
        (load := loadFile (stringEnv (lintPolicy false (strip line) p)) (n + 1)) (path := [c!"__main__[in-memory]"]) hw hr
      rw [e]
      refine ⟨Or.inl rfl, iff_of_true rfl (Or.inl ⟨.rule hw hr, ?_, ?_⟩)⟩
      · intro q hw'
        rw [words_unique hw hw'] at hr
        exact absurd rfl (ruleWords_head hw' hr)
      · intro s a q hw'
        rw [words_unique hw hw'] at hr
        exact absurd rfl (ruleWords_head hw' hr)
    | @includeFile q hw =>
      have hpq : p = q := by
        rcases hp with ⟨_, h, _⟩ | hw' | ⟨s', a', hw'⟩
        · exact absurd hw (h _)
        · have := words_unique hw' hw
          simpa using this
        · have := words_unique hw' hw; simp at this
      subst hpq
      have hq : p ≠ [] := words_ne_nil hw p (by simp)
      have hP : lintPolicy false (strip line) p = [(c!"__main__", strip line)] ++ [(p, [])] := lintPolicy_false hq
      rw [fileLine_include hw, hP]
      by_cases hpp : PlainPath p
      · rw [stringEnv_plain hq hpp]
        simp only [ok_bind]
        rw [loadFile_empty]
        refine ⟨Or.inl rfl, iff_of_true rfl (Or.inl ⟨.includeFile hw, ?_, ?_⟩)⟩
        · intro q hw'
          have := words_unique hw hw'
          simp only [List.cons.injEq, true_and, and_true] at this
          rw [← this]
          exact hpp
        · intro s a q hw'; have := words_unique hw hw'; simp at this
      · have hno : ¬ ((PolicyLine line ∧ PlainIncludes line) ∨
            ∃ s a, Words line [c!"!include-service", s, a, c!"__main__"]) := by
          rintro (⟨_, h1, _⟩ | h1)
          · exact hpp (h1 _ hw)
          · exact hnotmain h1
        by_cases ha : MainAlias p
        · have ho := stringEnv_alias hq hns ha
          rw [ho]
          simp only [ok_bind]
          rw [loadFile_self (t := strip line) (by rw [words_iff, hws, splitWs_of_words hw]) ho]
          exact ⟨Or.inr (Or.inr ⟨rfl, p, hw, ha⟩), iff_of_false (by simp [Except.map]) hno⟩
        · rw [stringEnv_odd_no hq hpp ha]
          exact ⟨Or.inr (Or.inl rfl), iff_of_false (by simp [Except.map, bind, Except.bind]) hno⟩
    | includeDir hw =>
      rcases hp with ⟨_, _, _, h⟩ | hw' | ⟨s', a', hw'⟩
      · exact absurd hw (h _)
      · have := words_unique hw' hw; simp at this
      · have := words_unique hw' hw; simp at this
    | @includeService s a q s' a' hw hcols =>
      have hpq : p = q := by
        rcases hp with ⟨_, _, h, _⟩ | hw' | ⟨s', a', hw'⟩
        · exact absurd hw (h _ _ _)
        · have := words_unique hw' hw; simp at this
        · have := words_unique hw' hw
          simp only [List.cons.injEq, true_and, and_true] at this
          exact this.2.2
      subst hpq
      have hq : p ≠ [] := words_ne_nil hw p (by simp)
      have hP : lintPolicy false (strip line) p = [(c!"__main__", strip line)] ++ [(p, [])] := lintPolicy_false hq
      rw [fileLine_includeService hw hcols, hP]
      by_cases hpp : PlainPath p
      · rw [stringEnv_plain hq hpp]
        simp only [ok_bind]
        rw [loadService_empty]
        refine ⟨Or.inl rfl, iff_of_true rfl (Or.inl ⟨.includeService hw hcols, ?_, ?_⟩)⟩
        · intro q hw'; have := words_unique hw hw'; simp at this
        · intro s a q hw'
          have := words_unique hw hw'
          simp only [List.cons.injEq, true_and, and_true] at this
          rw [← this.2.2]
          exact hpp
      · have hno : ¬ ((PolicyLine line ∧ PlainIncludes line) ∨
            ∃ s a, Words line [c!"!include-service", s, a, c!"__main__"]) := by
          rintro (⟨_, _, h1⟩ | h1)
          · exact hpp (h1 _ _ _ hw)
          · exact hnotmain h1
        by_cases ha : MainAlias p
        · rw [stringEnv_alias hq hns ha]
          simp only [ok_bind]
          unfold loadService
          rw [collectRules_single, serviceLine_includeService (a := s) (b := a) (p := p)
            (by rw [words_iff, hws, splitWs_of_words hw])]
          exact ⟨Or.inr (Or.inl rfl), iff_of_false (by simp [Except.map]) hno⟩
        · rw [stringEnv_odd_no hq hpp ha]
          exact ⟨Or.inr (Or.inl rfl), iff_of_false (by simp [Except.map, bind, Except.bind]) hno⟩
    | compat hw =>
      rw [fileLine_compat hw]
      refine ⟨Or.inl rfl, iff_of_true rfl (Or.inl ⟨.compat hw, ?_, ?_⟩)⟩
      · intro q hw'; have := words_unique hw hw'; simp at this
      · intro s a q hw'; have := words_unique hw hw'; simp at this
  · rw [fileLine_not_policyLine hpl]
    refine ⟨Or.inr (Or.inl rfl), iff_of_false (by simp [Except.map]) ?_⟩
    rintro (⟨h, _⟩ | h)
    · exact hpl h
    · exact hnotmain h

/-! ## Files for `!include-service` -/

theorem compatSubst_clean {s : Str} {c : Char} (h : c ∈ compatSubst s) : c ≠ ',' ∧ c ≠ '$' := by
  unfold compatSubst at h
  obtain ⟨d, _, hd⟩ := List.mem_map.1 h
  split at hd
  · subst hd; decide
  · rename_i h1
    split at hd
    · subst hd; decide
    · rename_i h2
      subst hd
      exact ⟨by simpa using h2, by simpa using h1⟩

theorem compatSubst_id {s : Str} (h1 : '$' ∉ s) (h2 : ',' ∉ s) : compatSubst s = s := by
  rw [compatSubst_plain]
  · have : s.map legacyChar = s.map id := by
      apply List.map_congr_left
      intro c hc
      unfold legacyChar
      rw [if_neg, if_neg]
      · rfl
      · rintro rfl; exact h2 hc
      · rintro rfl; exact h1 hc
    rw [this, List.map_id]
  · rintro ⟨a, b, rfl⟩
    exact h1 (by simp)

theorem splitWs_subst_strip (line : Str) : splitWs (compatSubst (strip line)) = splitWs (compatSubst line) := by
  rw [splitWs_compatSubst (words_splitWs (strip line)), splitWs_strip, ← splitWs_compatSubst (words_splitWs line)]

theorem mem_of_words {l : Str} {vs : List Str} (hv : Words l vs) : ∀ v ∈ vs, ∀ ch ∈ v, ch ∈ l := by
  induction hv with
  | none => intro v hv; cases hv
  | @word gap w rest ws hg hne hw hr _ ih =>
    intro v hv ch hch
    rcases List.mem_cons.1 hv with rfl | hv
    · simp [hch]
    · have := ih v hv ch hch; simp [this]

theorem word_splitWs {line : Str} {ws : List Str} (h : Words line ws) : ∀ w ∈ ws, splitWs w = [w] := by
  induction h with
  | none => intro w hw; cases hw
  | @word gap w rest ws hg hne hw hr _ ih =>
    intro v hv
    rcases List.mem_cons.1 hv with rfl | hv
    · have : Words ([] ++ (v ++ [])) [v] := Words.word (fun _ h => nomatch h) hne hw (fun _ h => nomatch h) (Words.none (fun _ h => nomatch h))
      simp only [List.nil_append, List.append_nil] at this
      exact splitWs_of_words this
    · exact ih v hv

theorem directiveWord_iff {w : Str} : startsWith c!"!" (compatSubst w) = true ↔ DirectiveWord w := by
  rw [startsBang_iff]
  cases w with
  | nil =>
    refine iff_of_false (by decide) ?_
    rintro (⟨t, h⟩ | ⟨t, h⟩) <;> cases h
  | cons c cs =>
    unfold compatSubst
    rw [replaceAux]
    by_cases hi : startsWith c!"$include:" (c :: cs) = true
    · rw [if_pos hi]
      obtain ⟨t, ht⟩ := startsWith_iff.1 hi
      exact iff_of_true rfl (Or.inr ⟨t, ht⟩)
    · rw [if_neg hi]
      simp only [List.map_cons, List.head?_cons, Option.some.injEq]
      constructor
      · intro h
        left
        split at h
        · cases h
        · split at h
          · cases h
          · exact ⟨cs, by rw [h]; rfl⟩
      · rintro (⟨t, ht⟩ | ⟨t, ht⟩)
        · have : c = '!' := by
            have := congrArg List.head? ht
            simpa using this
          subst this
          rfl
        · exact absurd (startsWith_iff.2 ⟨t, ht⟩) hi

theorem serviceLine_dir {op : Str → Except Err Opened}
    {load : Option Str → Option Str → Opened → Except Err (List Rule)} {s r : Option Str} {path : Path}
    {line w : Str} {ws : List Str} (hw : Words line (w :: ws)) (hd : DirectiveWord w) :
    serviceLine op load s r path line = serviceDirective op load s r (splitWs (compatSubst line)) := by
  have hc : w.head? ≠ some '#' := by
    rcases hd with ⟨t, rfl⟩ | ⟨t, rfl⟩ <;> simp
  unfold serviceLine
  simp only [isCommentLine_strip, startsBang_subst, splitWs_of_words hw, splitWs_subst_strip, directiveWord_iff.2 hd,
    if_true]
  rw [if_neg (by simpa using hc)]

theorem ruleFromLineService_iff {l : Str} {path : List Str} {s a : Option Str} {r : Rule} (hc : ',' ∉ l) :
    ruleFromLineService s a l path = .ok r ↔ RuleWords path (columnWord s :: columnWord a :: splitWs l) r := by
  have hcomma : ∀ w ∈ splitWs l, ',' ∉ w := fun w hw hm => hc (mem_of_words (words_splitWs l) w hw _ hm)
  have hflat : ∀ l : List Str, (∀ w ∈ l, ',' ∉ w) → (l.map (splitOn ',')).flatten = l := by
    intro l
    induction l with
    | nil => intro _; rfl
    | cons x xs ih =>
      intro hx
      rw [List.map_cons, List.flatten_cons, ih fun w hw => hx w (by simp [hw]),
        splitOn_of_not_mem (hx x (by simp))]
      rfl
  have hsmall : ∀ vs : List Str, vs.length < 3 →
      ¬ RuleWords path (columnWord s :: columnWord a :: vs) r := by
    intro vs hv hr
    generalize hq : columnWord s :: columnWord a :: vs = q at hr
    cases hr with
    | mk =>
      have := congrArg List.length hq
      simp at this; omega
  unfold ruleFromLineService
  match hws : splitWs l with
  | [] => simp only [reduceCtorEq, false_iff]; exact hsmall [] (by simp)
  | [x] => simp only [reduceCtorEq, false_iff]; exact hsmall [x] (by simp)
  | [x, y] =>
    simp only [List.map_nil, List.flatten_nil, reduceCtorEq, false_iff]
    exact hsmall [x, y] (by simp)
  | x :: y :: z :: zs =>
    simp only
    rw [hflat (z :: zs) fun w hw => hcomma w (by rw [hws]; simp at hw ⊢; tauto)]
    simp only
    rw [mkRule_column]
    exact ruleWords_iff

theorem serviceLine_rule {op : Str → Except Err Opened}
    {load : Option Str → Option Str → Opened → Except Err (List Rule)} {s a : Option Str} {path : Path}
    {line w : Str} {ws : List Str} (hw : Words line (w :: ws)) (hd : ¬ DirectiveWord w) (hc : w.head? ≠ some '#') :
    (∃ r, serviceLine op load s a path line = .ok [r] ∧
      RuleWords path (columnWord s :: columnWord a :: splitWs (compatSubst line)) r) ∨
    (serviceLine op load s a path line = .error .policySyntax ∧
      ∀ r, ¬ RuleWords path (columnWord s :: columnWord a :: splitWs (compatSubst line)) r) := by
  have hb : startsWith c!"!" (compatSubst w) = false := by
    by_contra h
    exact hd (directiveWord_iff.1 (by simpa using h))
  have e : serviceLine op load s a path line =
      (do let r ← ruleFromLineService s a (compatSubst (strip line)) path; return [r]) := by
    unfold serviceLine
    simp only [isCommentLine_strip, startsBang_subst, splitWs_of_words hw, hb]
    rw [if_neg (by simpa using hc)]
    simp
  have hcm : ',' ∉ compatSubst (strip line) := fun h => (compatSubst_clean h).1 rfl
  rw [e, ← splitWs_subst_strip]
  cases hr : ruleFromLineService s a (compatSubst (strip line)) path with
  | ok r => exact Or.inl ⟨r, rfl, (ruleFromLineService_iff hcm).1 hr⟩
  | error e =>
    rw [ruleFromLineService_error hr]
    refine Or.inr ⟨rfl, fun r h => ?_⟩
    rw [(ruleFromLineService_iff hcm).2 h] at hr
    cases hr

/-- A line of a service file that is none is a syntax error, whatever the directory holds. -/
theorem serviceLine_not_line {op : Str → Except Err Opened}
    {load : Option Str → Option Str → Opened → Except Err (List Rule)} {path : Path}
    {line : Str} (h : ¬ ServiceFileLine line) : serviceLine op load none none path line = .error .policySyntax := by
  have hws := words_splitWs line
  cases hs : splitWs line with
  | nil => rw [hs] at hws; exact absurd (.blank hws) h
  | cons w ws =>
    rw [hs] at hws
    by_cases hc : w.head? = some '#'
    · cases w with
      | nil => simp at hc
      | cons c cs =>
        simp only [List.head?_cons, Option.some.injEq] at hc
        subst hc
        exact absurd (.comment hws) h
    by_cases hd : DirectiveWord w
    · rw [serviceLine_dir hws hd]
      have hws' := words_splitWs (compatSubst line)
      unfold serviceDirective
      split
      · rename_i d i e
        rw [e] at hws'
        split
        · rename_i hb
          have : d = c!"!include" := by simpa using hb
          subst this
          exact absurd (.includeFile hws hd hws') h
        · rfl
      · rfl
    · rcases serviceLine_rule (op := op) (load := load) (s := none) (a := none) (path := path) hws hd hc with
        ⟨r, _, hr⟩ | ⟨h, _⟩
      · exact absurd (.rule hws hd hc (words_splitWs _) hr) h
      · exact h

theorem joinWith_mem {sep c : Char} : ∀ {l : List Str}, c ∈ joinWith sep l → c = sep ∨ ∃ w ∈ l, c ∈ w
  | [], h => by cases h
  | [x], h => Or.inr ⟨x, by simp, h⟩
  | x :: y :: l, h => by
    have h' : c ∈ x ++ sep :: joinWith sep (y :: l) := h
    rcases List.mem_append.1 h' with h' | h'
    · exact Or.inr ⟨x, by simp, h'⟩
    · rcases List.mem_cons.1 h' with h' | h'
      · exact Or.inl h'
      · rcases joinWith_mem h' with h' | ⟨w, hw, hc⟩
        · exact Or.inl h'
        · exact Or.inr ⟨w, by simp at hw ⊢; tauto, hc⟩

theorem splitOn_mem {sep c : Char} : ∀ {s w : Str}, w ∈ splitOn sep s → c ∈ w → c ∈ s
  | [], w, h, hc => by
    simp only [splitOn, List.mem_singleton] at h
    subst h
    exact hc
  | x :: s, w, h, hc => by
    unfold splitOn at h
    split at h
    · rcases List.mem_cons.1 h with rfl | h
      · cases hc
      · exact List.mem_cons_of_mem _ (splitOn_mem h hc)
    · split at h
      · simp at h
        subst h
        simp at hc
        subst hc
        exact List.mem_cons_self
      · rename_i y ys e
        rcases List.mem_cons.1 h with rfl | h
        · rcases List.mem_cons.1 hc with rfl | hc
          · exact List.mem_cons_self
          · exact List.mem_cons_of_mem _ (splitOn_mem (by rw [e]; simp) hc)
        · exact List.mem_cons_of_mem _ (splitOn_mem (by rw [e]; simp [h]) hc)

theorem purePathStr_mem {s : Str} {c : Char} (h : c ∈ purePathStr s) : c ∈ s ∨ c = '/' ∨ c = '.' := by
  have key : c ∈ joinWith '/' ((splitOn '/' s).filter fun c => !(c.isEmpty || c == c!".")) →
      c ∈ s ∨ c = '/' ∨ c = '.' := by
    intro h
    rcases joinWith_mem h with h | ⟨w, hw, hc⟩
    · exact Or.inr (Or.inl h)
    · exact Or.inl (splitOn_mem (List.mem_of_mem_filter hw) hc)
  unfold purePathStr at h
  dsimp only at h
  split at h
  · rcases List.mem_append.1 h with h | h
    · simp at h; exact Or.inr (Or.inl h)
    · exact key h
  · split at h
    · rcases List.mem_append.1 h with h | h
      · simp at h; exact Or.inr (Or.inl h)
      · exact key h
    · split at h
      · simp at h; exact Or.inr (Or.inr h)
      · exact key h

theorem words_subst_bang {line w : Str} {ws : List Str} (hw : Words line (w :: ws)) (h1 : '$' ∉ w) (h2 : ',' ∉ w) :
    splitWs (compatSubst line) = w :: ws.flatMap fun w => splitWs (compatSubst w) := by
  rw [splitWs_compatSubst hw, List.flatMap_cons, compatSubst_id h1 h2, word_splitWs hw w (by simp)]
  rfl

theorem dictGet_lint {t p key : Str} : dictGet (lintPolicy true t p) key =
    if p ≠ [] ∧ p = key then some [] else
      if c!"inc" = key then some t else if c!"__main__" = key then some c!"!include-service * * inc" else none := by
  have base : dictGet [(c!"__main__", c!"!include-service * * inc"), (c!"inc", t)] key =
      if c!"inc" = key then some t else if c!"__main__" = key then some c!"!include-service * * inc" else none := by
    show dictGet (([] ++ [(c!"__main__", c!"!include-service * * inc")]) ++ [(c!"inc", t)]) key = _
    rw [dictGet_append_one, dictGet_append_one]
    rfl
  by_cases hp : p = []
  · subst hp
    rw [if_neg (by simp), ← base]
    rfl
  · rw [lintPolicy_true hp, dictGet_append_one, base]
    by_cases hk : p = key
    · rw [if_pos hk, if_pos ⟨hp, hk⟩]
    · rw [if_neg hk, if_neg (show ¬ (p ≠ [] ∧ p = key) from fun h => hk h.2)]

theorem loadService_self {op : Str → Except Err Opened} {t p w : Str} {ws : List Str} {path : Path}
    (hw : Words t (w :: ws)) (hd : DirectiveWord w) (hi : splitWs (compatSubst t) = [c!"!include", p])
    (ho : op p = .ok ([t], path)) : ∀ n, loadService op n none none ([t], path) = .error .recursion
  | 0 => rfl
  | n + 1 => by
    unfold loadService
    rw [collectRules_single, serviceLine_dir hw hd, hi]
    show (do let f ← op p; loadService op n none none f) = _
    rw [ho]
    exact loadService_self hw hd hi ho n

theorem lintLine_service (n : Nat) (line : Str) (hn : '\n' ∉ line) :
    (lintLine true (n + 3) line = .ok () ∨ lintLine true (n + 3) line = .error .policySyntax ∨
      lintLine true (n + 3) line = .error .recursion ∧ ∃ p, Words (compatSubst line) [c!"!include", p] ∧
        purePathStr p = c!"inc" ∧ ¬ Words line [c!"!include", c!"inc"]) ∧
    (lintLine true (n + 3) line = .ok () ↔ (ServiceFileLine line ∧ PlainServiceIncludes line) ∨
      (∃ p, Words line [c!"!include-dir", p]) ∨
      ∃ s a p, Words line [c!"!include-service", s, a, p] ∧ (p = c!"__main__" ∨ p = c!"inc")) := by
  have hns : '\n' ∉ strip line := fun h => hn (strip_subset h)
  by_cases hc : isCommentLine (strip line) = true
  · rw [lintLine_comment hc]
    rw [isCommentLine_strip] at hc
    have hw := words_splitWs line
    refine ⟨Or.inl rfl, iff_of_true rfl (Or.inl ?_)⟩
    cases hs : splitWs line with
    | nil =>
      rw [hs] at hw
      refine ⟨.blank hw, ?_⟩
      intro w ws p hw' _ _
      have := words_unique hw hw'; simp at this
    | cons w ws =>
      rw [hs] at hw hc
      simp only [beq_iff_eq] at hc
      cases w with
      | nil => simp at hc
      | cons c cs =>
        simp only [List.head?_cons, Option.some.injEq] at hc
        subst hc
        refine ⟨.comment hw, ?_⟩
        intro w ws p hw' hd _
        have := words_unique hw hw'
        simp only [List.cons.injEq] at this
        rw [← this.1] at hd
        rcases hd with ⟨t, h⟩ | ⟨t, h⟩ <;> simp at h
  have hc' : isCommentLine (strip line) = false := by simpa using hc
  rcases lintLine_cases (incl := true) (n := n + 3) hc' with ⟨⟨p, hw⟩, h⟩ | ⟨⟨ps, hw, hps⟩, h⟩ | ⟨p, h, hp⟩
  · rw [h]
    exact ⟨Or.inl rfl, iff_of_true rfl (Or.inr (Or.inl ⟨p, hw⟩))⟩
  · rw [h]
    refine ⟨Or.inr (Or.inl rfl), iff_of_false (by simp) ?_⟩
    have hd : DirectiveWord c!"!include-dir" := Or.inl ⟨c!"include-dir", rfl⟩
    rintro (⟨hpl, _⟩ | ⟨q, hw'⟩ | ⟨s, a, q, hw', _⟩)
    · cases hpl with
      | blank h => have := words_unique hw h; simp at this
      | comment h => have := words_unique hw h; simp at this
      | rule h hnd =>
        have := words_unique hw h
        simp only [List.cons.injEq] at this
        rw [← this.1] at hnd
        exact hnd hd
      | includeFile _ _ h =>
        have e := words_subst_bang hw (by decide) (by decide)
        rw [splitWs_of_words h] at e
        simp at e
    · have := words_unique hw hw'
      simp only [List.cons.injEq, true_and] at this
      exact hps _ this
    · have := words_unique hw hw'; simp at this
  rw [h]
  have hmainCols : IncludeColumns c!"*" c!"*" none none := by
    refine ⟨.any, ?_, fun _ => rfl⟩
    exact .any
  have hmainWords : Words c!"!include-service * * inc" [c!"!include-service", c!"*", c!"*", c!"inc"] := by
    rw [words_iff]; decide
  -- the literal paths that replace the texts of the two files
  have hrep : ∀ q, (q = c!"__main__" ∨ q = c!"inc") → p = q →
      ((ServiceFileLine line ∧ PlainServiceIncludes line) ∨
        (∃ p, Words line [c!"!include-dir", p]) ∨
        ∃ s a p, Words line [c!"!include-service", s, a, p] ∧ (p = c!"__main__" ∨ p = c!"inc")) := by
    rintro q hq rfl
    have hpl : PlainPath p ∧ p ≠ [] ∧ '$' ∉ p ∧ ',' ∉ p := by
      rcases hq with rfl | rfl <;> exact ⟨Or.inl (by decide), by decide, by decide, by decide⟩
    rcases hp with ⟨h, _⟩ | hw | ⟨s, a, hw⟩
    · exact absurd h hpl.2.1
    · left
      have e : splitWs (compatSubst line) = [c!"!include", p] := by
        rw [words_subst_bang hw (by decide) (by decide)]
        simp only [List.flatMap_cons, List.flatMap_nil, compatSubst_id hpl.2.2.1 hpl.2.2.2,
          word_splitWs hw p (by simp)]
        rfl
      refine ⟨.includeFile hw (Or.inl ⟨c!"include", rfl⟩) (words_iff.2 e), ?_⟩
      intro w ws q _ _ hq
      have := words_unique (words_iff.2 e) hq
      simp only [List.cons.injEq, true_and, and_true] at this
      rw [← this]
      exact ⟨hw, hpl.1⟩
    · exact Or.inr (Or.inr ⟨s, a, p, hw, hq⟩)
  by_cases hmain : p = c!"__main__"
  · have hr : stringPolicy (n + 3) (lintPolicy true (strip line) p) = .ok [] := by
      rw [stringPolicy_main (text := []) (by rw [dictGet_lint, hmain]; rfl) (by simp)]
      exact fileLine_comment rfl
    rw [hr]
    exact ⟨Or.inl rfl, iff_of_true rfl (hrep _ (Or.inl rfl) hmain)⟩
  have hget : dictGet (lintPolicy true (strip line) p) c!"__main__" = some c!"!include-service * * inc" := by
    rw [dictGet_lint, if_neg (fun h => hmain h.2), if_neg (by decide), if_pos rfl]
  have hopen : ∀ q, (stringEnv (lintPolicy true (strip line) p)).openFile q =
      if badIncludeKey (purePathStr q) then .error .policySyntax else
        stringOpen (lintPolicy true (strip line) p) (purePathStr q) := fun q => rfl
  have hinc : purePathStr c!"inc" = c!"inc" := by decide
  rw [stringPolicy_main hget (by decide), fileLine_includeService hmainWords hmainCols]
  by_cases hpi : p = c!"inc"
  · have ho : (stringEnv (lintPolicy true (strip line) p)).openFile c!"inc" = .ok ([[]], [c!"inc[in-memory]"]) := by
      rw [hopen, hinc, if_neg (by decide)]
      unfold stringOpen
      rw [dictGet_lint, if_pos ⟨by rw [hpi]; decide, hpi⟩]
      rfl
    rw [ho]
    simp only [ok_bind]
    rw [loadService_empty]
    exact ⟨Or.inl rfl, iff_of_true rfl (hrep _ (Or.inr rfl) hpi)⟩
  have ho : (stringEnv (lintPolicy true (strip line) p)).openFile c!"inc" =
      .ok ([strip line], [c!"inc[in-memory]"]) := by
    rw [hopen, hinc, if_neg (by decide)]
    unfold stringOpen
    rw [dictGet_lint, if_neg (fun h => hpi h.2), if_pos rfl]
    simp only [stringIOLines]
    rw [splitOn_of_not_mem hns]
    rfl
  rw [ho]
  simp only [ok_bind]
  have hload : loadService (stringEnv (lintPolicy true (strip line) p)).openFile (n + 2) none none
      ([strip line], [c!"inc[in-memory]"]) =
      serviceLine (stringEnv (lintPolicy true (strip line) p)).openFile
        (loadService (stringEnv (lintPolicy true (strip line) p)).openFile (n + 1)) none none [c!"inc[in-memory]"] line := by
    rw [loadService, collectRules_single]
    exact serviceLine_words (splitWs_strip line)
  rw [hload]
  have hnodir : ¬ ∃ q, Words line [c!"!include-dir", q] := by
    rintro ⟨q, hw⟩
    rcases hp with ⟨_, _, _, h⟩ | hw' | ⟨s', a', hw'⟩
    · exact h _ hw
    · have := words_unique hw' hw; simp at this
    · have := words_unique hw' hw; simp at this
  have hnosvc : ¬ ∃ s a q, Words line [c!"!include-service", s, a, q] ∧ (q = c!"__main__" ∨ q = c!"inc") := by
    rintro ⟨s, a, q, hw, hq⟩
    rcases hp with ⟨_, _, h, _⟩ | hw' | ⟨s', a', hw'⟩
    · exact h _ _ _ hw
    · have := words_unique hw' hw; simp at this
    · have := words_unique hw' hw
      simp only [List.cons.injEq, true_and, and_true] at this
      rw [← this.2.2] at hq
      rcases hq with hq | hq
      · exact hmain hq
      · exact hpi hq
  by_cases hsl : ServiceFileLine line
  · cases hsl with
    | blank hw => exact absurd (comment_of_words_nil hw) (by simp [hc'])
    | comment hw =>
      rw [isCommentLine_strip, splitWs_of_words hw] at hc'
      simp at hc'
    | @rule w ws' ws path r hw hd hh hw2 hr =>
      rcases serviceLine_rule (op := (stringEnv (lintPolicy true (strip line) p)).openFile)
          (load := loadService (stringEnv (lintPolicy true (strip line) p)).openFile (n + 1))
          (s := none) (a := none) (path := [c!"inc[in-memory]"]) hw hd hh with ⟨r', e, _⟩ | ⟨_, hno⟩
      · rw [e]
        refine ⟨Or.inl rfl, iff_of_true rfl (Or.inl ⟨.rule hw hd hh hw2 hr, ?_⟩)⟩
        intro w2 ws2 q hw' hd' _
        have := words_unique hw hw'
        simp only [List.cons.injEq] at this
        rw [← this.1] at hd'
        exact absurd hd' hd
      · rw [splitWs_of_words hw2] at hno
        obtain ⟨r', hr'⟩ := ruleWords_path (path' := [c!"inc[in-memory]"]) hr
        exact absurd hr' (hno _)
    | @includeFile w ws' q hw hd hw2 =>
      rw [serviceLine_dir hw hd, splitWs_of_words hw2]
      have hsd : serviceDirective (stringEnv (lintPolicy true (strip line) p)).openFile
          (loadService (stringEnv (lintPolicy true (strip line) p)).openFile (n + 1)) none none [c!"!include", q] =
          (do let f ← (stringEnv (lintPolicy true (strip line) p)).openFile q
              loadService (stringEnv (lintPolicy true (strip line) p)).openFile (n + 1) none none f) := rfl
      rw [hsd]
      have hq : q ≠ [] := words_ne_nil hw2 q (by simp)
      by_cases hpl : Words line [c!"!include", q] ∧ PlainPath q
      · have hpq : p = q := by
          rcases hp with ⟨_, h, _⟩ | hw' | ⟨s', a', hw'⟩
          · exact absurd hpl.1 (h _)
          · have := words_unique hw' hpl.1
            simpa using this
          · have := words_unique hw' hpl.1; simp at this
        subst hpq
        rw [lintPolicy_true hq, stringEnv_plain hq hpl.2]
        simp only [ok_bind]
        rw [loadService_empty]
        refine ⟨Or.inl rfl, iff_of_true rfl (Or.inl ⟨.includeFile hw hd hw2, ?_⟩)⟩
        intro w2 ws2 q' _ _ hq'
        have := words_unique hw2 hq'
        simp only [List.cons.injEq, true_and, and_true] at this
        rw [← this]
        exact hpl
      · have hno : ¬ ((ServiceFileLine line ∧ PlainServiceIncludes line) ∨
            (∃ p, Words line [c!"!include-dir", p]) ∨
            ∃ s a p, Words line [c!"!include-service", s, a, p] ∧ (p = c!"__main__" ∨ p = c!"inc")) := by
          rintro (⟨_, h⟩ | h | h)
          · exact hpl (h _ _ _ hw hd hw2)
          · exact hnodir h
          · exact hnosvc h
        have hkey : badIncludeKey (purePathStr q) = false → ¬ (p ≠ [] ∧ p = purePathStr q) := by
          rintro hbad ⟨hpne, hpk⟩
          rcases hp with ⟨h, _⟩ | hw' | ⟨s', a', hw'⟩
          · exact hpne h
          · have e := words_subst_bang hw' (by decide) (by decide)
            rw [splitWs_of_words hw2] at e
            simp only [List.flatMap_cons, List.flatMap_nil, List.append_nil, List.cons.injEq, true_and] at e
            have hqc : ∀ c ∈ q, c ≠ ',' ∧ c ≠ '$' := fun c hc =>
              compatSubst_clean (mem_of_words hw2 q (by simp) c hc)
            have h1 : '$' ∉ p := by
              intro hm
              rw [hpk] at hm
              rcases purePathStr_mem hm with h | h | h
              · exact (hqc _ h).2 rfl
              · cases h
              · cases h
            have h2 : ',' ∉ p := by
              intro hm
              rw [hpk] at hm
              rcases purePathStr_mem hm with h | h | h
              · exact (hqc _ h).1 rfl
              · cases h
              · cases h
            rw [compatSubst_id h1 h2, word_splitWs hw' p (by simp)] at e
            have hqp : q = p := by simpa using e
            rw [hqp] at hpk hbad
            refine hpl ⟨by rw [hqp]; exact hw', ?_⟩
            rw [hqp]
            rw [← hpk] at hbad
            exact (purePathStr_plain hpne).1 ⟨hpk.symm, hbad⟩
          · have e := words_subst_bang hw' (by decide) (by decide)
            rw [splitWs_of_words hw2] at e
            simp at e
        rw [hopen]
        by_cases hbad : badIncludeKey (purePathStr q) = true
        · rw [if_pos hbad]
          exact ⟨Or.inr (Or.inl rfl), iff_of_false (by simp [Except.map, bind, Except.bind]) hno⟩
        have hbad' : badIncludeKey (purePathStr q) = false := by simpa using hbad
        by_cases hki : purePathStr q = c!"inc"
        · have hoq : (stringEnv (lintPolicy true (strip line) p)).openFile q =
              .ok ([strip line], [c!"inc[in-memory]"]) := by
            rw [hopen, hki, ← hinc, ← hopen, ho]
          rw [← hopen, hoq]
          simp only [ok_bind]
          rw [loadService_self (t := strip line) (w := w) (ws := ws') (p := q)
            (by rw [words_iff, splitWs_strip, splitWs_of_words hw]) hd
            (by rw [splitWs_subst_strip, splitWs_of_words hw2]) hoq]
          refine ⟨Or.inr (Or.inr ⟨rfl, q, hw2, hki, ?_⟩), iff_of_false (by simp [Except.map]) hno⟩
          intro hwi
          rcases hp with ⟨_, h, _⟩ | hw' | ⟨s', a', hw'⟩
          · exact h _ hwi
          · have := words_unique hw' hwi
            simp only [List.cons.injEq, true_and, and_true] at this
            exact hpi this
          · have := words_unique hw' hwi; simp at this
        rw [if_neg hbad]
        unfold stringOpen
        rw [dictGet_lint, if_neg (hkey hbad'), if_neg (fun h => hki h.symm)]
        by_cases hkm : purePathStr q = c!"__main__"
        · rw [if_pos hkm.symm]
          have : loadService (stringEnv (lintPolicy true (strip line) p)).openFile (n + 1) none none
              (stringIOLines c!"!include-service * * inc", [purePathStr q ++ c!"[in-memory]"]) =
              .error .policySyntax := by
            show loadService _ (n + 1) none none ([c!"!include-service * * inc"], _) = _
            rw [loadService, collectRules_single]
            exact serviceLine_includeService hmainWords
          simp only [ok_bind]
          rw [this]
          exact ⟨Or.inr (Or.inl rfl), iff_of_false (by simp [Except.map]) hno⟩
        · rw [if_neg (fun h => hkm h.symm)]
          exact ⟨Or.inr (Or.inl rfl), iff_of_false (by simp [Except.map, bind, Except.bind]) hno⟩
  · rw [serviceLine_not_line hsl]
    refine ⟨Or.inr (Or.inl rfl), iff_of_false (by simp [Except.map]) ?_⟩
    rintro (⟨h, _⟩ | h | h)
    · exact hsl h
    · exact hnodir h
    · exact hnosvc h

/-! ## The claims -/

/-- `nums` are, in order, the numbers of the lines that are not accepted, counting from `k`. -/
def Numbers (accept : Str → Prop) : Nat → List Str → List Nat → Prop
  | _, [], nums => nums = []
  | k, line :: rest, nums =>
    (accept line ∧ Numbers accept (k + 1) rest nums) ∨
    (¬ accept line ∧ ∃ nums', nums = k :: nums' ∧ Numbers accept (k + 1) rest nums')

theorem lintLines_numbers {incl : Bool} {n : Nat} {accept : Str → Prop}
    (hok : ∀ line, '\n' ∉ line → (lintLine incl n line = .ok () ↔ accept line)) :
    ∀ (lines : List Str) (k : Nat) (nums : List Nat), (∀ l ∈ lines, '\n' ∉ l) →
      lintLines incl n k lines = .ok nums → Numbers accept k lines nums := by
  intro lines
  induction lines with
  | nil =>
    intro k nums _ h
    cases h
    rfl
  | cons line rest ih =>
    intro k nums hn h
    have h1 := hok line (hn line (by simp))
    unfold lintLines at h
    split at h
    · rename_i e
      exact Or.inl ⟨h1.1 e, ih _ _ (fun l hl => hn l (by simp [hl])) h⟩
    · rename_i e
      obtain ⟨l, hl, h2⟩ := bind_eq_ok.1 h
      cases h2
      refine Or.inr ⟨fun ha => ?_, l, rfl, ih _ _ (fun l hl => hn l (by simp [hl])) hl⟩
      rw [h1.2 ha] at e
      cases e
    · cases h

theorem lintLines_total {incl : Bool} {n : Nat} : ∀ (lines : List Str) (k : Nat),
    (∀ l ∈ lines, lintLine incl n l = .ok () ∨ lintLine incl n l = .error .policySyntax) →
    ∃ nums, lintLines incl n k lines = .ok nums := by
  intro lines
  induction lines with
  | nil => intro k _; exact ⟨[], rfl⟩
  | cons line rest ih =>
    intro k h
    obtain ⟨nums, hn⟩ := ih (k + 1) fun l hl => h l (by simp [hl])
    unfold lintLines
    rcases h line (by simp) with e | e
    · rw [e]; exact ⟨nums, hn⟩
    · rw [e, hn]; exact ⟨k :: nums, rfl⟩

theorem fileLines_no_newline {text l : Str} (h : l ∈ fileLines text) : '\n' ∉ l := splitOn_not_mem _ h

theorem numbers_iff {accept : Str → Prop} : ∀ (lines : List Str) (k : Nat) (nums : List Nat),
    Numbers accept k lines nums →
    (∀ i, i ∈ nums ↔ ∃ j line, lines[j]? = some line ∧ i = k + j ∧ ¬ accept line) ∧ nums.Pairwise (· < ·) := by
  intro lines
  induction lines with
  | nil =>
    rintro k nums rfl
    simp
  | cons line rest ih =>
    intro k nums h
    have shift : ∀ i, (∃ j l, rest[j]? = some l ∧ i = k + 1 + j ∧ ¬ accept l) →
        ∃ j l, (line :: rest)[j]? = some l ∧ i = k + j ∧ ¬ accept l := by
      rintro i ⟨j, l, h1, h2, h3⟩
      exact ⟨j + 1, l, by simpa using h1, by omega, h3⟩
    have unshift : ∀ i, (∃ j l, (line :: rest)[j]? = some l ∧ i = k + j ∧ ¬ accept l) →
        (i = k ∧ ¬ accept line) ∨ ∃ j l, rest[j]? = some l ∧ i = k + 1 + j ∧ ¬ accept l := by
      rintro i ⟨j, l, h1, h2, h3⟩
      cases j with
      | zero =>
        simp only [List.getElem?_cons_zero, Option.some.injEq] at h1
        subst h1
        exact Or.inl ⟨h2, h3⟩
      | succ j => exact Or.inr ⟨j, l, by simpa using h1, by omega, h3⟩
    rcases h with ⟨ha, h⟩ | ⟨ha, nums', rfl, h⟩
    · obtain ⟨h1, h2⟩ := ih _ _ h
      refine ⟨fun i => ?_, h2⟩
      rw [h1]
      refine ⟨shift i, fun h => ?_⟩
      rcases unshift i h with ⟨_, h⟩ | h
      · exact absurd ha h
      · exact h
    · obtain ⟨h1, h2⟩ := ih _ _ h
      refine ⟨fun i => ?_, ?_⟩
      · rw [List.mem_cons, h1]
        constructor
        · rintro (rfl | h)
          · exact ⟨0, line, rfl, rfl, ha⟩
          · exact shift i h
        · intro h
          rcases unshift i h with ⟨h, _⟩ | h
          · exact Or.inl h
          · exact Or.inr h
      · rw [List.pairwise_cons]
        refine ⟨fun i hi => ?_, h2⟩
        obtain ⟨j, l, _, h, _⟩ := (h1 i).1 hi
        omega

/-- **C77.** The linter reports, in order, the numbers of exactly the lines it does not accept: a line is accepted when
it is a line of a policy file with its includes written plainly, or an `!include-service` of a file `__main__`. -/
theorem C77_lines (n : Nat) (text : Str) (nums : List Nat) (h : lintFile false (n + 2) text = .ok nums) :
    (∀ i, i ∈ nums ↔ ∃ j line, (fileLines text)[j]? = some line ∧ i = 1 + j ∧ ¬ LintAccepts line) ∧
      nums.Pairwise (· < ·) :=
  numbers_iff _ _ _ (lintLines_numbers (fun line hn => (lintLine_policy n line hn).2) _ _ _
    (fun _ hl => fileLines_no_newline hl) h)

/-- **C77.** The same for files for `!include-service`. -/
theorem C77_lines_service (n : Nat) (text : Str) (nums : List Nat) (h : lintFile true (n + 3) text = .ok nums) :
    (∀ i, i ∈ nums ↔ ∃ j line, (fileLines text)[j]? = some line ∧ i = 1 + j ∧ ¬ LintAcceptsService line) ∧
      nums.Pairwise (· < ·) :=
  numbers_iff _ _ _ (lintLines_numbers (fun line hn => (lintLine_service n line hn).2) _ _ _
    (fun _ hl => fileLines_no_newline hl) h)

/-- **C77.** The linter does not crash, unless a line includes `__main__` by another name. -/
theorem C77_total (n : Nat) (text : Str)
    (h : ∀ line ∈ fileLines text, ∀ p, Words line [c!"!include", p] → ¬ MainAlias p) :
    ∃ nums, lintFile false (n + 2) text = .ok nums := by
  refine lintLines_total _ _ fun line hl => ?_
  rcases (lintLine_policy n line (fileLines_no_newline hl)).1 with e | e | ⟨_, p, hw, ha⟩
  · exact Or.inl e
  · exact Or.inr e
  · exact absurd ha (h line hl p hw)

/-- **C77.** With `-i` it does not crash, unless a line includes a file called `inc`. -/
theorem C77_total_service (n : Nat) (text : Str)
    (h : ∀ line ∈ fileLines text, ∀ p, Words (compatSubst line) [c!"!include", p] → purePathStr p ≠ c!"inc") :
    ∃ nums, lintFile true (n + 3) text = .ok nums := by
  refine lintLines_total _ _ fun line hl => ?_
  rcases (lintLine_service n line (fileLines_no_newline hl)).1 with e | e | ⟨_, p, hw, ha, _⟩
  · exact Or.inl e
  · exact Or.inr e
  · exact absurd ha (h line hl p hw)

/-- The files the lines include can be loaded: `op` opens a file, `dir` lists a directory. -/
structure IncludesLoad (env : LoadEnv) (n : Nat) (lines : List Str) : Prop where
  file : ∀ line ∈ lines, ∀ p, Words line [c!"!include", p] →
    ∃ f rules, env.openFile p = .ok f ∧ loadFile env n f = .ok rules
  dir : ∀ line ∈ lines, ∀ p, Words line [c!"!include-dir", p] →
    ∃ fs, env.openDir p = .ok fs ∧ ∀ f ∈ fs, ∃ o rules, f = .ok o ∧ loadFile env n o = .ok rules
  service : ∀ line ∈ lines, ∀ s a p s' a', Words line [c!"!include-service", s, a, p] → IncludeColumns s a s' a' →
    ∃ f rules, env.openFile p = .ok f ∧ loadService env.openFile n s' a' f = .ok rules
  compat : ∀ line ∈ lines, Words line [c!"!compat-4.0"] → ∃ rules, env.compat n = .ok rules

theorem collectRules_ok_iff {α : Type} {f : α → Except Err (List Rule)} : ∀ {l : List α},
    (∃ rules, collectRules f l = .ok rules) ↔ ∀ x ∈ l, ∃ rules, f x = .ok rules
  | [] => by simp [collectRules]
  | x :: xs => by
    have ih := collectRules_ok_iff (f := f) (l := xs)
    simp only [collectRules, List.mem_cons, forall_eq_or_imp]
    rw [← ih]
    constructor
    · rintro ⟨rules, h⟩
      obtain ⟨a, ha, h⟩ := bind_eq_ok.1 h
      obtain ⟨b, hb, _⟩ := bind_eq_ok.1 h
      exact ⟨⟨a, ha⟩, b, hb⟩
    · rintro ⟨⟨a, ha⟩, b, hb⟩
      rw [ha, hb]
      exact ⟨a ++ b, rfl⟩

/-- **C77.** What the linter checks is what loading needs: a policy file loads exactly when its lines are lines of a
policy file and the files they include load. -/
theorem C77_loads_iff (env : LoadEnv) (n : Nat) (lines : List Str) (path : Path) :
    (∃ rules, loadFile env (n + 1) (lines, path) = .ok rules) ↔
      (∀ line ∈ lines, PolicyLine line) ∧ IncludesLoad env n lines := by
  unfold loadFile
  rw [collectRules_ok_iff]
  constructor
  · intro h
    refine ⟨fun line hl => ?_, ?_, ?_, ?_, ?_⟩
    · by_contra hp
      obtain ⟨rules, e⟩ := h line hl
      rw [fileLine_not_policyLine hp] at e
      cases e
    · intro line hl p hw
      obtain ⟨rules, e⟩ := h line hl
      rw [fileLine_include hw] at e
      obtain ⟨f, h1, h2⟩ := bind_eq_ok.1 e
      exact ⟨f, rules, h1, h2⟩
    · intro line hl p hw
      obtain ⟨rules, e⟩ := h line hl
      rw [fileLine_includeDir hw] at e
      obtain ⟨fs, h1, h2⟩ := bind_eq_ok.1 e
      refine ⟨fs, h1, fun f hf => ?_⟩
      obtain ⟨r, hr⟩ := collectRules_ok_iff.1 ⟨rules, h2⟩ f hf
      obtain ⟨o, h3, h4⟩ := bind_eq_ok.1 hr
      exact ⟨o, r, h3, h4⟩
    · intro line hl s a p s' a' hw hcols
      obtain ⟨rules, e⟩ := h line hl
      rw [fileLine_includeService hw hcols] at e
      obtain ⟨f, h1, h2⟩ := bind_eq_ok.1 e
      exact ⟨f, rules, h1, h2⟩
    · intro line hl hw
      obtain ⟨rules, e⟩ := h line hl
      rw [fileLine_compat hw] at e
      exact ⟨rules, e⟩
  · rintro ⟨hp, hi⟩ line hl
    cases hp line hl with
    | blank hw => exact ⟨[], fileLine_comment (comment_of_words_nil hw)⟩
    | comment hw =>
      refine ⟨[], fileLine_comment ?_⟩
      rw [isCommentLine_strip, splitWs_of_words hw]
      rfl
    | rule hw hr =>
      obtain ⟨r, e⟩ := fileLine_rule (env := env) (n := n) (load := loadFile env n) (path := path) hw hr
      exact ⟨[r], e⟩
    | includeFile hw =>
      obtain ⟨f, rules, h1, h2⟩ := hi.file line hl _ hw
      refine ⟨rules, ?_⟩
      rw [fileLine_include hw, h1]
      exact h2
    | includeDir hw =>
      obtain ⟨fs, h1, h2⟩ := hi.dir line hl _ hw
      obtain ⟨rules, hr⟩ := (collectRules_ok_iff (f := fun f => do let f ← f; loadFile env n f) (l := fs)).2 (by
        intro f hf
        obtain ⟨o, r, rfl, h3⟩ := h2 f hf
        exact ⟨r, h3⟩)
      refine ⟨rules, ?_⟩
      rw [fileLine_includeDir hw, h1]
      exact hr
    | includeService hw hcols =>
      obtain ⟨f, rules, h1, h2⟩ := hi.service line hl _ _ _ _ _ hw hcols
      refine ⟨rules, ?_⟩
      rw [fileLine_includeService hw hcols, h1]
      exact h2
    | compat hw =>
      obtain ⟨rules, h⟩ := hi.compat line hl hw
      exact ⟨rules, by rw [fileLine_compat hw]; exact h⟩

theorem ruleWords_columns {path p' : List Str} {s a s' a' : Option Str} {ws : List Str} {r : Rule}
    (hv : validateServiceAndArgument s a = .ok (s, a))
    (h : RuleWords path (columnWord s' :: columnWord a' :: ws) r) :
    ∃ r', RuleWords p' (columnWord s :: columnWord a :: ws) r' := by
  have hv' : validateServiceAndArgument (some (columnWord s)) (some (columnWord a)) = .ok (s, a) := by
    rw [← hv]
    unfold validateServiceAndArgument
    simp only [columnWord_beq]
  obtain ⟨h1, h2, h3⟩ := validateSA_ok.1 hv'
  generalize hq : columnWord s' :: columnWord a' :: ws = q at h
  cases h with
  | mk _ _ _ d e f g h i j =>
    simp only [List.cons.injEq] at hq
    rw [hq.2.2]
    exact ⟨_, .mk h1 h2 h3 d e f g h i j⟩

/-- **C77.** The same for a file included for a service: it loads exactly when its lines are lines of such a file and
the files they include load for the same service. -/
theorem C77_service_loads_iff (op : Str → Except Err Opened) (n : Nat) (s a : Option Str) (lines : List Str)
    (path : Path) (hv : validateServiceAndArgument s a = .ok (s, a)) :
    (∃ rules, loadService op (n + 1) s a (lines, path) = .ok rules) ↔
      (∀ line ∈ lines, ServiceFileLine line) ∧
      ∀ line ∈ lines, ∀ w ws p, Words line (w :: ws) → DirectiveWord w → Words (compatSubst line) [c!"!include", p] →
        ∃ f rules, op p = .ok f ∧ loadService op n s a f = .ok rules := by
  rw [show loadService op (n + 1) s a (lines, path) = collectRules (serviceLine op (loadService op n) s a path) lines
    from rfl, collectRules_ok_iff]
  have hinc : ∀ line w ws p, Words line (w :: ws) → DirectiveWord w → Words (compatSubst line) [c!"!include", p] →
      serviceLine op (loadService op n) s a path line = (do let f ← op p; loadService op n s a f) := by
    intro line w ws p hw hd hi
    rw [serviceLine_dir hw hd, splitWs_of_words hi]
    show includeService op (loadService op n) s a p = _
    unfold includeService
    rw [hv]
    rfl
  constructor
  · intro h
    refine ⟨fun line hl => ?_, fun line hl w ws p hw hd hi => ?_⟩
    · obtain ⟨rules, e⟩ := h line hl
      have hws := words_splitWs line
      cases hs : splitWs line with
      | nil => rw [hs] at hws; exact .blank hws
      | cons w ws =>
        rw [hs] at hws
        by_cases hc : w.head? = some '#'
        · cases w with
          | nil => simp at hc
          | cons c cs =>
            simp only [List.head?_cons, Option.some.injEq] at hc
            subst hc
            exact .comment hws
        by_cases hd : DirectiveWord w
        · rw [serviceLine_dir hws hd] at e
          have hws' := words_splitWs (compatSubst line)
          unfold serviceDirective at e
          split at e
          · rename_i d i e'
            rw [e'] at hws'
            split at e
            · rename_i hb
              have : d = c!"!include" := by simpa using hb
              subst this
              exact .includeFile hws hd hws'
            · cases e
          · cases e
        · rcases serviceLine_rule (op := op) (load := loadService op n) (s := s) (a := a) (path := path) hws hd hc with
            ⟨r, _, hr⟩ | ⟨h, _⟩
          · obtain ⟨r', hr'⟩ := ruleWords_columns (s := none) (a := none) (p' := path) rfl hr
            exact .rule hws hd hc (words_splitWs _) hr'
          · rw [h] at e; cases e
    · obtain ⟨rules, e⟩ := h line hl
      rw [hinc line w ws p hw hd hi] at e
      obtain ⟨f, h1, h2⟩ := bind_eq_ok.1 e
      exact ⟨f, rules, h1, h2⟩
  · rintro ⟨hp, hi⟩ line hl
    cases hp line hl with
    | blank hw => exact ⟨[], serviceLine_comment (comment_of_words_nil hw)⟩
    | comment hw =>
      refine ⟨[], serviceLine_comment ?_⟩
      rw [isCommentLine_strip, splitWs_of_words hw]
      rfl
    | @rule w ws' ws path' r hw hd hh hw2 hr =>
      rcases serviceLine_rule (op := op) (load := loadService op n) (s := s) (a := a) (path := path) hw hd hh with
        ⟨r', e, _⟩ | ⟨_, hno⟩
      · exact ⟨[r'], e⟩
      · obtain ⟨r', hr'⟩ := ruleWords_columns (s' := none) (a' := none) (p' := path) hv hr
        rw [splitWs_of_words hw2] at hno
        exact absurd hr' (hno _)
    | @includeFile w ws' q hw hd hw2 =>
      obtain ⟨f, rules, h1, h2⟩ := hi line hl _ _ _ hw hd hw2
      refine ⟨rules, ?_⟩
      rw [hinc line _ _ _ hw hd hw2, h1]
      exact h2

/-- **C77.** A file the linter finds clean loads when the files it includes do, if it has no `!include-service` of a
file `__main__`. -/
theorem C77_clean_loads_partial (env : LoadEnv) (n m : Nat) (text : Str) (path : Path)
    (h : lintFile false (n + 2) text = .ok [])
    (hm : ∀ line ∈ fileLines text, ¬ ∃ s a, Words line [c!"!include-service", s, a, c!"__main__"])
    (hi : IncludesLoad env m (fileLines text)) :
    ∃ rules, loadFile env (m + 1) (fileLines text, path) = .ok rules := by
  rw [C77_loads_iff]
  refine ⟨fun line hl => ?_, hi⟩
  obtain ⟨j, hj⟩ := List.getElem?_of_mem hl
  by_contra hp
  have := ((C77_lines n text [] h).1 (1 + j)).2 ⟨j, line, hj, rfl, by
    rintro (⟨h, _⟩ | h)
    · exact hp h
    · exact hm line hl h⟩
  cases this

/-- **C77.** A line reported, whose includes are written plainly, keeps every policy that has it from loading. -/
theorem C77_reported_fails (env : LoadEnv) (n m : Nat) (text : Str) (path : Path) (nums : List Nat) (j : Nat)
    (line : Str) (h : lintFile false (n + 2) text = .ok nums) (hi : 1 + j ∈ nums)
    (hl : (fileLines text)[j]? = some line) (hp : PlainIncludes line) :
    ¬ ∃ rules, loadFile env (m + 1) (fileLines text, path) = .ok rules := by
  rw [C77_loads_iff]
  rintro ⟨ha, _⟩
  obtain ⟨j', line', hl', e, hna⟩ := ((C77_lines n text nums h).1 _).1 hi
  have : j = j' := by omega
  subst this
  rw [hl] at hl'
  cases hl'
  exact hna (Or.inl ⟨ha line (List.mem_of_getElem? hl), hp⟩)

/-- **C77.** The exit status is 0 exactly when every file could be read and none has a line to report; with the first
file that has some, all of them are printed, nothing else is, and the exit status is 1. -/
theorem C77_main (incl : Bool) (n : Nat) : ∀ (files : List (Except Err Str)) (k : Nat),
    ((lintMain incl n k files).result = .ok 0 ↔
      ∀ f ∈ files, ∃ text, f = .ok text ∧ lintFile incl n text = .ok []) ∧
    ((lintMain incl n k files).result = .ok 0 → (lintMain incl n k files).reports = []) ∧
    (∀ c, (lintMain incl n k files).result = .ok c → c ≠ 0 → c = 1 ∧ ∃ pre text post i nums,
      files = pre ++ .ok text :: post ∧ (∀ f ∈ pre, ∃ text, f = .ok text ∧ lintFile incl n text = .ok []) ∧
      lintFile incl n text = .ok (i :: nums) ∧
      (lintMain incl n k files).reports = (i :: nums).map fun j => (k + pre.length, j)) := by
  intro files
  induction files with
  | nil =>
    intro k
    refine ⟨by simp [lintMain], fun _ => rfl, ?_⟩
    intro c hc hne
    cases hc
    exact absurd rfl hne
  | cons f rest ih =>
    intro k
    have step : lintMain incl n k (f :: rest) = match f >>= lintFile incl n with
        | .error e => ⟨[], .error e⟩
        | .ok [] => lintMain incl n (k + 1) rest
        | .ok errs => ⟨errs.map fun i => (k, i), .ok 1⟩ := rfl
    cases f with
    | error e =>
      have : lintMain incl n k (.error e :: rest) = ⟨[], .error e⟩ := rfl
      rw [this]
      refine ⟨iff_of_false (by simp) ?_, (fun h => nomatch h), (fun c h => nomatch h)⟩
      intro h
      obtain ⟨t, ht, _⟩ := h (.error e) (by simp)
      cases ht
    | ok text =>
      cases hl : lintFile incl n text with
      | error e =>
        have : lintMain incl n k (.ok text :: rest) = ⟨[], .error e⟩ := by
          rw [step, ok_bind, hl]
        rw [this]
        refine ⟨iff_of_false (by simp) ?_, (fun h => nomatch h), (fun c h => nomatch h)⟩
        intro h
        obtain ⟨t, ht, h⟩ := h (.ok text) (by simp)
        cases ht
        rw [hl] at h
        cases h
      | ok errs =>
        cases errs with
        | nil =>
          have : lintMain incl n k (.ok text :: rest) = lintMain incl n (k + 1) rest := by
            rw [step, ok_bind, hl]
          rw [this]
          obtain ⟨h1, h2, h3⟩ := ih (k + 1)
          refine ⟨?_, h2, ?_⟩
          · rw [h1]
            simp only [List.mem_cons, forall_eq_or_imp]
            exact ⟨fun h => ⟨⟨text, rfl, hl⟩, h⟩, fun h => h.2⟩
          · intro c hc hne
            obtain ⟨rfl, pre, t, post, i, nums, e, hp, ht, hr⟩ := h3 c hc hne
            refine ⟨rfl, .ok text :: pre, t, post, i, nums, by rw [e]; rfl, ?_, ht, ?_⟩
            · intro f hf
              rcases List.mem_cons.1 hf with rfl | hf
              · exact ⟨text, rfl, hl⟩
              · exact hp f hf
            · rw [hr, List.length_cons]
              congr 1
              funext j
              rw [Nat.add_assoc, Nat.add_comm 1]
        | cons i nums =>
          have : lintMain incl n k (.ok text :: rest) = ⟨(i :: nums).map fun i => (k, i), .ok 1⟩ := by
            rw [step, ok_bind, hl]
          rw [this]
          refine ⟨iff_of_false (by simp) ?_, (fun h => by simp at h), ?_⟩
          · intro h
            obtain ⟨t, ht, h⟩ := h (.ok text) (by simp)
            cases ht
            rw [hl] at h
            cases h
          · intro c hc hne
            cases hc
            exact ⟨rfl, [], text, rest, i, nums, rfl, (by simp), hl, rfl⟩

/-- **C77 does not hold for `!include-service` of `__main__`**: its columns are not checked. -/
theorem C77_unchecked : lintFile false 9 c!"!include-service bad:name also,bad __main__\n" = .ok [] ∧
    ∀ env path, ¬ ∃ rules, loadFile env 9 (fileLines c!"!include-service bad:name also,bad __main__\n", path) = .ok rules := by
  refine ⟨by decide, fun env path h => ?_⟩
  rw [C77_loads_iff] at h
  obtain ⟨h, _⟩ := h
  have hw : Words c!"!include-service bad:name also,bad __main__"
      [c!"!include-service", c!"bad:name", c!"also,bad", c!"__main__"] := by
    rw [words_iff]; decide
  have := h c!"!include-service bad:name also,bad __main__" (by decide)
  cases this with
  | blank h => have := words_unique hw h; simp at this
  | comment h => have := words_unique hw h; simp at this
  | rule h hr =>
    rw [← words_unique hw h] at hr
    exact ruleWords_head hw hr rfl
  | includeFile h => have := words_unique hw h; simp at this
  | includeDir h => have := words_unique hw h; simp at this
  | includeService h hcols =>
    have := words_unique hw h
    simp only [List.cons.injEq, true_and, and_true] at this
    rw [← this.1, ← this.2.1] at hcols
    have := (validateSA_ok (p := (_, _))).2 hcols
    rw [show validateServiceAndArgument (some c!"bad:name") (some c!"also,bad") = .error .policySyntax from by decide] at this
    cases this
  | compat h => have := words_unique hw h; simp at this

/-- **C77 does not hold with `-i`** for `!include-dir`: accepted although a file for `!include-service` cannot have it. -/
theorem C77_service_unchecked : lintFile true 9 c!"!include-dir x\n" = .ok [] ∧
    ∀ op load path, serviceLine op load none none path c!"!include-dir x" = .error .policySyntax :=
  ⟨by decide, fun _ _ _ => rfl⟩

/-- **C77 does not hold with `-i`** for the old spelling of an include, which loads: it is reported. -/
theorem C77_service_old_include : lintFile true 9 c!"$include:other\n" = .ok [1] ∧
    ∀ op load path, serviceLine op load none none path c!"$include:other" =
      (do let f ← op c!"other"; load none none f) :=
  ⟨by decide, fun _ _ _ => rfl⟩

/-- **C77 does not hold**: the linter ends with an uncaught exception, whatever the interpreter's recursion limit. -/
theorem C77_crash (n : Nat) : lintFile false n c!"!include ./__main__\n" = .error .recursion ∧
    lintFile true n c!"$include:inc\n" = .error .recursion := by
  have h1 : ∀ n, lintLine false n c!"!include ./__main__" = .error .recursion := by
    intro n
    have hw : Words c!"!include ./__main__" [c!"!include", c!"./__main__"] := by rw [words_iff]; decide
    show (match stringPolicy n (lintPolicy false c!"!include ./__main__" c!"./__main__") with
      | .ok _ => (.ok () : Except Err Unit)
      | .error e => .error e) = _
    have : stringPolicy n (lintPolicy false c!"!include ./__main__" c!"./__main__") = .error .recursion :=
      loadFile_self hw rfl n
    rw [this]
  have h2 : ∀ n, lintLine true n c!"$include:inc" = .error .recursion := by
    intro n
    have hw : Words c!"$include:inc" [c!"$include:inc"] := by rw [words_iff]; decide
    show (match stringPolicy n (lintPolicy true c!"$include:inc" []) with
      | .ok _ => (.ok () : Except Err Unit)
      | .error e => .error e) = _
    have : stringPolicy n (lintPolicy true c!"$include:inc" []) = .error .recursion := by
      cases n with
      | zero => rfl
      | succ n =>
        rw [stringPolicy_main (text := c!"!include-service * * inc") rfl (by decide),
          fileLine_includeService (s := c!"*") (a := c!"*") (p := c!"inc") (s' := none) (a' := none)
            (by rw [words_iff]; decide) ⟨.any, .any, fun _ => rfl⟩]
        exact loadService_self (p := c!"inc") hw (Or.inr ⟨c!"inc", rfl⟩) (by decide) rfl n
    rw [this]
  unfold lintFile
  exact ⟨by
    show lintLines false n 1 [c!"!include ./__main__", []] = _
    unfold lintLines
    rw [h1], by
    show lintLines true n 1 [c!"$include:inc", []] = _
    unfold lintLines
    rw [h2]⟩

/-- A file with accepted and reported lines of every kind. -/
example : lintFile false 9
    c!"# c\n* * @anyvm @anyvm deny\n!include include/x\nbad\n!include-dir\n!compat-4.0\n!include ../y\n!include-service a + b\n" =
      .ok [4, 5, 7] := by decide

example : lintFile true 9 c!"@anyvm @anyvm deny\n$anyvm $anyvm ask,default_target=x\n!include y\n!include-service a + b\nx y\n" =
      .ok [4, 5] := by decide

example : lintMain false 9 0 [.ok c!"* * @anyvm @anyvm deny\n", .ok c!"\nx\n", .ok c!"y\n"] = ⟨[(1, 2)], .ok 1⟩ := by decide

end Qrexec
