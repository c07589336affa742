import Verif.Spec.Lint
import Verif.Model.Lint
import Verif.Lemmas.Load
import Verif.Lemmas.LoadDir
import Verif.Lemmas.Exec
import Verif.Props.RuleLine

namespace Qrexec
open Spec

theorem serviceText_head {w : Str} {o : Option Str} (h : ServiceText w o) (hne : w ≠ []) :
    w.head? ≠ some '!' ∧ w.head? ≠ some '#' := by
  cases h with
  | any => decide
  | name _ hc =>
    cases w with
    | nil => exact absurd rfl hne
    | cons c cs =>
      have := (hc c (by simp)).1
      constructor
      · intro he
        simp only [List.head?_cons, Option.some.injEq] at he
        subst he
        exact absurd ((nameChar_iff _).2 this) (by decide)
      · intro he
        simp only [List.head?_cons, Option.some.injEq] at he
        subst he
        exact absurd ((nameChar_iff _).2 this) (by decide)

theorem startsBang_iff {w : Str} : startsWith c!"!" w = true ↔ w.head? = some '!' := by
  cases w with
  | nil => simp [startsWith]
  | cons c cs =>
    simp only [startsWith, List.isPrefixOf, List.head?_cons, Option.some.injEq, Bool.and_true, beq_iff_eq]
    exact eq_comm

/-- A line of a policy file that is no policy line is a syntax error, whatever the directory holds. -/
theorem fileLine_not_policyLine {env : LoadEnv} {n : Nat} {load : Opened → Except Err (List Rule)} {path : Path}
    {line : Str} (h : ¬ PolicyLine line) : fileLine env n load path line = .error .policySyntax := by
  unfold fileLine
  have hws := words_splitWs line
  simp only [isCommentLine_strip, startsBang_strip, splitWs_strip]
  cases hs : splitWs line with
  | nil =>
    rw [hs] at hws
    exact absurd (.blank hws) h
  | cons w ws =>
    rw [hs] at hws
    simp only
    by_cases hc : w.head? = some '#'
    · cases w with
      | nil => simp at hc
      | cons c cs =>
        simp only [List.head?_cons, Option.some.injEq] at hc
        subst hc
        exact absurd (.comment hws) h
    rw [if_neg (by simpa using hc)]
    by_cases hb : startsWith c!"!" w = true
    · rw [if_pos hb]
      unfold fileDirective
      dsimp only
      by_cases h1 : w = c!"!include"
      · rw [if_pos (by simp [h1])]
        subst h1
        split
        · exact absurd (.includeFile hws) h
        · rfl
      rw [if_neg (by simpa using h1)]
      by_cases h2 : w = c!"!include-dir"
      · rw [if_pos (by simp [h2])]
        subst h2
        split
        · exact absurd (.includeDir hws) h
        · rfl
      rw [if_neg (by simpa using h2)]
      by_cases h3 : w = c!"!include-service"
      · rw [if_pos (by simp [h3])]
        subst h3
        split
        · rename_i s a p
          unfold includeService
          cases hv : validateServiceAndArgument (some s) (some a) with
          | error e => rw [validateSA_error hv]; rfl
          | ok sa => exact absurd (.includeService hws (validateSA_ok.1 hv)) h
        · rfl
      rw [if_neg (by simpa using h3)]
      by_cases h4 : w = c!"!compat-4.0"
      · rw [if_pos (by simp [h4])]
        subst h4
        split
        · exact absurd (.compat hws) h
        · rfl
      rw [if_neg (by simpa using h4)]
    · rw [if_neg hb]
      cases hr : ruleFromLine (strip line) path with
      | error e => rw [ruleFromLine_error hr]; rfl
      | ok r =>
        obtain ⟨ws', hw', hrw⟩ := (C23_rule_line _ _ _).1 hr
        have : ws' = w :: ws := by
          rw [← splitWs_of_words hw', splitWs_strip, hs]
        rw [this] at hrw
        exact absurd (.rule hws hrw) h

theorem ruleWords_path {path path' : List Str} {ws : List Str} {r : Rule} (h : RuleWords path ws r) :
    ∃ r', RuleWords path' ws r' := by
  cases h with
  | mk a b c d e f g h i j => exact ⟨_, .mk a b c d e f g h i j⟩

theorem fileLine_rule_eq {env : LoadEnv} {n : Nat} {load : Opened → Except Err (List Rule)} {path : Path} {line : Str}
    {ws : List Str} {r' : Rule} (hw : Words line ws) (hr' : RuleWords path ws r') :
    fileLine env n load path line = .ok [r'] := by
  unfold fileLine
  simp only [isCommentLine_strip, startsBang_strip, splitWs_strip, splitWs_of_words hw]
  have hrule := (C23_rule_line (strip line) path r').2 ⟨ws, by rw [words_iff, splitWs_strip, splitWs_of_words hw], hr'⟩
  cases hr' with
  | @mk service argument source target action params kvs s a src tgt act h1 h2 h3 h4 h5 h6 h7 h8 h9 h10 =>
    have hne : service ≠ [] := by
      generalize hz : (service :: argument :: source :: target :: action :: params) = z at hw
      cases hw with
      | none => cases hz
      | word _ hne _ _ _ =>
        cases hz
        exact hne
    obtain ⟨ha, hb⟩ := serviceText_head h1 hne
    simp only
    rw [if_neg (by simpa using hb), if_neg (by rw [startsBang_iff]; exact ha), hrule]
    rfl

theorem fileLine_rule {env : LoadEnv} {n : Nat} {load : Opened → Except Err (List Rule)} {path p' : Path} {line : Str}
    {ws : List Str} {r : Rule} (hw : Words line ws) (hr : RuleWords p' ws r) :
    ∃ r', fileLine env n load path line = .ok [r'] := by
  obtain ⟨r', hr'⟩ := ruleWords_path (path' := path) hr
  exact ⟨r', fileLine_rule_eq hw hr'⟩

theorem fileLine_include {env : LoadEnv} {n : Nat} {load : Opened → Except Err (List Rule)} {path : Path} {line p : Str}
    (hw : Words line [c!"!include", p]) :
    fileLine env n load path line = (do let f ← env.openFile p; load f) := by
  unfold fileLine
  simp only [isCommentLine_strip, startsBang_strip, splitWs_strip, splitWs_of_words hw]
  rfl

theorem fileLine_includeDir {env : LoadEnv} {n : Nat} {load : Opened → Except Err (List Rule)} {path : Path}
    {line p : Str} (hw : Words line [c!"!include-dir", p]) :
    fileLine env n load path line =
      (do let fs ← env.openDir p; collectRules (fun f => do let f ← f; load f) fs) := by
  unfold fileLine
  simp only [isCommentLine_strip, startsBang_strip, splitWs_strip, splitWs_of_words hw]
  rfl

theorem fileLine_includeService {env : LoadEnv} {n : Nat} {load : Opened → Except Err (List Rule)} {path : Path}
    {line s a p : Str} {s' a' : Option Str} (hw : Words line [c!"!include-service", s, a, p])
    (hc : IncludeColumns s a s' a') :
    fileLine env n load path line = (do let f ← env.openFile p; loadService env.openFile n s' a' f) := by
  unfold fileLine
  simp only [isCommentLine_strip, startsBang_strip, splitWs_strip, splitWs_of_words hw]
  show includeService env.openFile (loadService env.openFile n) (some s) (some a) p = _
  unfold includeService
  rw [(validateSA_ok (p := (s', a'))).2 hc]
  rfl

theorem fileLine_compat {env : LoadEnv} {n : Nat} {load : Opened → Except Err (List Rule)} {path : Path} {line : Str}
    (hw : Words line [c!"!compat-4.0"]) : fileLine env n load path line = env.compat n := by
  unfold fileLine
  simp only [isCommentLine_strip, startsBang_strip, splitWs_strip, splitWs_of_words hw]
  rfl

/-! ## Paths -/

theorem purePathStr_plain {p : Str} (hne : p ≠ []) :
    (purePathStr p = p ∧ badIncludeKey p = false) ↔ PlainPath p := by
  constructor
  · rintro ⟨h1, h2⟩
    unfold badIncludeKey at h2
    by_cases hs : '/' ∈ p
    · right
      simp only [List.contains_iff_mem.2 hs, Bool.true_and, Bool.or_eq_false_iff, Bool.not_eq_false',
        decide_eq_false_iff_not, Nat.not_lt] at h2
      obtain ⟨x, hx⟩ := startsWith_iff.1 h2.1
      have hxs : '/' ∉ x := by
        have hcnt := h2.2
        rw [hx, List.count_append] at hcnt
        have : List.count '/' c!"include/" = 1 := by decide
        rw [this] at hcnt
        exact List.count_eq_zero.1 (by omega)
      refine ⟨x, hx, hxs, ?_, ?_⟩
      · rintro rfl
        rw [hx] at h1
        exact absurd h1 (by decide)
      · rintro rfl
        rw [hx] at h1
        exact absurd h1 (by decide)
    · exact Or.inl hs
  · rintro (h | ⟨x, rfl, h1, h2, h3⟩)
    · have e : splitOn '/' p = [p] := splitOn_of_not_mem h
      have hns : ∀ t, startsWith ('/' :: t) p = false := by
        intro t
        rw [← Bool.not_eq_true, startsWith_iff]
        rintro ⟨u, rfl⟩
        simp at h
      refine ⟨?_, ?_⟩
      · unfold purePathStr
        rw [e, hns c!"/", hns []]
        try rw [hns c!"//"]
        by_cases hd : p = c!"."
        · subst hd; rfl
        · have hf : ([p].filter fun c => !(c.isEmpty || c == c!".")) = [p] := by
            simp [hne, hd]
          rw [hf]
          rfl
      · unfold badIncludeKey
        have : p.contains '/' = false := by simpa using h
        rw [this]
        rfl
    · have e : splitOn '/' (c!"include/" ++ x) = [c!"include", x] := by
        have := splitOn_append (sep := '/') (a := c!"include") (b := x) (by decide)
        rw [splitOn_of_not_mem h1] at this
        exact this
      refine ⟨?_, ?_⟩
      · unfold purePathStr
        rw [e]
        have hf : ([c!"include", x].filter fun c => !(c.isEmpty || c == c!".")) = [c!"include", x] := by
          simp [h2, h3]
        rw [hf]
        rfl
      · unfold badIncludeKey
        have e1 : startsWith c!"include/" (c!"include/" ++ x) = true := startsWith_iff.2 ⟨x, rfl⟩
        have e2 : (c!"include/" ++ x).count '/' = 1 := by
          rw [List.count_append, List.count_eq_zero.2 h1]
          rfl
        rw [e1, e2]
        simp

end Qrexec
