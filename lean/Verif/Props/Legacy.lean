import Verif.Props.Load
import Verif.Props.RuleLine

/-! # C58: lines in the old format, and `!include-service` (C27) -/
namespace Qrexec
open Spec

namespace Spec

/-- Old spelling: `$` for `@`, and a comma is as good as a space. -/
def legacyChar (c : Char) : Char := if c = '$' then '@' else if c = ',' then ' ' else c

/-- How a service or argument is written in the new format. -/
def columnWord : Option Str → Str
  | none => c!"*"
  | some s => s

end Spec

theorem columnWord_beq (o : Option Str) :
    (if (some (columnWord o) == some c!"*") = true then (none : Option Str) else some (columnWord o)) =
      (if (o == some c!"*") = true then none else o) := by
  cases o with
  | none => rfl
  | some s => rfl

theorem mkRule_column (s a : Option Str) (src tgt act : Str) (ps : List Str) (path : List Str) :
    mkRule s a src tgt act ps path =
      mkRule (some (columnWord s)) (some (columnWord a)) src tgt act ps path := by
  unfold mkRule
  have : validateServiceAndArgument s a =
      validateServiceAndArgument (some (columnWord s)) (some (columnWord a)) := by
    unfold validateServiceAndArgument
    simp only [columnWord_beq]
  rw [this]

theorem replaceAux_none {pat rep : Str} (hp : pat ≠ []) :
    ∀ s : Str, (¬ ∃ pre post, s = pre ++ pat ++ post) → replaceAux pat rep 0 s = s := by
  intro s
  induction s with
  | nil => intro _; rfl
  | cons c cs ih =>
    intro h
    rw [replaceAux, if_neg, ih]
    · rintro ⟨pre, post, rfl⟩
      exact h ⟨c :: pre, post, by simp⟩
    · intro hs
      obtain ⟨t, ht⟩ := startsWith_iff.1 hs
      exact h ⟨[], t, by simpa using ht⟩

theorem compatSubst_plain {s : Str} (h : ¬ ∃ pre post, s = pre ++ c!"$include:" ++ post) :
    compatSubst s = s.map legacyChar := by
  unfold compatSubst
  rw [replaceAux_none (by decide) s h]
  apply List.map_congr_left
  intro c _
  simp only [legacyChar, beq_iff_eq]

/-- **C58.** A line in the old format (of a file of the legacy directory, or included by
`!include-service`), that is not blank, a comment, an `!`-directive or a `$include:`, says what the
new format says with the service and argument in front, `$` read as `@` and commas as spaces. -/
theorem C58_legacy_line (op : Str → Except Err Opened)
    (load : Option Str → Option Str → Opened → Except Err (List Rule))
    (service argument : Option Str) (path : Path) (line w0 : Str) (rest ws : List Str)
    (hline : Words line (w0 :: rest)) (h1 : w0.head? ≠ some '#') (h2 : w0.head? ≠ some '!')
    (hno : ¬ ∃ pre post, line = pre ++ c!"$include:" ++ post)
    (hw : Words (line.map legacyChar) ws) (rules : List Rule) :
    serviceLine op load service argument path line = .ok rules ↔
      ∃ r, rules = [r] ∧ RuleWords path (columnWord service :: columnWord argument :: ws) r := by
  have hs := splitWs_of_words hline
  have hwne : w0 ≠ [] := by
    generalize hx : w0 :: rest = l at hline
    cases hline with
    | none => simp at hx
    | word _ hne => simp only [List.cons.injEq] at hx; rw [hx.1]; exact hne
  have c1 : isCommentLine (strip line) = false := by
    rw [isCommentLine_strip, hs]; simpa using h1
  -- the substitution keeps the words
  have hsub : compatSubst line = line.map legacyChar := compatSubst_plain hno
  have e : splitWs (compatSubst (strip line)) = ws := by
    rw [← splitWs_of_words hw, ← hsub]
    have hst : Words (strip line) (w0 :: rest) := words_iff.2 (by rw [splitWs_strip]; exact hs)
    rw [splitWs_compatSubst hst, splitWs_compatSubst hline]
  have c2 : startsWith c!"!" (compatSubst (strip line)) = false := by
    rw [startsBang_subst, hs]
    simp only
    have hw0 : ¬ ∃ pre post, w0 = pre ++ c!"$include:" ++ post := by
      rintro ⟨pre, post, rfl⟩
      obtain ⟨rst, hr, _, _⟩ := strip_first_word hs
      obtain ⟨a, b, _, _, hl, _⟩ := strip_spec line
      apply hno
      refine ⟨a ++ pre, post ++ rst ++ b, ?_⟩
      exact hl.trans (by rw [hr]; simp [List.append_assoc])
    rw [compatSubst_plain hw0]
    cases w0 with
    | nil => exact absurd rfl hwne
    | cons x xs =>
      simp only [List.map_cons, startsWith, List.isPrefixOf, Bool.and_true, beq_eq_false_iff_ne, ne_eq]
      intro hx
      unfold legacyChar at hx
      split at hx
      · cases hx
      · split at hx
        · cases hx
        · subst hx; exact h2 rfl
  -- no commas are left
  have hcomma : ∀ w ∈ ws, ',' ∉ w := by
    intro w hwm hc
    have : ',' ∈ line.map legacyChar := by
      have key : ∀ {l : Str} {vs : List Str}, Words l vs → ∀ v ∈ vs, ∀ ch ∈ v, ch ∈ l := by
        intro l vs hv
        induction hv with
        | none => intro v hv; cases hv
        | @word gap w rest ws hg hne hw hr _ ih =>
          intro v hv ch hch
          rcases List.mem_cons.1 hv with rfl | hv
          · simp [hch]
          · have := ih v hv ch hch; simp [this]
      exact key hw w hwm ',' hc
    obtain ⟨ch, _, hch⟩ := List.mem_map.1 this
    unfold legacyChar at hch
    split at hch
    · cases hch
    · split at hch
      · cases hch
      · rename_i hx; exact hx hch
  have hflat : ∀ l : List Str, (∀ w ∈ l, ',' ∉ w) → (l.map (splitOn ',')).flatten = l := by
    intro l
    induction l with
    | nil => intro _; rfl
    | cons x xs ih =>
      intro hx
      rw [List.map_cons, List.flatten_cons, ih fun w hw => hx w (by simp [hw]),
        splitOn_of_not_mem (hx x (by simp))]
      rfl
  unfold serviceLine
  simp only [c1, c2, Bool.false_eq_true, if_false]
  rw [bind_eq_ok]
  have hrule : ∀ r, ruleFromLineService service argument (compatSubst (strip line)) path = .ok r ↔
      RuleWords path (columnWord service :: columnWord argument :: ws) r := by
    intro r
    unfold ruleFromLineService
    rw [e]
    have hsmall : ∀ vs : List Str, vs.length < 3 →
        ¬ RuleWords path (columnWord service :: columnWord argument :: vs) r := by
      intro vs hv hr
      generalize hq : columnWord service :: columnWord argument :: vs = q at hr
      cases hr with
      | mk =>
        have := congrArg List.length hq
        simp at this; omega
    match hws : ws with
    | [] => simp only [reduceCtorEq, false_iff]; exact hsmall [] (by simp)
    | [x] => simp only [reduceCtorEq, false_iff]; exact hsmall [x] (by simp)
    | [x, y] =>
      simp only [List.map_nil, List.flatten_nil, reduceCtorEq, false_iff]
      exact hsmall [x, y] (by simp)
    | x :: y :: z :: zs =>
      simp only
      rw [hflat (z :: zs) fun w hw => hcomma w (by simp at hw ⊢; tauto)]
      simp only
      rw [mkRule_column]
      exact ruleWords_iff
  constructor
  · rintro ⟨r, hr, h⟩
    cases h
    exact ⟨r, rfl, (hrule r).1 hr⟩
  · rintro ⟨r, rfl, hr⟩
    exact ⟨r, (hrule r).2 hr, rfl⟩

/-- **C58.** Otherwise, for such a line, the policy does not load: it is a syntax error. -/
theorem C58_legacy_bad_line (op : Str → Except Err Opened)
    (load : Option Str → Option Str → Opened → Except Err (List Rule))
    (service argument : Option Str) (path : Path) (line w0 : Str) (rest ws : List Str)
    (hline : Words line (w0 :: rest)) (h1 : w0.head? ≠ some '#') (h2 : w0.head? ≠ some '!')
    (hno : ¬ ∃ pre post, line = pre ++ c!"$include:" ++ post)
    (hw : Words (line.map legacyChar) ws)
    (hbad : ¬ ∃ r, RuleWords path (columnWord service :: columnWord argument :: ws) r) :
    serviceLine op load service argument path line = .error .policySyntax := by
  cases h : serviceLine op load service argument path line with
  | ok rules =>
    obtain ⟨r, _, hr⟩ := (C58_legacy_line op load service argument path line w0 rest ws hline h1 h2
      hno hw rules).1 h
    exact absurd ⟨r, hr⟩ hbad
  | error e =>
    have hs := splitWs_of_words hline
    have c1 : isCommentLine (strip line) = false := by
      rw [isCommentLine_strip, hs]; simpa using h1
    have c2 : startsWith c!"!" (compatSubst (strip line)) = false := by
      by_contra hc
      simp only [Bool.not_eq_false] at hc
      have hsub : compatSubst line = line.map legacyChar := compatSubst_plain hno
      rw [startsBang_subst, hs] at hc
      simp only at hc
      have hw0 : ¬ ∃ pre post, w0 = pre ++ c!"$include:" ++ post := by
        rintro ⟨pre, post, rfl⟩
        obtain ⟨rst, hr, _, _⟩ := strip_first_word hs
        obtain ⟨a, b, _, _, hl, _⟩ := strip_spec line
        apply hno
        refine ⟨a ++ pre, post ++ rst ++ b, ?_⟩
        exact hl.trans (by rw [hr]; simp [List.append_assoc])
      rw [compatSubst_plain hw0] at hc
      cases w0 with
      | nil => simp [startsWith, List.isPrefixOf] at hc
      | cons x xs =>
        simp only [List.map_cons, startsWith, List.isPrefixOf, Bool.and_true, beq_iff_eq] at hc
        unfold legacyChar at hc
        split at hc
        · cases hc
        · split at hc
          · cases hc
          · subst hc; exact h2 rfl
    unfold serviceLine at h
    simp only [c1, c2, Bool.false_eq_true, if_false] at h
    cases hr : ruleFromLineService service argument (compatSubst (strip line)) path with
    | ok r => rw [hr] at h; cases h
    | error e' => rw [hr] at h; cases h; rw [ruleFromLineService_error hr]

/-- **C58.** `$include:FILE` includes the file for the same service and argument. -/
theorem C58_legacy_include (op : Str → Except Err Opened)
    (load : Option Str → Option Str → Opened → Except Err (List Rule))
    (service argument : Option Str) (path : Path) (line inc : Str)
    (hline : Words line [c!"$include:" ++ inc]) (hplain : ∀ c ∈ inc, c ≠ '$' ∧ c ≠ ',')
    (hne : inc ≠ []) (sa : Option Str × Option Str)
    (hv : validateServiceAndArgument service argument = .ok sa) :
    serviceLine op load service argument path line =
      (op inc >>= fun f => load sa.1 sa.2 f) := by
  have hs := splitWs_of_words hline
  have hnosp : ∀ c ∈ inc, isSpace c = false := by
    generalize hx : [c!"$include:" ++ inc] = l at hline
    cases hline with
    | none => simp at hx
    | word _ _ hww =>
      simp only [List.cons.injEq] at hx
      intro c hc
      exact hww c (by rw [← hx.1]; exact List.mem_append_right _ hc)
  have hsub : compatSubst (c!"$include:" ++ inc) = c!"!include" ++ ' ' :: inc := by
    unfold compatSubst
    have : replaceAux c!"$include:" c!"!include " 0 (c!"$include:" ++ inc) = c!"!include " ++ inc := by
      show replaceAux c!"$include:" c!"!include " 0 ('$' :: (c!"include:" ++ inc)) = _
      have hst : startsWith c!"$include:" ('$' :: (c!"include:" ++ inc)) = true :=
        startsWith_iff.2 ⟨inc, rfl⟩
      rw [replaceAux, if_pos hst]
      congr 1
      have hk : ∀ (k : Nat) (x y : Str), x.length = k →
          replaceAux c!"$include:" c!"!include " k (x ++ y) =
            replaceAux c!"$include:" c!"!include " 0 y := by
        intro k
        induction k with
        | zero => intro x y hx; rw [List.length_eq_zero_iff] at hx; subst hx; rfl
        | succ k ih =>
          intro x y hx
          cases x with
          | nil => simp at hx
          | cons a as => rw [List.cons_append, replaceAux]; exact ih as y (by simpa using hx)
      have h8 := hk 8 c!"include:" inc rfl
      rw [show c!"$include:".length - 1 = 8 from rfl, h8]
      apply replaceAux_none (by decide)
      rintro ⟨pre, post, rfl⟩
      exact (hplain '$' (by simp)).1 rfl
    rw [this, List.map_append]
    have hid : inc.map (fun c => if c == '$' then '@' else if c == ',' then ' ' else c) = inc := by
      rw [List.map_congr_left (g := id)]
      · simp
      · intro c hc
        simp [(hplain c hc).1, (hplain c hc).2]
    rw [hid]; rfl
  have hst : Words (strip line) [c!"$include:" ++ inc] := words_iff.2 (by rw [splitWs_strip]; exact hs)
  have e : splitWs (compatSubst (strip line)) = [c!"!include", inc] := by
    rw [splitWs_compatSubst hst]
    simp only [List.flatMap_cons, List.flatMap_nil, List.append_nil]
    rw [hsub]
    unfold splitWs
    rw [splitWs_word (by decide) (by decide) (by intro c hc; cases hc; decide),
      splitWsAux_space (by decide)]
    have := splitWs_word (rest := []) hne hnosp (by simp)
    rw [List.append_nil] at this
    rw [this]; rfl
  have c1 : isCommentLine (strip line) = false := by
    rw [isCommentLine_strip, hs]; rfl
  have c2 : startsWith c!"!" (compatSubst (strip line)) = true := by
    rw [startsBang_subst, hs]
    show startsWith c!"!" (compatSubst (c!"$include:" ++ inc)) = true
    rw [hsub]; rfl
  unfold serviceLine
  simp only [c1, c2, Bool.false_eq_true, if_false, if_true, e]
  show includeService op load service argument inc = _
  unfold includeService
  rw [hv]; rfl

/-- **C27.** `!include-service SERVICE ARGUMENT FILE` stands for the rules of the file, read in the
old format, and all of them are for exactly this service and argument. -/
theorem C27_include_service (env : LoadEnv) (n : Nat) (line s a inc : Str) (p : Path)
    (hw : Words line [c!"!include-service", s, a, inc]) (so ao : Option Str)
    (hs : ServiceText s so) (ha : ArgumentText a ao) (hsa : so = none → ao = none) :
    fileLine env n (loadFile env n) p line =
      (env.openFile inc >>= fun f => loadService env.openFile n so ao f) ∧
    ∀ rules, fileLine env n (loadFile env n) p line = .ok rules →
      ∀ r ∈ rules, r.service = so ∧ r.argument = ao := by
  have hv : validateServiceAndArgument (some s) (some a) = .ok (so, ao) :=
    validateSA_ok.2 ⟨hs, ha, hsa⟩
  have h1 : fileLine env n (loadFile env n) p line =
      (env.openFile inc >>= fun f => loadService env.openFile n so ao f) := by
    rw [fileLine_directive hw]
    show includeService env.openFile (loadService env.openFile n) (some s) (some a) inc = _
    unfold includeService
    rw [hv]; rfl
  refine ⟨h1, fun rules hr r hm => ?_⟩
  rw [h1] at hr
  obtain ⟨f, _, hf⟩ := bind_eq_ok.1 hr
  exact (loadService_rules n (validateSA_idem hv) f rules hf r hm).1

example : Words c!"$anyvm,work ask,default_target=$dispvm" [c!"$anyvm,work", c!"ask,default_target=$dispvm"] ∧
    Words (c!"$anyvm,work ask,default_target=$dispvm".map legacyChar)
      [c!"@anyvm", c!"work", c!"ask", c!"default_target=@dispvm"] := by
  constructor <;> exact words_iff.2 (by decide)
example : (serviceLine (fun _ => .error .osError) (fun _ _ _ => .error .osError) (some c!"s") none []
    c!"$anyvm,work ask,default_target=$dispvm,").map (List.map (fun r => r.service)) =
    .ok [some c!"s"] := by decide

end Qrexec
