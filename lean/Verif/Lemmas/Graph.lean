import Verif.Spec.Graph
import Verif.Lemmas.Allow
import Verif.Lemmas.Eval
import Verif.Lemmas.RuleLine
import Verif.Lemmas.Sort
import Mathlib.Tactic.Tauto

namespace Qrexec
open Spec

/-- Only the columns of the rules that apply matter: two requests that differ only in service and argument, and to
which the same rules apply, get the same resolution. -/
def withCall (req : Request) (svc arg : Str) : Request := { req with service := svc, argument := arg }

/-- The same resolution of a request for another service and argument. -/
def Resolution.withCall : Resolution → Str → Str → Resolution
  | .allow r, svc, arg => .allow { r with request := Qrexec.withCall r.request svc arg }
  | .ask r, svc, arg => .ask { r with request := Qrexec.withCall r.request svc arg }

/-- The service and argument columns of the rule apply. -/
def Columns (r : Rule) (svc arg : Str) : Prop :=
  (r.service = none ∨ r.service = some svc) ∧ (r.argument = none ∨ r.argument = some arg)

theorem isMatchButTarget_columns {r : Rule} {req : Request} :
    r.isMatchButTarget req =
      if (r.service.isNone || r.service == some req.service) && (r.argument.isNone || r.argument == some req.argument) then
        r.source.matches req.info none (.name req.source) else .ok false := by
  unfold Rule.isMatchButTarget
  by_cases h1 : (r.service.isNone || r.service == some req.service) = true
  · by_cases h2 : (r.argument.isNone || r.argument == some req.argument) = true
    · simp [h1, h2]
    · simp [h1, h2]
  · simp [h1]

theorem columns_iff {r : Rule} {svc arg : Str} :
    ((r.service.isNone || r.service == some svc) && (r.argument.isNone || r.argument == some arg)) = true ↔
      Columns r svc arg := by
  unfold Columns
  simp only [Bool.and_eq_true, Bool.or_eq_true, beq_iff_eq, Option.isNone_iff_eq_none]

theorem isMatchButTarget_withCall {r : Rule} {req : Request} {svc arg : Str}
    (h : Columns r svc arg ↔ Columns r req.service req.argument) :
    r.isMatchButTarget (withCall req svc arg) = r.isMatchButTarget req := by
  rw [isMatchButTarget_columns, isMatchButTarget_columns]
  rw [← columns_iff, ← columns_iff] at h
  show (if ((r.service.isNone || r.service == some svc) && (r.argument.isNone || r.argument == some arg)) = true then _ else _) = _
  by_cases hc : ((r.service.isNone || r.service == some svc) && (r.argument.isNone || r.argument == some arg)) = true
  · rw [if_pos hc, if_pos (h.1 hc)]; rfl
  · rw [if_neg hc, if_neg (fun x => hc (h.2 x))]

theorem isMatch_withCall {r : Rule} {req : Request} {svc arg : Str}
    (h : Columns r svc arg ↔ Columns r req.service req.argument) :
    r.isMatch (withCall req svc arg) = r.isMatch req := by
  unfold Rule.isMatch
  rw [isMatchButTarget_withCall h]
  rfl

theorem findMatchingRule_withCall {rules : List Rule} {req : Request} {svc arg : Str}
    (h : ∀ r ∈ rules, Columns r svc arg ↔ Columns r req.service req.argument) :
    findMatchingRule (withCall req svc arg) rules = findMatchingRule req rules := by
  induction rules with
  | nil => rfl
  | cons x xs ih =>
    simp only [findMatchingRule]
    rw [isMatch_withCall (h x (by simp)), ih (fun r hr => h r (by simp [hr]))]

theorem collectLoop_withCall {rules : List Rule} {req : Request} {svc arg : Str}
    (h : ∀ r ∈ rules, Columns r svc arg ↔ Columns r req.service req.argument) (acc : List Str) :
    collectLoop (withCall req svc arg) rules acc = collectLoop req rules acc := by
  induction rules generalizing acc with
  | nil => rfl
  | cons x xs ih =>
    simp only [collectLoop]
    rw [isMatchButTarget_withCall (h x (by simp))]
    have hi : (withCall req svc arg).info = req.info := rfl
    simp only [hi, ih (fun r hr => h r (by simp [hr]))]

theorem collectTargets_withCall {rules : List Rule} {req : Request} {svc arg : Str}
    (h : ∀ r ∈ rules, Columns r svc arg ↔ Columns r req.service req.argument) :
    collectTargets rules (withCall req svc arg) = collectTargets rules req := by
  unfold collectTargets
  rw [collectLoop_withCall (fun r hr => h r (by simpa using hr))]
  rfl

theorem findMatchingRule_mem {rules : List Rule} {req : Request} {r : Rule}
    (h : findMatchingRule req rules = .ok r) : r ∈ rules := by
  induction rules with
  | nil => simp [findMatchingRule] at h
  | cons x xs ih =>
    simp only [findMatchingRule] at h
    split at h
    · simp at h
    · cases h; simp
    · simp [ih h]

theorem evalAllow_withCall {r : Rule} {t : Option Token} {u : Option Str} {n a : Bool} {req : Request} {svc arg : Str}
    (h : Columns r svc arg ↔ Columns r req.service req.argument) :
    evalAllow r t u n a (withCall req svc arg) =
      (evalAllow r t u n a req).map fun x => { x with request := withCall x.request svc arg } := by
  unfold evalAllow
  rw [isMatch_withCall h]
  have h1 : (withCall req svc arg).info = req.info := rfl
  have h2 : (withCall req svc arg).target = req.target := rfl
  have h3 : ∀ tk, resolveKeyword (withCall req svc arg) tk = resolveKeyword req tk := fun _ => rfl
  simp only [h1, h2, h3]
  cases r.isMatch req with
  | error e => rfl
  | ok b =>
    simp only [ok_bind]
    cases require b .assertion with
    | error e => rfl
    | ok _ =>
      simp only [ok_bind]
      cases actualTarget t req.target with
      | error e => rfl
      | ok t1 =>
        simp only [ok_bind]
        cases t1.verify req.info with
        | error e => rfl
        | ok t2 =>
          simp only [ok_bind]
          cases require (t2.str != c!"@default") (.accessDenied true) with
          | error e => rfl
          | ok _ =>
            simp only [ok_bind]
            cases resolveKeyword req t2 with
            | error e => rfl
            | ok t3 =>
              simp only [ok_bind]
              cases checkAutostart req.info t3 a n with
              | error e => rfl
              | ok _ => rfl

theorem evalAsk_withCall {rules : List Rule} {r : Rule} {t d : Option Token} {u : Option Str} {a : Bool} {req : Request}
    {svc arg : Str} (hr : r ∈ rules) (h : ∀ r ∈ rules, Columns r svc arg ↔ Columns r req.service req.argument) :
    evalAsk rules r t d u a (withCall req svc arg) =
      (evalAsk rules r t d u a req).map fun x => { x with request := withCall x.request svc arg } := by
  unfold evalAsk
  rw [isMatch_withCall (h r hr)]
  have h1 : (withCall req svc arg).info = req.info := rfl
  have h2 : askTargets rules t (withCall req svc arg) = askTargets rules t req := by
    unfold askTargets
    rw [collectTargets_withCall h]
  have h3 : ∀ d, askDefault (withCall req svc arg) d = askDefault req d := fun _ => rfl
  simp only [h1, h2, h3]
  cases r.isMatch req with
  | error e => rfl
  | ok b =>
    simp only [ok_bind]
    cases require b .assertion with
    | error e => rfl
    | ok _ =>
      simp only [ok_bind]
      cases askTargets rules t req with
      | error e => rfl
      | ok t1 =>
        simp only [ok_bind]
        cases autostartFilter req.info a t1 with
        | error e => rfl
        | ok t2 =>
          simp only [ok_bind]
          cases require (!t2.isEmpty) (.accessDenied true) with
          | error e => rfl
          | ok _ =>
            simp only [ok_bind]
            cases askDefault req d with
            | error e => rfl
            | ok t3 => rfl

/-- Two requests to which the same rules apply have the same outcome. -/
theorem evaluate_withCall {rules : List Rule} {req : Request} {svc arg : Str}
    (h : ∀ r ∈ rules, Columns r svc arg ↔ Columns r req.service req.argument) :
    evaluate rules (withCall req svc arg) = (evaluate rules req).map fun x => x.withCall svc arg := by
  unfold evaluate
  rw [findMatchingRule_withCall h]
  cases hf : findMatchingRule req rules with
  | error e => rfl
  | ok r =>
    have hr := findMatchingRule_mem hf
    simp only [ok_bind]
    unfold evalAction
    split
    · rfl
    · rw [evalAllow_withCall (h r hr)]
      cases evalAllow r _ _ _ _ req <;> rfl
    · rw [evalAsk_withCall hr h]
      cases evalAsk rules r _ _ _ _ req <;> rfl

theorem mkRequest_withCall {svc arg svc' arg' src tgt : Str} {info : Info} {req : Request}
    (h : mkRequest svc arg src tgt info = .ok req) (ha : startsWith c!"+" arg' = true) :
    mkRequest svc' arg' src tgt info = .ok (withCall req svc' arg') := by
  unfold mkRequest at h ⊢
  simp only [bind_eq_ok, require_eq_ok, exists_const] at h
  obtain ⟨_, tok, htok, tok2, hv, h⟩ := h
  rw [ha]
  simp only [require, if_true, ok_bind, htok, hv]
  unfold applyRequestedSource at h ⊢
  simp only [List.isEmpty_nil, if_true, Except.ok.injEq] at h ⊢
  rw [← h]
  rfl

theorem callResult_withCall {rules : List Rule} {info : Info} {svc arg svc' arg' src tgt : Str} {res : Resolution}
    (h : CallResult rules info svc arg src tgt res) (ha : startsWith c!"+" arg' = true)
    (hc : ∀ r ∈ rules, Columns r svc' arg' ↔ Columns r svc arg) :
    CallResult rules info svc' arg' src tgt (res.withCall svc' arg') := by
  obtain ⟨req, h1, h2⟩ := h
  obtain ⟨e1, e2, _⟩ := mkRequest_ok h1
  refine ⟨_, mkRequest_withCall h1 ha, ?_⟩
  rw [evaluate_withCall (by rw [e1, e2]; exact hc), h2]
  rfl

/-- Two calls to which the same rules apply have the same outcome (see `callResult_withCall`). -/
theorem callResult_congr {rules : List Rule} {info : Info} {svc arg svc' arg' src tgt : Str}
    (ha : startsWith c!"+" arg = true) (ha' : startsWith c!"+" arg' = true)
    (hc : ∀ r ∈ rules, Columns r svc' arg' ↔ Columns r svc arg) (res : Resolution) :
    (∃ res', CallResult rules info svc arg src tgt res' ∧ res = res'.withCall svc' arg') ↔
      CallResult rules info svc' arg' src tgt res := by
  constructor
  · rintro ⟨res', h, rfl⟩
    exact callResult_withCall h ha' hc
  · intro h
    refine ⟨_, callResult_withCall h ha (fun r hr => (hc r hr).symm), ?_⟩
    obtain ⟨req, h1, h2⟩ := h
    obtain ⟨e1, e2, _⟩ := mkRequest_ok h1
    -- the request of a resolution is the evaluated one
    have hreq : res.parts.2.1 = req := by
      unfold evaluate at h2
      obtain ⟨r, _, h2⟩ := bind_eq_ok.1 h2
      unfold evalAction at h2
      split at h2
      · simp at h2
      · obtain ⟨x, hx, rfl⟩ := map_eq_ok.1 h2
        unfold evalAllow at hx
        simp only [bind_eq_ok, pure_ok, Except.ok.injEq] at hx
        obtain ⟨_, _, _, _, _, _, _, _, _, _, _, _, _, _, rfl⟩ := hx
        rfl
      · obtain ⟨x, hx, rfl⟩ := map_eq_ok.1 h2
        obtain ⟨_, _, _, _, _, _, _, _, rfl⟩ := evalAsk_ok hx
        rfl
    cases res with
    | allow x =>
      have : x.request = req := hreq
      show Resolution.allow x = Resolution.allow _
      congr 1
      show x = { x with request := withCall (withCall x.request _ _) _ _ }
      rw [this]
      have : withCall (withCall req svc arg) svc' arg' = req := by
        show ({ req with service := svc', argument := arg' } : Request) = req
        rw [← e1, ← e2]
      rw [this, ← hreq]
      rfl
    | ask x =>
      have : x.request = req := hreq
      show Resolution.ask x = Resolution.ask _
      congr 1
      show x = { x with request := withCall (withCall x.request _ _) _ _ }
      rw [this]
      have : withCall (withCall req svc arg) svc' arg' = req := by
        show ({ req with service := svc', argument := arg' } : Request) = req
        rw [← e1, ← e2]
      rw [this, ← hreq]
      rfl

/-! ## Columns of rules that came from the parser -/

theorem isRule_columns {r : Rule} (h : IsRule r) :
    (r.service = none → r.argument = none) ∧ (∀ s, r.service = some s → ' ' ∉ s) ∧
    (∀ a, r.argument = some a → startsWith c!"+" a = true) := by
  obtain ⟨_, _, _, _, _, _, _, h⟩ := h
  obtain ⟨sa, act, h, _, _, _, _, hs, ha, _⟩ := mkRule_ok h
  unfold validateServiceAndArgument at h
  simp only [bind_eq_ok, require_eq_ok, exists_const, pure_ok, Except.ok.injEq] at h
  obtain ⟨h1, h2, h3, h4, rfl⟩ := h
  rw [hs, ha]
  refine ⟨?_, ?_, ?_⟩
  · intro e
    simp only at e
    rw [e] at h4
    simpa using h4
  · intro s e hsp
    simp only at e
    rw [e] at h1
    simp only [validService, List.all_eq_true] at h1
    exact absurd (h1 _ hsp) (by decide)
  · intro a e
    simp only at e
    rw [e] at h3
    exact h3

theorem startsWith_plus {a : Str} : startsWith c!"+" a = true ↔ ∃ t, a = c!"+" ++ t := startsWith_iff

theorem graphEntry_spec {x : Str} {e : Option Str × Option Str} : graphEntry x = e ↔
    ('+' ∉ x ∧ e = (some x, none)) ∨
    ∃ s a, x = s ++ c!"+" ++ a ∧ '+' ∉ s ∧ e = (some s, some (c!"+" ++ a)) := by
  unfold graphEntry
  cases h : splitOnce '+' x with
  | none =>
    have hn : '+' ∉ x := by
      intro hx
      obtain ⟨s, t, rfl⟩ := List.append_of_mem hx
      obtain ⟨s', t', e', hs'⟩ : ∃ s' t', s ++ '+' :: t = s' ++ '+' :: t' ∧ '+' ∉ s' := by
        clear h hx
        induction s with
        | nil => exact ⟨[], t, rfl, by simp⟩
        | cons c cs ih =>
          by_cases hc : c = '+'
          · exact ⟨[], cs ++ '+' :: t, by simp [hc], by simp⟩
          · obtain ⟨s', t', e, hs⟩ := ih
            exact ⟨c :: s', t', by simp [e], by simp [hs, Ne.symm hc]⟩
      have := (splitOnce_eq_some (sep := '+') (s := s ++ '+' :: t)).2 ⟨e', hs'⟩
      rw [this] at h
      cases h
    simp only
    constructor
    · rintro rfl
      exact Or.inl ⟨hn, rfl⟩
    · rintro (⟨_, rfl⟩ | ⟨s, a, rfl, _⟩)
      · rfl
      · simp at hn
  | some p =>
    obtain ⟨s, a⟩ := p
    obtain ⟨e, hs⟩ := splitOnce_eq_some.1 h
    simp only
    constructor
    · rintro rfl
      exact Or.inr ⟨s, a, by simpa using e, hs, rfl⟩
    · rintro (⟨hn, _⟩ | ⟨s', a', e', hs', rfl⟩)
      · rw [e] at hn
        simp at hn
      · have := (splitOnce_eq_some (sep := '+') (s := x)).2 ⟨by simpa using e', hs'⟩
        rw [h] at this
        cases this
        rfl

/-! ## Lists -/

theorem mem_addAll {α : Type} [BEq α] [LawfulBEq α] {l s : List α} {x : α} :
    x ∈ addAll s l ↔ x ∈ s ∨ x ∈ l := by
  induction l generalizing s with
  | nil => simp [addAll]
  | cons y ys ih =>
    rw [addAll, ih]
    by_cases h : y ∈ s
    · rw [if_pos (by simpa using h)]
      simp only [List.mem_cons]
      constructor
      · tauto
      · rintro (h1 | rfl | h1)
        · exact Or.inl h1
        · exact Or.inl h
        · exact Or.inr h1
    · rw [if_neg (by simpa using h)]
      simp only [List.mem_append, List.mem_cons, List.not_mem_nil, or_false]
      tauto

theorem addAll_nodup {α : Type} [BEq α] [LawfulBEq α] {l s : List α} (h : s.Nodup) : (addAll s l).Nodup := by
  induction l generalizing s with
  | nil => exact h
  | cons y ys ih =>
    rw [addAll]
    apply ih
    split_ifs with hc
    · exact h
    · rw [List.nodup_append]
      refine ⟨h, by simp, ?_⟩
      intro a ha b hb
      simp only [List.mem_singleton] at hb
      rintro rfl
      rw [hb] at ha
      exact hc (by simpa using ha)

theorem mem_concatMapE {α β : Type} {f : α → Except Err (List β)} {l : List α} {out : List β}
    (h : concatMapE f l = .ok out) (y : β) : y ∈ out ↔ ∃ x ∈ l, ∃ ys, f x = .ok ys ∧ y ∈ ys := by
  induction l generalizing out with
  | nil =>
    cases h
    simp
  | cons x xs ih =>
    simp only [concatMapE, bind_eq_ok, pure_ok, Except.ok.injEq] at h
    obtain ⟨a, ha, b, hb, rfl⟩ := h
    simp only [List.mem_append, ih hb, List.mem_cons, exists_eq_or_imp, ha, Except.ok.injEq, exists_eq_left']

theorem concatMapE_each {α β : Type} {f : α → Except Err (List β)} {l : List α} {out : List β}
    (h : concatMapE f l = .ok out) : ∀ x ∈ l, ∃ ys, f x = .ok ys := by
  induction l generalizing out with
  | nil => simp
  | cons x xs ih =>
    simp only [concatMapE, bind_eq_ok, pure_ok, Except.ok.injEq] at h
    obtain ⟨a, ha, b, hb, rfl⟩ := h
    intro z hz
    rcases List.mem_cons.1 hz with rfl | hz
    · exact ⟨a, ha⟩
    · exact ih hb z hz

end Qrexec
