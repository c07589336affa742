import Verif.Lemmas.Match
import Verif.Lemmas.Exc

namespace Qrexec
open Spec

/-- Matching the source column never raises. -/
theorem matches_source_total (info : Info) (t : Token) (s : Str) :
    ∃ b, t.matches info none (.name s) = .ok b := by
  cases t <;> simp only [Token.matches, templateMatches, requestedTemplate, templateHasTag] <;>
    first | exact ⟨_, rfl⟩ | (split_ifs <;> exact ⟨_, rfl⟩)

theorem getDispvmTemplate_of {info : Info} {src t : Str} (h : DefaultDispvm info src t)
    (h1 : t ≠ []) (h2 : t.head? ≠ some '@') :
    getDispvmTemplate info src = .ok (some (.dispvmTemplate t)) := by
  obtain ⟨d, hd, ht⟩ := h
  simp [getDispvmTemplate, hd, ht, mkDispvmTemplate_of h1 h2]

/-- Matching the target column does not raise for a ready request. -/
theorem matches_target_total {req : Request} (hd : DispvmReady req) (ht : TargetExists req)
    (t : Token) : ∃ b, t.matches req.info (some req.source) req.target = .ok b := by
  cases t with
  | dispvmTemplate v =>
    simp only [Token.matches, templateMatches]
    cases ho : req.target with
    | dispvm =>
      obtain ⟨w, d, hw, h1, h2, _⟩ := hd ho
      simp [getDispvmTemplate_of hw h1 h2]
    | _ => simp
  | dispvmTag v =>
    simp only [Token.matches]
    cases ho : req.target with
    | dispvm =>
      obtain ⟨w, d, hw, h1, h2, h3⟩ := hd ho
      simp [requestedTemplate, getDispvmTemplate_of hw h1 h2, templateHasTag, h3]
    | dispvmTemplate w =>
      obtain ⟨d, h3, _⟩ := ht w ho
      simp [requestedTemplate, templateHasTag, h3]
    | _ => simp [requestedTemplate, templateHasTag]
  | name s => simp only [Token.matches]; split_ifs <;> exact ⟨_, rfl⟩
  | _ => simp only [Token.matches]; exact ⟨_, rfl⟩

theorem isMatchButTarget_ok_iff {r : Rule} {req : Request} (hn : OrdinaryNames req.info) {b : Bool}
    (h : r.isMatchButTarget req = .ok b) : b = true ↔ AppliesTo r req := by
  unfold Rule.isMatchButTarget at h
  unfold AppliesTo
  split_ifs at h with h1 h2
  · cases h
    simp only [Bool.not_eq_true', Bool.or_eq_false_iff, Option.isNone_eq_false_iff, beq_eq_false_iff_ne] at h1
    simp only [Bool.false_eq_true, false_iff, not_and]
    rintro (h | h)
    · rw [h] at h1; simp at h1
    · exact absurd h h1.2
  · cases h
    simp only [Bool.not_eq_true', Bool.or_eq_false_iff, Option.isNone_eq_false_iff, beq_eq_false_iff_ne] at h2
    simp only [Bool.false_eq_true, false_iff, not_and]
    rintro _ (h | h)
    · rw [h] at h2; simp at h2
    · exact absurd h h2.2
  · have := matches_ok_iff (src := req.source) hn (Or.inr ⟨rfl, by simp⟩) h
    rw [this]
    simp at h1 h2
    have h1' : r.service = none ∨ r.service = some req.service := by
      cases hs : r.service with
      | none => exact Or.inl rfl
      | some s => exact Or.inr (by rw [← hs]; exact h1 (by simp [hs]))
    have h2' : r.argument = none ∨ r.argument = some req.argument := by
      cases hs : r.argument with
      | none => exact Or.inl rfl
      | some s => exact Or.inr (by rw [← hs]; exact h2 (by simp [hs]))
    tauto

theorem isMatchButTarget_total (r : Rule) (req : Request) :
    ∃ b, r.isMatchButTarget req = .ok b := by
  unfold Rule.isMatchButTarget
  split_ifs
  · exact ⟨_, rfl⟩
  · exact ⟨_, rfl⟩
  · exact matches_source_total _ _ _

theorem isMatchButTarget_true_iff {r : Rule} {req : Request} (hn : OrdinaryNames req.info) :
    r.isMatchButTarget req = .ok true ↔ AppliesTo r req := by
  obtain ⟨b, hb⟩ := isMatchButTarget_total r req
  rw [← isMatchButTarget_ok_iff hn hb, hb]; simp

theorem isMatchButTarget_false_iff {r : Rule} {req : Request} (hn : OrdinaryNames req.info) :
    r.isMatchButTarget req = .ok false ↔ ¬ AppliesTo r req := by
  obtain ⟨b, hb⟩ := isMatchButTarget_total r req
  rw [← isMatchButTarget_ok_iff hn hb, hb]; simp

theorem isMatch_ok_iff {r : Rule} {req : Request} (hn : OrdinaryNames req.info) {b : Bool}
    (h : r.isMatch req = .ok b) : b = true ↔ RuleMatches r req := by
  unfold Rule.isMatch at h
  unfold RuleMatches
  obtain ⟨c, hc⟩ := isMatchButTarget_total r req
  rw [hc] at h
  have h1 := isMatchButTarget_ok_iff hn hc
  cases c with
  | false => simp at h; subst h; simp at h1; simp [h1]
  | true =>
    simp only at h
    rw [matches_ok_iff hn (Or.inl rfl) h]
    simp at h1
    simp [h1]

theorem isMatch_total {req : Request} (hd : DispvmReady req) (ht : TargetExists req)
    (r : Rule) : ∃ b, r.isMatch req = .ok b := by
  unfold Rule.isMatch
  obtain ⟨c, hc⟩ := isMatchButTarget_total r req
  rw [hc]
  cases c with
  | false => exact ⟨_, rfl⟩
  | true => exact matches_target_total hd ht _

theorem isMatch_true_iff {r : Rule} {req : Request} (hn : OrdinaryNames req.info)
    (hd : DispvmReady req) (ht : TargetExists req) :
    r.isMatch req = .ok true ↔ RuleMatches r req := by
  obtain ⟨b, hb⟩ := isMatch_total hd ht r
  rw [← isMatch_ok_iff hn hb, hb]; simp

theorem isMatch_false_iff {r : Rule} {req : Request} (hn : OrdinaryNames req.info)
    (hd : DispvmReady req) (ht : TargetExists req) :
    r.isMatch req = .ok false ↔ ¬ RuleMatches r req := by
  obtain ⟨b, hb⟩ := isMatch_total hd ht r
  rw [← isMatch_ok_iff hn hb, hb]; simp

/-- Whatever `findMatchingRule` returns is the first match (no readiness needed). -/
theorem findMatchingRule_ok {rules : List Rule} {req : Request} {r : Rule}
    (hn : OrdinaryNames req.info)
    (h : findMatchingRule req rules = .ok r) : ∃ pre post, FirstMatch rules pre r post req ∧
      r.isMatch req = .ok true := by
  induction rules with
  | nil => simp [findMatchingRule] at h
  | cons x xs ih =>
    unfold findMatchingRule at h
    split at h
    · simp at h
    · rename_i hx
      cases h
      exact ⟨[], xs, ⟨rfl, by simp, (isMatch_ok_iff hn hx).1 rfl⟩, hx⟩
    · rename_i hx
      obtain ⟨pre, post, ⟨hs, hb, hh⟩, hm⟩ := ih h
      refine ⟨x :: pre, post, ⟨by simp [hs], ?_, hh⟩, hm⟩
      intro y hy
      rcases List.mem_cons.1 hy with rfl | hy
      · intro hc
        have := (isMatch_ok_iff hn hx).2 hc
        simp at this
      · exact hb y hy

theorem findMatchingRule_of {rules pre post : List Rule} {req : Request} {r : Rule}
    (hn : OrdinaryNames req.info) (hd : DispvmReady req) (ht : TargetExists req)
    (h : FirstMatch rules pre r post req) : findMatchingRule req rules = .ok r := by
  obtain ⟨rfl, hb, hh⟩ := h
  induction pre with
  | nil => simp [findMatchingRule, (isMatch_true_iff hn hd ht).2 hh]
  | cons x xs ih =>
    simp only [List.cons_append, findMatchingRule]
    rw [(isMatch_false_iff hn hd ht).2 (hb x (by simp))]
    exact ih (fun y hy => hb y (by simp [hy]))

theorem findMatchingRule_none {rules : List Rule} {req : Request}
    (hn : OrdinaryNames req.info) (hd : DispvmReady req) (ht : TargetExists req)
    (h : ∀ r ∈ rules, ¬ RuleMatches r req) :
    findMatchingRule req rules = .error (.accessDenied true) := by
  induction rules with
  | nil => rfl
  | cons x xs ih =>
    simp only [findMatchingRule]
    rw [(isMatch_false_iff hn hd ht).2 (h x (by simp))]
    exact ih (fun y hy => h y (by simp [hy]))

/-- Every request that passes construction has an existing target (if `@dispvm:T`). -/
theorem mkRequest_ok {service argument source target : Str} {info : Info} {rs : Str}
    {req : Request} (h : mkRequest service argument source target info rs = .ok req) :
    req.service = service ∧ req.argument = argument ∧ req.info = info ∧
    startsWith c!"+" argument = true ∧ req.requestedSource = rs ∧
    (∃ tok, parseToken .intended (if target.isEmpty then c!"@default" else target) = .ok tok ∧
      tok.verify info = .ok req.target) ∧
    ((rs = [] ∧ req.source = source ∧ req.relayvm = none) ∨
     (rs ≠ [] ∧ req.source = rs ∧ req.relayvm = some source ∧
       ∃ d, info.get? rs = some d ∧ d.cls = c!"RemoteVM" ∧ d.relayvm = some source)) := by
  unfold mkRequest at h
  simp only [bind_eq_ok, require_eq_ok, exists_const] at h
  obtain ⟨h1, tok, htok, tok2, hv, h⟩ := h
  unfold applyRequestedSource at h
  simp only at h
  split_ifs at h with hr
  · cases h
    refine ⟨rfl, rfl, rfl, h1, rfl, ⟨tok, htok, hv⟩, Or.inl ⟨by simpa using hr, rfl, rfl⟩⟩
  · split at h
    · simp at h
    · rename_i d hd
      split_ifs at h with h2 h3
      cases h
      refine ⟨rfl, rfl, rfl, h1, rfl, ⟨tok, htok, hv⟩, Or.inr ⟨by simpa using hr, rfl, rfl,
        d, hd, by simpa using h2, by simpa using h3⟩⟩

theorem verify_targetExists {info : Info} {tok tok' : Token} {w : Str}
    (h : tok.verify info = .ok tok') (hw : tok' = .dispvmTemplate w) :
    ∃ d, info.get? w = some d ∧ d.templateForDispvms = true := by
  subst hw
  unfold Token.verify at h
  split at h
  · split_ifs at h <;> simp at h
  · split at h
    · simp at h
    · rename_i d hd
      split_ifs at h with h1
      simp at h
      subst h
      exact ⟨d, hd, h1⟩
  · rename_i h2
    simp at h
    exact absurd h (h2 w)

theorem mkRequest_targetExists {service argument source target : Str} {info : Info} {rs : Str}
    {req : Request} (h : mkRequest service argument source target info rs = .ok req) :
    TargetExists req := by
  obtain ⟨_, _, hi, _, _, ⟨tok, _, hv⟩, _⟩ := mkRequest_ok h
  intro w hw
  rw [hi]
  exact verify_targetExists hv hw

theorem evalAsk_ok {rules : List Rule} {r : Rule} {t d : Option Token} {u : Option Str} {a : Bool}
    {req : Request} {res : AskRes} (h : evalAsk rules r t d u a req = .ok res) :
    r.isMatch req = .ok true ∧ ∃ ts0 ts dt, askTargets rules t req = .ok ts0 ∧
      autostartFilter req.info a ts0 = .ok ts ∧ ts ≠ [] ∧ askDefault req d = .ok dt ∧
      res = { rule := r, request := req, user := u, targetsForAsk := ts,
              defaultTarget := dt.filter (fun t => ts.contains t), autostart := a } := by
  unfold evalAsk at h
  simp only [bind_eq_ok, pure_ok, Except.ok.injEq, require_eq_ok, exists_const] at h
  obtain ⟨b, hm, hb, ts0, h1, ts, h2, h3, dt, h4, rfl⟩ := h
  subst hb
  exact ⟨hm, ts0, ts, dt, h1, h2, by simpa using h3, h4, rfl⟩

end Qrexec
