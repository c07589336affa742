import Verif.Lemmas.Allow
import Verif.Props.MatchDisp

/-!
# C01, C02, C03, C05, C12: which rule decides, and what it decides
-/
namespace Qrexec
open Spec

/-! ## C01 -/

/-- The rule that a resolution comes from. -/
def Resolution.rule : Resolution → Rule
  | .allow r => r.rule
  | .ask r => r.rule

theorem evalAction_rule {rules : List Rule} {r : Rule} {req : Request} {res : Resolution}
    (h : evalAction rules r req = .ok res) : res.rule = r := by
  unfold evalAction at h
  split at h
  · simp at h
  · obtain ⟨a, ha, rfl⟩ := map_eq_ok.1 h
    unfold evalAllow at ha
    simp only [bind_eq_ok, pure_ok, Except.ok.injEq] at ha
    obtain ⟨_, _, _, _, _, _, _, _, _, _, _, _, _, _, rfl⟩ := ha
    rfl
  · obtain ⟨a, ha, rfl⟩ := map_eq_ok.1 h
    obtain ⟨_, _, _, _, _, _, _, _, rfl⟩ := evalAsk_ok ha
    rfl

/-- **C01.** Whatever policy and request: if evaluation yields a resolution (allow or ask), it
is the one of the first rule all of whose columns match the request. -/
theorem C01_resolution_is_of_first_match (rules : List Rule) (req : Request)
    (hn : OrdinaryNames req.info) (res : Resolution) (h : evaluate rules req = .ok res) :
    ∃ pre post, FirstMatch rules pre res.rule post req := by
  unfold evaluate at h
  simp only [bind_eq_ok] at h
  obtain ⟨r, h1, h2⟩ := h
  rw [evalAction_rule h2]
  obtain ⟨pre, post, hf, _⟩ := findMatchingRule_ok hn h1
  exact ⟨pre, post, hf⟩

/-- **C01.** For an allow or deny rule nothing but the rule matters: the outcome is the outcome
of the policy that consists of that rule only, whatever precedes and follows it. -/
theorem C01_first_match_decides (rules pre post : List Rule) (r : Rule) (req : Request)
    (hn : OrdinaryNames req.info) (hd : DispvmReady req) (ht : TargetExists req)
    (hf : FirstMatch rules pre r post req)
    (ha : ∀ t d u n a, r.action ≠ .ask t d u n a) :
    evaluate rules req = evaluate [r] req := by
  have h1 := findMatchingRule_of hn hd ht hf
  have h2 := findMatchingRule_of hn hd ht
    (⟨rfl, by simp, hf.here⟩ : FirstMatch [r] [] r [] req)
  unfold evaluate
  rw [h1, h2]
  simp only [ok_bind]
  unfold evalAction
  split <;> first | rfl | exact absurd ‹_› (ha _ _ _ _ _)

/-- **C01.** For an ask rule: it is this rule that is asked about (never an allow), or the
request fails; rules of the policy can only influence which targets are offered (see C15). -/
theorem C01_first_match_ask (rules pre post : List Rule) (r : Rule) (req : Request)
    (hn : OrdinaryNames req.info) (hd : DispvmReady req) (ht : TargetExists req)
    (hf : FirstMatch rules pre r post req) (t d : Option Token) (u : Option Str) (n a : Bool)
    (ha : r.action = .ask t d u n a) :
    (∃ e, evaluate rules req = .error e) ∨
    ∃ res : AskRes, evaluate rules req = .ok (.ask res) ∧ res.rule = r ∧ res.user = u ∧
      res.autostart = a ∧ res.request = req := by
  have h1 := findMatchingRule_of hn hd ht hf
  unfold evaluate
  rw [h1]
  simp only [ok_bind, evalAction, ha]
  cases h : evalAsk rules r t d u a req with
  | error e => exact Or.inl ⟨e, rfl⟩
  | ok res =>
    refine Or.inr ⟨res, rfl, ?_⟩
    obtain ⟨_, _, _, _, _, _, _, _, rfl⟩ := evalAsk_ok h
    exact ⟨rfl, rfl, rfl, rfl⟩

/-- Two example rules. -/
def exDeny : Rule :=
  { service := some c!"svc", argument := none, source := .name c!"vault", target := .anyvm,
    action := .deny true }
def exAllow : Rule :=
  { service := some c!"svc", argument := none, source := .anyvm, target := .anyvm,
    action := .allow none none false true }

theorem exFirst : FirstMatch [exDeny, exAllow, exDeny] [exDeny] exAllow [exDeny]
    (exReq c!"work" (.name c!"vault")) := by
  have hd : DispvmReady (exReq c!"work" (.name c!"vault")) := fun h => by cases h
  have ht : TargetExists (exReq c!"work" (.name c!"vault")) := fun w h => by cases h
  refine ⟨rfl, ?_, (isMatch_true_iff exInfo_ordinary hd ht).1 (by decide)⟩
  intro x hx
  rw [List.mem_singleton] at hx
  subst hx
  exact (isMatch_false_iff exInfo_ordinary hd ht).1 (by decide)

example : DispvmReady (exReq c!"work" (.name c!"vault")) ∧
    TargetExists (exReq c!"work" (.name c!"vault")) ∧
    OrdinaryNames (exReq c!"work" (.name c!"vault")).info :=
  ⟨fun h => by simp [exReq] at h, fun w h => by simp [exReq] at h, exInfo_ordinary⟩

/-! ## C02, C03 -/

/-- **C02.** If no rule matches, evaluation refuses, with the notification on. -/
theorem C02_default_deny (rules : List Rule) (req : Request)
    (hn : OrdinaryNames req.info) (hd : DispvmReady req) (ht : TargetExists req)
    (h : ∀ r ∈ rules, ¬ RuleMatches r req) :
    evaluate rules req = .error (.accessDenied true) := by
  unfold evaluate
  rw [findMatchingRule_none hn hd ht h]
  rfl

/-- **C02.** Without any hypothesis on state or request: if no rule matches, there is no
resolution, hence nothing to allow or to ask about. -/
theorem C02_no_match_no_resolution (rules : List Rule) (req : Request)
    (hn : OrdinaryNames req.info) (h : ∀ r ∈ rules, ¬ RuleMatches r req) :
    ∀ res, evaluate rules req ≠ .ok res := by
  intro res he
  obtain ⟨pre, post, hs, _, hh⟩ := C01_resolution_is_of_first_match rules req hn res he
  exact h res.rule (by rw [hs]; simp) hh

/-- **C03.** When the first matching rule is a deny, evaluation raises `AccessDenied` with the
notification flag of the rule, whatever the other rules and the system state are. -/
theorem C03_deny_is_final (rules pre post : List Rule) (r : Rule) (req : Request)
    (hn : OrdinaryNames req.info) (hd : DispvmReady req) (ht : TargetExists req)
    (hf : FirstMatch rules pre r post req) (notify : Bool) (ha : r.action = .deny notify) :
    evaluate rules req = .error (.accessDenied notify) := by
  unfold evaluate
  rw [findMatchingRule_of hn hd ht hf]
  simp [evalAction, ha]

example : evaluate [exDeny, exAllow] (exReq c!"vault" (.name c!"work")) =
    .error (.accessDenied true) := by decide

/-! ## C05, C13 (allow) -/

/-- **C05, C13.** An allow rule resolves to `out` exactly when `out` is the redirect (or
requested) target after resolving the keywords, it exists, and with `autostart=no` nothing has
to be started; the resolution carries the rule's user and autostart flag. -/
theorem C05_allow_target (rules pre post : List Rule) (r : Rule) (req : Request)
    (hn : OrdinaryNames req.info) (hd : DispvmReady req) (hr : IsRule r) (hq : IsRequest req)
    (hf : FirstMatch rules pre r post req) (redirect : Option Token) (u : Option Str) (n a : Bool)
    (ha : r.action = .allow redirect u n a) (res : Resolution) :
    evaluate rules req = .ok res ↔
      ∃ out, AllowedTarget req redirect out ∧ (a = false → NoStartNeeded req.info out) ∧
        res = .allow { rule := r, request := req, user := u, target := out, autostart := a } := by
  have ht := isRequest_targetExists hq
  have hm := (isMatch_true_iff hn hd ht).2 hf.here
  unfold evaluate
  rw [findMatchingRule_of hn hd ht hf]
  simp only [ok_bind, evalAction, ha, map_eq_ok, evalAllow_iff hn hr hq ha hm]
  constructor
  · rintro ⟨_, ⟨out, rfl, h1, h2⟩, rfl⟩
    exact ⟨out, h1, h2, rfl⟩
  · rintro ⟨out, h1, h2, rfl⟩
    exact ⟨_, ⟨out, rfl, h1, h2⟩, rfl⟩

/-- **C05.** The resolved target is never one of the keywords `@default`, `@dispvm`,
`@adminvm`, and a plain target is an existing domain. -/
theorem C05_no_keyword_target (req : Request) (hn : OrdinaryNames req.info)
    (redirect : Option Token) (out : Str) (h : AllowedTarget req redirect out) :
    out ≠ c!"@default" ∧ out ≠ c!"@dispvm" ∧ out ≠ c!"@adminvm" ∧
    (out = c!"dom0" ∨ (∃ t, out = c!"@dispvm:" ++ t) ∨ ∃ d, req.info.get? out = some d) := by
  cases h with
  | adminvm => simp
  | dispvm => simp
  | template => simp
  | name _ h =>
    have := (hn _ _ h).2.1
    refine ⟨?_, ?_, ?_, Or.inr (Or.inr ⟨_, h⟩)⟩ <;> (rintro rfl; exact this rfl)

/-- **C05.** The target is unique. -/
theorem C05_target_unique (req : Request) (redirect : Option Token) (a b : Str)
    (h1 : AllowedTarget req redirect a) (h2 : AllowedTarget req redirect b) : a = b := by
  cases h1 <;> cases h2 <;> simp_all
  case dispvm.dispvm => exact defaultDispvm_unique ‹_› ‹_›

/-- **C05, C11.** If there is no such target, the allow rule refuses (`AccessDenied` or a
subclass); it raises nothing else. -/
theorem C05_otherwise_denied (rules pre post : List Rule) (r : Rule) (req : Request)
    (hn : OrdinaryNames req.info) (hd : DispvmReady req) (hr : IsRule r) (hq : IsRequest req)
    (hf : FirstMatch rules pre r post req) (redirect : Option Token) (u : Option Str) (n a : Bool)
    (ha : r.action = .allow redirect u n a) (e : Err) (h : evaluate rules req = .error e) :
    e.isAccessDenied = true := by
  have ht := isRequest_targetExists hq
  have hm := (isMatch_true_iff hn hd ht).2 hf.here
  unfold evaluate at h
  rw [findMatchingRule_of hn hd ht hf] at h
  simp only [ok_bind, evalAction, ha, map_eq_error] at h
  exact evalAllow_error hr hq ha hm h

example : IsRule exAllow ∧ IsRequest (exReq c!"work" (.name c!"vault")) := by
  refine ⟨⟨some c!"svc", some c!"*", c!"@anyvm", c!"@anyvm", c!"allow", [], [], by decide⟩,
    ⟨c!"work", c!"vault", by decide⟩⟩

example : ∃ res, evaluate [exDeny, exAllow, exDeny] (exReq c!"work" (.name c!"vault")) = .ok res :=
  ⟨_, (C05_allow_target _ _ _ _ _ exInfo_ordinary (fun h => by cases h)
    ⟨some c!"svc", some c!"*", c!"@anyvm", c!"@anyvm", c!"allow", [], [], by decide⟩
    ⟨c!"work", c!"vault", by decide⟩ exFirst none none false true rfl _).2
    ⟨c!"vault", .name (s := c!"vault") rfl rfl, by simp, rfl⟩⟩

/-! ## C12 -/

/-- **C12.** A request for a plain name that no domain has is the same request as one for
`@default`: the constructor returns equal requests, so every evaluation agrees. -/
theorem C12_missing_target_is_default (service argument source target rs : Str) (info : Info)
    (hp : PlainValue target) (hs : target ≠ c!"*") (hm : info.get? target = none) :
    mkRequest service argument source target info rs =
      mkRequest service argument source c!"@default" info rs := by
  unfold mkRequest
  have he : target.isEmpty = false := by
    cases target with
    | nil => exact absurd rfl hp.1
    | cons => rfl
  have h1 : parseToken .intended target = .ok (.name target) := parseToken_of (.name hp hs)
  have h2 : parseToken .intended c!"@default" = .ok .default := by decide
  simp [he, h1, h2, Token.verify, Info.has, hm]

/-- **C12.** An unspecified target is `@default` too. -/
theorem C12_empty_target_is_default (service argument source rs : Str) (info : Info) :
    mkRequest service argument source [] info rs =
      mkRequest service argument source c!"@default" info rs := by
  unfold mkRequest; simp

/-- **C12.** A request for `@dispvm:T` where `T` does not exist or is not a template for
disposables is refused, with the notification on. -/
theorem C12_bad_dispvm_template_denied (service argument source t rs : Str) (info : Info)
    (ha : startsWith c!"+" argument = true) (hp : PlainValue t)
    (h : ∀ d, info.get? t = some d → d.templateForDispvms = false) :
    mkRequest service argument source (c!"@dispvm:" ++ t) info rs = .error (.accessDenied true) := by
  unfold mkRequest
  have h1 : parseToken .intended (c!"@dispvm:" ++ t) = .ok (.dispvmTemplate t) :=
    parseToken_of (.dispvmTemplate hp)
  have h2 : Token.verify info (.dispvmTemplate t) = .error (.accessDenied true) := by
    unfold Token.verify
    cases hg : info.get? t with
    | none => simp [hg]
    | some d => simp [hg, h d hg]
  have h3 : (c!"@dispvm:" ++ t).isEmpty = false := rfl
  simp only [h3, Bool.false_eq_true, if_false, ha, require, if_true, h1, ok_bind, h2, error_bind]

example : mkRequest c!"svc" c!"+" c!"work" c!"nosuch" exInfo =
    .ok (exReq c!"work" .default) := by decide
example : mkRequest c!"svc" c!"+" c!"work" c!"@dispvm:vault" exInfo =
    .error (.accessDenied true) := by decide

end Qrexec
