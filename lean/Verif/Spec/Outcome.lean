import Verif.Spec.Match
import Verif.Spec.Grammar

/-!
# Specification of the outcome of an allow rule
-/
namespace Qrexec.Spec
open Qrexec

/-- The rule came out of the rule parser. -/
def IsRule (r : Rule) : Prop :=
  ∃ service argument source target action params filepath,
    mkRule service argument source target action params filepath = .ok r

/-- The request came out of the request constructor. -/
def IsRequest (req : Request) : Prop :=
  ∃ source target, mkRequest req.service req.argument source target req.info
    req.requestedSource = .ok req

/-- Where an allow rule with the given `target=` redirect sends the request: the redirect if
there is one, else the requested target; dom0 for `@adminvm`, the default disposable template
of the source for `@dispvm`; other targets must exist.  There is no target for `@default`. -/
inductive AllowedTarget (req : Request) (redirect : Option Token) : Str → Prop
  | adminvm : redirect.getD req.target = .adminvm → AllowedTarget req redirect c!"dom0"
  | dispvm {t} : redirect.getD req.target = .dispvm → DefaultDispvm req.info req.source t →
      t ≠ [] → t.head? ≠ some '@' → AllowedTarget req redirect (c!"@dispvm:" ++ t)
  | template {t d} : redirect.getD req.target = .dispvmTemplate t → req.info.get? t = some d →
      d.templateForDispvms = true → AllowedTarget req redirect (c!"@dispvm:" ++ t)
  | name {s d} : redirect.getD req.target = .name s → req.info.get? s = some d →
      AllowedTarget req redirect s

/-- No domain has to be started: dom0, or a running domain. -/
def NoStartNeeded (info : Info) (target : Str) : Prop :=
  Dom0 target ∨ ∃ d, info.get? target = some d ∧ d.powerState = c!"Running"

end Qrexec.Spec
