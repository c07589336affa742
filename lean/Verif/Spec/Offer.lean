import Verif.Spec.Match

/-!
# Specification of a consistent system state and of what an ask rule offers
-/
namespace Qrexec.Spec
open Qrexec

/-- `k` is the name (not the UUID) of an existing domain with entry `d`. -/
def IsDomain (info : Info) (k : Str) (d : Dom) : Prop :=
  info.get? k = some d ∧ ¬ IsUuid k

/-- A consistent system state: a dictionary with ordinary keys, every domain has an entry under
its name and one under its UUID, UUIDs are unique, dom0 exists, default disposable templates
exist. -/
structure SystemInfo (info : Info) : Prop where
  keys : (info.map Prod.fst).Nodup
  ordinary : OrdinaryNames info
  name_of : ∀ k d, IsDomain info k d → d.name = k
  uuid_of : ∀ k d, info.get? k = some d → ∃ u, d.uuid = some u ∧
    info.get? (c!"uuid:" ++ u) = some d
  uuid_entry : ∀ u d, info.get? (c!"uuid:" ++ u) = some d →
    d.uuid = some u ∧ IsDomain info d.name d
  dom0 : ∃ d, info.get? c!"dom0" = some d ∧ d.uuid = some c!"00000000-0000-0000-0000-000000000000"
  default_exists : ∀ k d t, info.get? k = some d → d.defaultDispvm = some t →
    ∃ d', IsDomain info t d'

/-- The domain an offered target is about: `T` for `@dispvm:T`, else the target itself. -/
def baseOf (x : Str) : Str := if startsWith c!"@dispvm:" x then x.drop 8 else x

/-- What the target of a rule names, as the user may be offered it: a domain name,
`@dispvm:` and a domain name, or the keywords `@dispvm`, `@adminvm`. -/
def Names (info : Info) : Token → Str → Prop
  | .name s, x => ∃ d, info.get? s = some d ∧ x = d.name
  | .adminvm, x => x = c!"@adminvm"
  | .dispvm, x => x = c!"@dispvm"
  | .default, _ => False
  | .typeVM v, x => ∃ d, IsDomain info x d ∧ d.cls = v
  | .tagVM v, x => ∃ d, IsDomain info x d ∧ v ∈ d.tags
  | .wildcard, x => (∃ d, IsDomain info x d) ∨
      (∃ k d, IsDomain info k d ∧ d.templateForDispvms = true ∧ x = c!"@dispvm:" ++ k) ∨
      x = c!"@dispvm"
  | .anyvm, x => (∃ d, IsDomain info x d ∧ ¬ Dom0 x) ∨
      (∃ k d, IsDomain info k d ∧ d.templateForDispvms = true ∧ x = c!"@dispvm:" ++ k) ∨
      x = c!"@dispvm"
  | .dispvmTemplate v, x =>
      ∃ d, info.get? v = some d ∧ d.templateForDispvms = true ∧ x = c!"@dispvm:" ++ d.name
  | .dispvmTag v, x =>
      ∃ k d, IsDomain info k d ∧ d.templateForDispvms = true ∧ v ∈ d.tags ∧ x = c!"@dispvm:" ++ k

/-- The target a rule is about when a question is put together: the `target=` of an allow or
ask, else the target column. -/
def AboutTarget (r : Rule) (t : Token) : Prop :=
  (∃ u n a, r.action = .allow (some t) u n a) ∨ (∃ d u n a, r.action = .ask (some t) d u n a) ∨
  ((∀ t' u n a, r.action ≠ .allow (some t') u n a) ∧
   (∀ t' d u n a, r.action ≠ .ask (some t') d u n a) ∧ t = r.target)

/-- The rule applies to the service, argument and source of the request and names `x`. -/
def Speaks (req : Request) (x : Str) (r : Rule) : Prop :=
  AppliesTo r req ∧ ∃ t, AboutTarget r t ∧ Names req.info t x

/-- The first rule that speaks about `x` is not a deny. -/
def FirstSpeakerNotDeny (rules : List Rule) (req : Request) (x : Str) : Prop :=
  ∃ pre r post, rules = pre ++ r :: post ∧ (∀ y ∈ pre, ¬ Speaks req x y) ∧ Speaks req x r ∧
    ∀ n, r.action ≠ .deny n

end Qrexec.Spec
