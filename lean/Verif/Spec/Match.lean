import Verif.Model.Policy

/-!
# Specification of the policy columns

Written from the policy format documentation (doc/qrexec-policy.rst), not from the
matching functions of the model.  Only the data types (`Token`, `Rule`, `Request`, `Info`)
and dictionary access `Info.get?` are shared with the model.
-/
namespace Qrexec.Spec
open Qrexec

/-- Every key of the system info is an ordinary designation: not empty, not starting with
`@` and not `*`.  Qube names and `uuid:` keys always are. -/
def OrdinaryNames (info : Info) : Prop :=
  ∀ k d, info.get? k = some d → k ≠ [] ∧ k.head? ≠ some '@' ∧ k ≠ c!"*"

/-- The three spellings of dom0. -/
def Dom0 (s : Str) : Prop :=
  s = c!"dom0" ∨ s = c!"@adminvm" ∨ s = c!"uuid:00000000-0000-0000-0000-000000000000"

/-- A UUID designation `uuid:...`. -/
def IsUuid (s : Str) : Prop := ∃ u, s = c!"uuid:" ++ u

/-- `info` says the domain called `name` has UUID `u`. -/
def HasUuid (info : Info) (name u : Str) : Prop :=
  ∃ d, info.get? name = some d ∧ d.uuid = some u

/-- Two designations of a domain agree: the same text, or one is the name and the other
the `uuid:` form of the same domain. -/
def SameDomain (info : Info) (a b : Str) : Prop :=
  a = b ∨
  (∃ u, a = c!"uuid:" ++ u ∧ ¬ IsUuid b ∧ HasUuid info b u) ∨
  (∃ u, b = c!"uuid:" ++ u ∧ ¬ IsUuid a ∧ HasUuid info a u)

/-- The default disposable template configured for a domain. -/
def DefaultDispvm (info : Info) (source template : Str) : Prop :=
  ∃ d, info.get? source = some d ∧ d.defaultDispvm = some template

/-- What a token of the source or target column covers.  `other` is what the request has in
that place; `source` is the calling domain (only used in the target column). -/
def Covers (info : Info) (source : Str) : Token → Token → Prop
  | .wildcard, _ => True
  | .anyvm, o => ¬ Dom0 o.str
  | .adminvm, o => Dom0 o.str
  | .name s, o => (Dom0 s ∧ Dom0 o.str) ∨ (¬ Dom0 s ∧ SameDomain info s o.str)
  | .default, o => o.str = c!"@default"
  | .dispvm, o => o.str = c!"@dispvm"
  | .typeVM v, o => ∃ d, info.get? o.str = some d ∧ d.cls = v
  | .tagVM v, o => ∃ d, info.get? o.str = some d ∧ v ∈ d.tags
  | .dispvmTemplate v, o =>
    (∃ w, o = .dispvmTemplate w ∧ SameDomain info v w) ∨
    (o = .dispvm ∧ DefaultDispvm info source v)
  | .dispvmTag v, o =>
    ∃ w d, (o = .dispvmTemplate w ∨ (o = .dispvm ∧ DefaultDispvm info source w)) ∧
      info.get? w = some d ∧ d.templateForDispvms = true ∧ v ∈ d.tags

/-- Service, argument and source columns apply to the request. -/
def AppliesTo (r : Rule) (req : Request) : Prop :=
  (r.service = none ∨ r.service = some req.service) ∧
  (r.argument = none ∨ r.argument = some req.argument) ∧
  Covers req.info req.source r.source (.name req.source)

/-- The rule matches the request. -/
def RuleMatches (r : Rule) (req : Request) : Prop :=
  AppliesTo r req ∧ Covers req.info req.source r.target req.target

/-- `r` is the first rule of `rules` matching the request; `pre` and `post` are the rules
around it. -/
structure FirstMatch (rules pre : List Rule) (r : Rule) (post : List Rule) (req : Request) :
    Prop where
  split : rules = pre ++ r :: post
  before : ∀ x ∈ pre, ¬ RuleMatches x req
  here : RuleMatches r req

/-- If the request is for plain `@dispvm`, the calling domain has a default disposable
template, and it is an existing domain with an ordinary name. -/
def DispvmReady (req : Request) : Prop :=
  req.target = .dispvm → ∃ t d, DefaultDispvm req.info req.source t ∧
    t ≠ [] ∧ t.head? ≠ some '@' ∧ req.info.get? t = some d

/-- The request's target, when it is `@dispvm:T`, names an existing domain.  Every request
that passes construction satisfies it (see `mkRequest_targetExists`). -/
def TargetExists (req : Request) : Prop :=
  ∀ w, req.target = .dispvmTemplate w → ∃ d, req.info.get? w = some d ∧
    d.templateForDispvms = true

end Qrexec.Spec
