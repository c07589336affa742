import Verif.Spec.Outcome
import Verif.Model.Graph

/-!
# Specification of the policy graph

What the edges of `qrexec-policy-graph` mean: an edge from a source to a target stands for calls that the policy would
allow, or ask about.
-/
namespace Qrexec.Spec
open Qrexec

/-- The policy gives the call of `svc` with argument `arg` (with its leading `+`) from `src` to `tgt` this
resolution. -/
def CallResult (rules : List Rule) (info : Info) (svc arg src tgt : Str) (res : Resolution) : Prop :=
  ∃ req, mkRequest svc arg src tgt info = .ok req ∧ evaluate rules req = .ok res

/-- The calls that the graph shows by the line of the policy columns `(service, argument)`; `none` is `*`. -/
def Stands (rules : List Rule) : Option Str × Option Str → Str → Str → Prop
  | (some s, some a), svc, arg => svc = s ∧ arg = a
  | (some s, none), svc, arg => svc = s ∧ (∃ t, arg = c!"+" ++ t) ∧
      (arg = c!"+" ∨ ∀ r ∈ rules, r.service = some s → r.argument ≠ some arg ∧ r.argument ≠ some c!"+")
  | (none, none), svc, arg => (∃ t, arg = c!"+" ++ t) ∧
      ∀ r ∈ rules, r.service = some svc → r.argument ≠ none ∧ r.argument ≠ some arg
  | (none, some _), _, _ => False

/-- The columns the graph considers: those of the policy, and those of `--service`; the latter also limits. -/
structure Listed (args : GraphArgs) (rules : List Rule) (entry : Option Str × Option Str) : Prop where
  known : (∃ r ∈ rules, entry = (r.service, r.argument)) ∨
    (∃ x ∈ args.service, '+' ∉ x ∧ entry = (some x, none)) ∨
    (∃ x ∈ args.service, ∃ s a, x = s ++ c!"+" ++ a ∧ '+' ∉ s ∧ entry = (some s, some (c!"+" ++ a)))
  wanted : args.service = [] ∨ ∃ s, entry.1 = some s ∧ (s ∈ args.service ∨ s ++ entry.2.getD [] ∈ args.service)

/-- A source the graph considers: given with `--source`, or without it any qube (whose name does not begin with
`uuid`). -/
def DrawnSource (args : GraphArgs) (info : Info) (src : Str) : Prop :=
  src ∈ args.source ∨ (args.source = [] ∧ src ∈ info.map Prod.fst ∧ ¬ ∃ t, src = c!"uuid" ++ t)

/-- A requested target the graph considers. -/
def DrawnTarget (info : Info) (tgt : Str) : Prop :=
  (tgt ∈ info.map Prod.fst ∧ ¬ ∃ t, tgt = c!"uuid" ++ t) ∨ tgt = c!"@dispvm" ∨ tgt = c!"@default" ∨
  ∃ T d, tgt = c!"@dispvm:" ++ T ∧ (T, d) ∈ info ∧ d.templateForDispvms = true ∧ ¬ ∃ t, T = c!"uuid:" ++ t

/-- The text on an edge: the service (`None` for a `*` in the policy), with `--full-output` followed by the argument
column of the deciding rule and its action. -/
def edgeLabel (args : GraphArgs) (service : Option Str) (rule : Rule) : Str :=
  let base := if args.skipLabels then [] else service.getD c!"None" ++
    (if args.fullOutput then rule.argument.getD [] else [])
  if args.fullOutput then base ++ c!" " ++ rule.action.print else base

/-- How a resolution is drawn: an allowed call red, a question orange (only with `--include-ask` or `--full-output`),
towards the target the rule redirects to if it does, else the requested one.  `--target` limits the targets. -/
inductive Shown (args : GraphArgs) (service : Option Str) : Resolution → Str → Str → Str → Prop
  | allow {r t u n a} : r.rule.action = .allow t u n a →
      (args.target = [] ∨ (t.getD r.request.target).str ∈ args.target) →
      Shown args service (.allow r) (t.getD r.request.target).str (edgeLabel args service r.rule) c!"red"
  | ask {r t d u n a} : r.rule.action = .ask t d u n a → (args.includeAsk = true ∨ args.fullOutput = true) →
      (args.target = [] ∨ (t.getD r.request.target).str ∈ args.target) →
      Shown args service (.ask r) (t.getD r.request.target).str (edgeLabel args service r.rule) c!"orange"

/-- The text of an edge. -/
def edgeText (source target label colour : Str) : Str :=
  c!"  \"" ++ source ++ c!"\" -> \"" ++ target ++ c!"\" [label=\"" ++ label ++ c!"\" color=" ++ colour ++ c!"];\n"

/-- A line for a node. -/
def IsNodeText (line : Str) : Prop := ∃ node attr, line = c!"  \"" ++ node ++ c!"\" [" ++ attr ++ c!"];\n"

/-- The calls no line of the graph stands for: the policy has lines for the service with argument `*` and with the
empty argument `+`, but none with this argument. -/
def Gap (rules : List Rule) (svc arg : Str) : Prop :=
  (∃ r ∈ rules, r.service = some svc ∧ r.argument = none) ∧
  (∃ r ∈ rules, r.service = some svc ∧ r.argument = some c!"+") ∧
  ∀ r ∈ rules, r.service = some svc → r.argument ≠ some arg

end Qrexec.Spec
