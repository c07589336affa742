import Verif.Model.Policy
import Verif.Model.Print
import Verif.Model.Loader

/-!
# qrexec-policy-graph

qrexec/tools/qrexec_policy_graph.py.  Not modelled: argparse itself, reading the policy directory (the rules are
given, see `Model/Loader.lean`) and the system information; an exception makes the whole run fail (the lines written
before it are not modelled).
-/
namespace Qrexec

/-- The parsed command line (qrexec_policy_graph.py:32-78, 143-161).  An option that is not given is the empty list.
`source` and `target` hold the texts of the tokens built at lines 143-161 (building a token does not change its text;
an invalid token ends the program there). -/
structure GraphArgs where
  includeAsk : Bool := false
  skipLabels : Bool := false
  fullOutput : Bool := false
  source : List Str := []
  target : List Str := []
  service : List Str := []
  deriving DecidableEq, Repr

/-- The service of a rule for all services is `None`, and the tool evaluates a request whose service is `None`
(qrexec_policy_graph.py:197-198, 220-226).  `None` differs from the service of every rule that has one; so does this
text, because a service name in a policy contains no space (parser.py:136-203). -/
def requestService : Option Str → Str
  | some s => s
  | none => c!" "

/-- `argument or "+"` (qrexec_policy_graph.py:222). -/
def requestArgument : Option Str → Str
  | some a => if a.isEmpty then c!"+" else a
  | none => c!"+"

/-- The line for a node (qrexec_policy_graph.py:99-107).  `labels` is `system_info["domains"][...]["label"]`, `none`
being the `KeyError`. -/
def graphNode (labels : Str → Option Str) (node : Str) : Except Err Str :=
  if startsWith c!"@" node then .ok (c!"  \"" ++ node ++ c!"\" [style = dotted];\n")
  else match labels node with
    | none => .error .keyError
    | some l => .ok (c!"  \"" ++ node ++ c!"\" [color = \"" ++ replaceAux c!"0x" c!"#" 0 l ++ c!"\", penwidth = 3];\n")

/-- The line for an edge (qrexec_policy_graph.py:113-114, 122-123, 130-131). -/
def graphEdge (source target label colour : Str) : Str :=
  c!"  \"" ++ source ++ c!"\" -> \"" ++ target ++ c!"\" [label=\"" ++ label ++ c!"\" color=" ++ colour ++ c!"];\n"

/-- `service` (qrexec_policy_graph.py:83-88); `None + str` is a `TypeError`; a `None` that is printed is `None`. -/
def graphLabel (args : GraphArgs) (service : Option Str) (rule : Rule) : Except Err Str :=
  if args.skipLabels then .ok []
  else if args.fullOutput && !(rule.argument.getD []).isEmpty then
    match service with
    | none => .error .typeError
    | some s => .ok (s ++ rule.argument.getD [])
  else .ok (service.getD c!"None")

/-- The rule, the request and whether it is an `AskResolution`. -/
def Resolution.parts : Resolution → Rule × Request × Bool
  | .allow r => (r.rule, r.request, false)
  | .ask r => (r.rule, r.request, true)

/-- `action.rule.action.target` (parser.py:1147, 1242); a resolution never comes from a deny rule. -/
def Action.redirect : Action → Option Token
  | .deny _ => none
  | .allow t _ _ _ => t
  | .ask t _ _ _ _ => t

/-- `target` (qrexec_policy_graph.py:89-92). -/
def graphTarget (rule : Rule) (req : Request) : Str :=
  match rule.action.redirect with
  | some t => t.str
  | none => req.target.str

/-- The colour of an edge (qrexec_policy_graph.py:111, 123, 131). -/
def graphColour (ask : Bool) : Str := if ask then c!"orange" else c!"red"

/-- The edge, if it is drawn (qrexec_policy_graph.py:110-136). -/
def graphEdges (args : GraphArgs) (label : Str) (rule : Rule) (source target : Str) (ask : Bool) : List Str :=
  if args.fullOutput then [graphEdge source target (label ++ c!" " ++ rule.action.print) (graphColour ask)]
  else if ask && !args.includeAsk then []
  else [graphEdge source target label (graphColour ask)]

/-- qrexec_policy_graph.py:81-136 `handle_single_action`; `service` is `action.request.service`. -/
def graphAction (args : GraphArgs) (labels : Str → Option Str) (service : Option Str) (res : Resolution) :
    Except Err (List Str) := do
  let rule := res.parts.1
  let req := res.parts.2.1
  let label ← graphLabel args service rule
  let target := graphTarget rule req
  if !args.target.isEmpty && !args.target.contains target then return []
  let n1 ← graphNode labels req.source
  let n2 ← graphNode labels target
  let edges := graphEdges args label rule req.source target res.parts.2.2
  return if edges.isEmpty then [] else [n1, n2] ++ edges

/-- One pass of the innermost loop (qrexec_policy_graph.py:219-231): the lines to add. -/
def graphQuery (args : GraphArgs) (rules : List Rule) (info : Info) (labels : Str → Option Str)
    (entry : Option Str × Option Str) (source target : Str) : Except Err (List Str) :=
  match mkRequest (requestService entry.1) (requestArgument entry.2) source target info >>= evaluate rules with
  | .ok res => graphAction args labels entry.1 res
  | .error e => if e.isAccessDenied then .ok [] else .error e

/-- `targets` before the special ones are added (qrexec_policy_graph.py:173-175). -/
def graphNames (info : Info) : List Str :=
  (info.map Prod.fst).filter fun k => !startsWith c!"uuid" k

/-- `targets` (qrexec_policy_graph.py:173-190). -/
def graphTargets (info : Info) : List Str :=
  graphNames info ++ [c!"@dispvm"] ++
    ((info.filter fun kd => !startsWith c!"uuid:" kd.1 && kd.2.templateForDispvms).map fun kd => c!"@dispvm:" ++ kd.1) ++
    [c!"@default"]

/-- `sources` (qrexec_policy_graph.py:176-179); the order of a set is not modelled. -/
def graphSources (args : GraphArgs) (info : Info) : List Str :=
  if args.source.isEmpty then graphNames info else args.source

/-- One `--service` value (qrexec_policy_graph.py:201-206). -/
def graphEntry (service : Str) : Option Str × Option Str :=
  match splitOnce '+' service with
  | some (s, a) => (some s, some (c!"+" ++ a))
  | none => (some service, none)

/-- The sort key (qrexec_policy_graph.py:207-209), compared as tuples are. -/
def entryLe (a b : Option Str × Option Str) : Bool :=
  if a.1.getD [] == b.1.getD [] then strLe (a.2.getD []) (b.2.getD []) else strLe (a.1.getD []) (b.1.getD [])

/-- `s.add(x)` for each element, on a set kept as a list. -/
def addAll {α : Type} [BEq α] (s : List α) : List α → List α
  | [] => s
  | x :: xs => addAll (if s.contains x then s else s ++ [x]) xs

/-- The sorted `services` (qrexec_policy_graph.py:196-209). -/
def graphServices (args : GraphArgs) (rules : List Rule) : List (Option Str × Option Str) :=
  sortBy entryLe (addAll [] (rules.map (fun r => (r.service, r.argument)) ++ args.service.map graphEntry))

/-- Whether the service is skipped (qrexec_policy_graph.py:210-215); `None + str` is a `TypeError`. -/
def graphSkip (args : GraphArgs) (entry : Option Str × Option Str) : Except Err Bool :=
  if args.service.isEmpty then .ok false
  else match entry.1 with
    | none => .error .typeError
    | some s => .ok (!args.service.contains s && !args.service.contains (s ++ entry.2.getD []))

/-- `[y for x in l for y in f(x)]` with exceptions. -/
def concatMapE {α β : Type} (f : α → Except Err (List β)) : List α → Except Err (List β)
  | [] => .ok []
  | x :: xs => do
    let a ← f x
    let b ← concatMapE f xs
    return a ++ b

/-- The loops over sources and targets for one service (qrexec_policy_graph.py:210-231). -/
def graphService (args : GraphArgs) (rules : List Rule) (info : Info) (labels : Str → Option Str)
    (entry : Option Str × Option Str) : Except Err (List Str) := do
  let skip ← graphSkip args entry
  if skip then return []
  concatMapE (fun s => concatMapE (graphQuery args rules info labels entry s) (graphTargets info))
    (graphSources args info)

/-- qrexec_policy_graph.py:139-240 `main`: the lines written between `digraph g {` and `}`; a line is written once
(lines 231-236). -/
def graphMain (args : GraphArgs) (rules : List Rule) (info : Info) (labels : Str → Option Str) :
    Except Err (List Str) := do
  let lines ← concatMapE (graphService args rules info labels) (graphServices args rules)
  return addAll [] lines

/-- The whole output (qrexec_policy_graph.py:195, 238). -/
def graphText (args : GraphArgs) (rules : List Rule) (info : Info) (labels : Str → Option Str) : Except Err Str := do
  let lines ← graphMain args rules info labels
  return c!"digraph g {\n" ++ lines.flatten ++ c!"}\n"

end Qrexec
