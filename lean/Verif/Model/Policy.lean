import Verif.Model.Rule

/-!
# Requests and policy evaluation
-/
namespace Qrexec

/-- A `Request` (parser.py:964-1040).  The resolution factories are the `Mode` of
`Model/Exec.lean`. -/
structure Request where
  service : Str
  argument : Str
  source : Str
  target : Token
  /-- `requested_source`, `[]` when absent (`None` or `""`, both falsy) -/
  requestedSource : Str := []
  relayvm : Option Str := none
  info : Info
  deriving DecidableEq, Repr

/-- The last part of `Request.__init__` (parser.py:1022-1040). -/
def applyRequestedSource (req : Request) : Except Err Request :=
  if req.requestedSource.isEmpty then .ok req
  else match req.info.get? req.requestedSource with
    | none => .error .requestError
    | some d =>
      if d.cls != c!"RemoteVM" then .error .requestError
      else if d.relayvm != some req.source then .error .requestError
      else .ok { req with relayvm := some req.source, source := req.requestedSource }

/-- parser.py:984-1040 `Request.__init__`. -/
def mkRequest (service argument source target : Str) (info : Info)
    (requestedSource : Str := []) : Except Err Request := do
  let target := if target.isEmpty then c!"@default" else target
  require (startsWith c!"+" argument) .assertion
  let tok ← parseToken .intended target
  let tok ← tok.verify info
  applyRequestedSource { service, argument, source, target := tok, requestedSource, info }

/-- parser.py:1577-1599 `Rule.is_match_but_target`. -/
def Rule.isMatchButTarget (rule : Rule) (req : Request) : Except Err Bool :=
  if !(rule.service.isNone || rule.service == some req.service) then .ok false
  else if !(rule.argument.isNone || rule.argument == some req.argument) then .ok false
  else rule.source.matches req.info none (.name req.source)

/-- parser.py:1564-1575 `Rule.is_match`. -/
def Rule.isMatch (rule : Rule) (req : Request) : Except Err Bool :=
  match rule.isMatchButTarget req with
  | .error e => .error e
  | .ok false => .ok false
  | .ok true => rule.target.matches req.info (some req.source) req.target

/-- parser.py:1846-1852 `AbstractPolicy.find_matching_rule`. -/
def findMatchingRule (req : Request) : List Rule → Except Err Rule
  | [] => .error (.accessDenied true)
  | r :: rs => match r.isMatch req with
    | .error e => .error e
    | .ok true => .ok r
    | .ok false => findMatchingRule req rs

/-- `targets.update(xs)` on a set kept as a list. -/
def setUnion (s xs : List Str) : List Str :=
  xs.foldl (fun s x => if s.contains x then s else s ++ [x]) s

/-- `targets.difference_update(xs)`. -/
def setDiff (s xs : List Str) : List Str := s.filter fun x => !xs.contains x

/-- `targets.remove(x)` (only called when `x in targets`). -/
def setRemove (s : List Str) (x : Str) : List Str := s.filter fun y => y != x

/-- The inner loop over `rule_target.expand()` with its `try: uuid_to_name ... except
KeyError: continue` (parser.py:1883-1896). -/
def namesOf (info : Info) : List Str → List Str
  | [] => []
  | x :: xs => match uuidToName info x with
    | .ok n => n :: namesOf info xs
    | .error _ => namesOf info xs

/-- `getattr(rule.action, "target", None) or rule.target` (parser.py:1879-1881). -/
def Rule.askTarget (r : Rule) : Token :=
  match r.action with
  | .allow (some t) _ _ _ => t
  | .ask (some t) _ _ _ _ => t
  | _ => r.target

/-- The loop over the reversed rules (parser.py:1875-1900); the list given is already
reversed. -/
def collectLoop (req : Request) : List Rule → List Str → Except Err (List Str)
  | [], targets => .ok targets
  | r :: rs, targets => match r.isMatchButTarget req with
    | .error e => .error e
    | .ok false => collectLoop req rs targets
    | .ok true => match r.askTarget.expand req.info with
      | .error e => .error e
      | .ok ex =>
        let expansion := namesOf req.info ex
        if r.action.isDeny then collectLoop req rs (setDiff targets expansion)
        else collectLoop req rs (setUnion targets expansion)

/-- The last loop (parser.py:1920-1926): drop internal domains; `info[name]` may raise. -/
def dropInternal (info : Info) : List Str → Except Err (List Str)
  | [] => .ok []
  | t :: ts => do
    let d ← info.lookup (if startsWith c!"@dispvm:" t then t.drop 8 else t)
    let rest ← dropInternal info ts
    return if d.internal then rest else t :: rest

/-- `source_uuid, source_name` (parser.py:1868-1871). -/
def sourceNames (info : Info) (source : Str) : Except Err (Str × Str) := do
  let d ← info.lookup source
  if startsWith c!"uuid:" source then return (source, d.name)
  else
    let u ← d.getUuid
    return (c!"uuid:" ++ u, source)

/-- `# expand default DispVM` (parser.py:1900-1907). -/
def expandDefaultDispvm (info : Info) (source : Str) (targets : List Str) :
    Except Err (List Str) :=
  if targets.contains c!"@dispvm" then
    match getDispvmTemplate info source with
    | .error e => .error e
    | .ok none => .ok (setRemove targets c!"@dispvm")
    | .ok (some t) => .ok (setUnion (setRemove targets c!"@dispvm") [t.str])
  else .ok targets

/-- `# expand other keywords` (parser.py:1909-1912). -/
def expandAdminvm (targets : List Str) : List Str :=
  if targets.contains c!"@adminvm" then
    setUnion (setRemove targets c!"@adminvm") [c!"dom0"]
  else targets

/-- parser.py:1859-1928 `AbstractPolicy.collect_targets_for_ask`.  The Python result is a
set; the order of the list is not meaningful. -/
def collectTargets (rules : List Rule) (req : Request) : Except Err (List Str) := do
  let names ← sourceNames req.info req.source
  let targets ← collectLoop req rules.reverse []
  let targets ← expandDefaultDispvm req.info req.source targets
  let targets := expandAdminvm targets
  -- parser.py:1914-1918, `names` is `(source_uuid, source_name)`
  let targets := setRemove targets names.2
  let targets := setRemove targets names.1
  dropInternal req.info targets

/-- parser.py:1097-1109 `ActionType.allow_no_autostart`; a missing domain is an
`AssertionError`. -/
def allowNoAutostart (info : Info) (target : Str) : Except Err Bool :=
  if isDom0 target then .ok true
  else if startsWith c!"@dispvm" target then .ok false
  else match info.get? target with
    | some d => .ok (d.powerState == c!"Running")
    | none => .error .assertion

/-- An `AllowResolution` (parser.py:743-760): what `execute` and logging read from it. -/
structure AllowRes where
  rule : Rule
  request : Request
  user : Option Str
  target : Str
  autostart : Bool
  deriving DecidableEq, Repr

/-- An `AskResolution` (parser.py:889-905). -/
structure AskRes where
  rule : Rule
  request : Request
  user : Option Str
  targetsForAsk : List Str
  defaultTarget : Option Str
  autostart : Bool
  deriving DecidableEq, Repr

/-- The two kinds of resolution. -/
inductive Resolution where
  | allow (r : AllowRes)
  | ask (r : AskRes)
  deriving DecidableEq, Repr

/-- parser.py:1085-1095 `ActionType.actual_target`. -/
def actualTarget (redirect : Option Token) (intended : Token) : Except Err Token :=
  parseToken .intended (redirect.getD intended).str

/-- `@dispvm` and `@adminvm` in `Allow.evaluate` (parser.py:1200-1217). -/
def resolveKeyword (req : Request) (target : Token) : Except Err Str :=
  match target with
  | .dispvm => match getDispvmTemplate req.info req.source with
    | .error e => .error e
    | .ok none => .error (.accessDenied true)
    | .ok (some t) => .ok t.str
  | t => .ok (if t.str == c!"@adminvm" then c!"dom0" else t.str)

/-- The autostart check in `Allow.evaluate` (parser.py:1219-1227). -/
def checkAutostart (info : Info) (target : Str) (autostart notify : Bool) : Except Err Unit :=
  if autostart then .ok ()
  else match allowNoAutostart info target with
    | .error e => .error e
    | .ok b => require b (.accessDenied notify)

/-- parser.py:1179-1232 `Allow.evaluate`. -/
def evalAllow (rule : Rule) (redirect : Option Token) (user : Option Str)
    (notify autostart : Bool) (req : Request) : Except Err AllowRes := do
  let m ← rule.isMatch req
  require m .assertion
  let target ← actualTarget redirect req.target
  let target ← target.verify req.info
  require (target.str != c!"@default") (.accessDenied true)
  let target ← resolveKeyword req target
  checkAutostart req.info target autostart notify
  return { rule, request := req, user, target, autostart }

/-- The list comprehension filtering by `allow_no_autostart` (parser.py:1294-1299). -/
def filterNoAutostart (info : Info) : List Str → Except Err (List Str)
  | [] => .ok []
  | t :: ts => do
    let ok ← allowNoAutostart info t
    let rest ← filterNoAutostart info ts
    return if ok then t :: rest else rest

/-- `if not self.autostart: ...` (parser.py:1294-1299). -/
def autostartFilter (info : Info) (autostart : Bool) (targets : List Str) :
    Except Err (List Str) :=
  if autostart then .ok targets else filterNoAutostart info targets

/-- `targets_for_ask` in `Ask.evaluate` (parser.py:1283-1292). -/
def askTargets (rules : List Rule) (redirect : Option Token) (req : Request) :
    Except Err (List Str) :=
  match redirect with
  | some t => .ok (if isDom0 t.str then [c!"dom0"] else [t.str])
  | none => collectTargets rules req

/-- `default_target` in `Ask.evaluate` before the membership check (parser.py:1309-1321). -/
def askDefault (req : Request) (dflt : Option Token) : Except Err (Option Str) :=
  match dflt with
  | none => .ok none
  | some .dispvm => match getDispvmTemplate req.info req.source with
    | .error e => .error e
    | .ok none => .ok none
    | .ok (some t) => .ok (some t.str)
  | some t => .ok (some (if isDom0 t.str then c!"dom0" else t.str))

/-- parser.py:1273-1341 `Ask.evaluate`, with the assertion of `AskResolution.__init__`
(parser.py:902). -/
def evalAsk (rules : List Rule) (rule : Rule) (redirect dflt : Option Token)
    (user : Option Str) (autostart : Bool) (req : Request) : Except Err AskRes := do
  let m ← rule.isMatch req
  require m .assertion
  let targets ← askTargets rules redirect req
  let targets ← autostartFilter req.info autostart targets
  require (!targets.isEmpty) (.accessDenied true)
  let default ← askDefault req dflt
  return { rule, request := req, user, targetsForAsk := targets,
           defaultTarget := default.filter (fun t => targets.contains t), autostart }

/-- `rule.action.evaluate(request)` (parser.py:1124-1134, 1179-1232, 1273-1341). -/
def evalAction (rules : List Rule) (rule : Rule) (req : Request) : Except Err Resolution :=
  match rule.action with
  | .deny notify => .error (.accessDenied notify)
  | .allow t u n a => (evalAllow rule t u n a req).map .allow
  | .ask t d u _ a => (evalAsk rules rule t d u a req).map .ask

/-- parser.py:1833-1844 `AbstractPolicy.evaluate`. -/
def evaluate (rules : List Rule) (req : Request) : Except Err Resolution := do
  let rule ← findMatchingRule req rules
  evalAction rules rule req

/-- parser.py:1854-1857 `AbstractPolicy.find_rules_for_service`. -/
def findRulesForService (rules : List Rule) (service : Str) : List Rule :=
  rules.filter fun r => r.service.isNone || r.service == some service

end Qrexec
