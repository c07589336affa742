import Verif.Model.Json
import Verif.Model.Exec
import Verif.Model.Agent
import Verif.Model.PolicyDaemon
import Verif.Model.AdminClient

/-!
# A question on its way from the policy frontend to the policy agent and back

qrexec/tools/qrexec_policy_exec.py, qrexec/server.py, qrexec/tools/qrexec_policy_agent.py.

Not modelled: how the bytes travel (C52-C59, C71 for the way to another qube); the pictures of the icons.
-/
namespace Qrexec

/-- `d[k] = v` for a dict in insertion order. -/
def pyDictSet {α : Type} (d : List (Str × α)) (k : Str) (v : α) : List (Str × α) :=
  if d.any fun p => p.1 = k then d.map fun p => if p.1 = k then (k, v) else p else d ++ [(k, v)]

/-- `s.replace("app", "disp")`. -/
def replaceApp : Str → Str
  | 'a' :: 'p' :: 'p' :: r => c!"disp" ++ replaceApp r
  | c :: r => c :: replaceApp r
  | [] => []

/-- qrexec_policy_exec.py:77-81: the icons of the qubes. -/
def qubeIcons (info : Info) : List (Str × Str) :=
  (info.filter fun p => !startsWith c!"uuid:" p.1).foldl (fun d p => pyDictSet d p.1 p.2.icon) []

/-- qrexec_policy_exec.py:82-92: one round of the loop that adds the icons of disposables. -/
def dispIcon (d : List (Str × Str)) (p : Str × Dom) : List (Str × Str) :=
  if startsWith c!"uuid:" p.1 || !p.2.templateForDispvms then d
  else pyDictSet d (c!"@dispvm:" ++ p.1) (replaceApp p.2.icon)

/-- qrexec_policy_exec.py:76-92. -/
def askIcons (info : Info) : List (Str × Str) := info.foldl dispIcon (qubeIcons info)

/-- qrexec_policy_exec.py:94-101. -/
def askJson (p : AskParams) (icons : List (Str × Str)) : Json :=
  .obj [(c!"source", .str p.source), (c!"service", .str p.service), (c!"argument", .str p.argument),
    (c!"targets", .arr (p.targets.map .str)), (c!"default_target", .str p.defaultTarget),
    (c!"icons", .obj (icons.map fun i => (i.1, .str i.2)))]

/-- qrexec_policy_exec.py:141-147 and 410-416. -/
def notifyJson (allowed : Bool) (service argument source target : Str) : Json :=
  .obj [(c!"resolution", .str (if allowed then c!"allow" else c!"deny")), (c!"service", .str service),
    (c!"argument", .str argument), (c!"source", .str source), (c!"target", .str target)]

/-- server.py:83-121 `call_socket_service(guivm, service, "dom0", params)` in dom0: the bytes that the socket of the service
gets. In another qube the command line is taken apart by its agent, which sends the command, a NUL byte and then the input
(libqrexec/exec.c:823-827). `none`: nothing is sent. -/
def askMessage (guivm service : Str) (v : Json) : Option Bytes :=
  if guivm = c!"dom0" then some (service ++ c!" dom0 name dom0" ++ '\x00' :: jsonDumps v)
  else match makeCommand (some true) guivm service none with
    | .ok [_, _, _, cmdline] =>
      match parseRpcCommand true cmdline with
      | some c => some (c.command ++ '\x00' :: jsonDumps v)
      | none => none
    | _ => none

/-- `params[key]` if it is a string. (Simplification: a value of another type, with which the code fails at different places,
is an error at once.) -/
def paText (v : Json) (key : Str) : Option Str :=
  match v.get? key with
  | some (.str s) => some s
  | _ => none

/-- A list of strings. -/
def jsonTexts : List Json → Option (List Str)
  | [] => some []
  | .str s :: r => (jsonTexts r).map (s :: ·)
  | _ :: _ => none

/-- The keys of the dict `json.loads` makes of these pairs. -/
def pyKeys (l : List (Str × Json)) : List Str := (l.foldl (fun d p => pyDictSet d p.1 p.2) []).map Prod.fst

/-- qrexec_policy_agent.py:592-612 of `handle_ask`: the question. -/
def paQuestion (v : Json) : Option Question :=
  match paText v c!"source", paText v c!"service", paText v c!"argument", v.get? c!"targets", paText v c!"default_target",
      v.get? c!"icons" with
  | some source, some service, some argument, some (.arr ts), some dflt, some (.obj icons) =>
    match jsonTexts ts with
    | some targets => some { source, service, argument, targets, defaultTarget := dflt, icons := pyKeys icons }
    | none => none
  | _, _, _, _, _, _ => none

/-- What the agent does with a request. `dropped`: an exception, the connection is closed. -/
inductive PaAction where
  | window (q : Question) (w : Win)
  | notification (body : Str)
  | dropped
  deriving DecidableEq, Repr

/-- qrexec_policy_agent.py:584-626 `handle_request`, `handle_ask`, `handle_notify`. -/
def paDispatch (service : Str) (v : Json) : PaAction :=
  if service = c!"policy.Ask" then
    match paQuestion v with
    | none => .dropped
    | some q => match mkWindow q with
      | .error _ => .dropped
      | .ok w => .window q w
  else if service = c!"policy.Notify" then
    match paText v c!"resolution", paText v c!"service", paText v c!"argument", paText v c!"source", paText v c!"target" with
    | some r, some s, some a, some src, some t => match notifyBody r s a src t with
      | .ok body => .notification body
      | .error _ => .dropped
    | _, _, _, _, _ => .dropped
  else .dropped

/-- server.py:54-71 `_client_connected`, up to the call of `handle_request`. -/
def paHandle (data : Bytes) : PaAction :=
  if !isAscii data then .dropped
  else match splitOnce '\x00' data with
    | none => .dropped
    | some (header, body) => match splitOn ' ' header with
      | service :: _ :: _ => match jsonLoads body with
        | none => .dropped
        | some v => paDispatch service v
      | _ => .dropped

/-- server.py:71-77: the response, when the events have happened at the window; `none`: it is still waited for. -/
def paServe (data : Bytes) (user : List GuiEvent) : Option Bytes :=
  match paHandle data with
  | .window _ w =>
    if (w.run user).gone then some (if isAscii (w.run user).answer then (w.run user).answer else []) else none
  | _ => some []

/-- What happens when the bytes are sent to the agent of the GUI domain: it gets them and the events happen at the window it
may show, or the call fails. -/
inductive Reach where
  | serves (user : List GuiEvent)
  | fails (e : Err)

/-- The GUI agent as the frontend sees it (qrexec_policy_exec.py:103-107). A call that does not end is an error. -/
def askAgent (info : Info) (reach : Str → Bytes → Reach) : Agent := fun guivm p =>
  match askMessage guivm c!"policy.Ask" (askJson p (askIcons info)) with
  | none => .error .other
  | some data => match reach guivm data with
    | .fails e => .error e
    | .serves user => match paServe data user with
      | none => .error .other
      | some r => .ok r

end Qrexec
