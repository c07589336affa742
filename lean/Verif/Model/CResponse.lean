import Verif.Model.PolicyDaemon

/-!
# The C daemon's side of the policy decision (daemon/qrexec-daemon.c)
-/
namespace Qrexec

/-- `enum policy_response`. -/
inductive Verdict where
  | allow
  | deny
  | malformed
  deriving DecidableEq, Repr

/-- The output parameters of `parse_policy_response` and its local `result` (`none` is `NULL` or
-1). -/
structure PolicyAnswer where
  result : Option Bool := none
  user : Option Str := none
  target : Option Str := none
  targetUuid : Option Str := none
  autostart : Option Bool := none
  requestedTarget : Option Str := none
  service : Option Str := none
  policySource : Option Str := none
  deriving DecidableEq, Repr

/-- `if (*x != NULL) goto bad_response; *x = strdup(...)`. -/
def setOnce {α : Type} (old : Option α) (new : Option α) : Option (Option α) :=
  match old, new with
  | none, some v => some (some v)
  | _, _ => none

/-- `strcmp` with two words; anything else is an error. -/
def twoWords (yes no v : Str) : Option Bool :=
  if v == yes then some true else if v == no then some false else none

/-- The body of the loop of `parse_policy_response` (qrexec-daemon.c:912-973); `none` is
`goto bad_response`. -/
def responseLine (p : PolicyAnswer) (line : Str) : Option PolicyAnswer :=
  if startsWith c!"result=" line then
    (setOnce p.result (twoWords c!"allow" c!"deny" (line.drop 7))).map fun x => { p with result := x }
  else if startsWith c!"user=" line then
    (setOnce p.user (some (line.drop 5))).map fun x => { p with user := x }
  else if startsWith c!"target=" line then
    (setOnce p.target (some (line.drop 7))).map fun x => { p with target := x }
  else if startsWith c!"target_uuid=" line then
    (setOnce p.targetUuid (some (line.drop 12))).map fun x => { p with targetUuid := x }
  else if startsWith c!"autostart=" line then
    (setOnce p.autostart (twoWords c!"True" c!"False" (line.drop 10))).map
      fun x => { p with autostart := x }
  else if startsWith c!"requested_target=" line then
    (setOnce p.requestedTarget (some (line.drop 17))).map fun x => { p with requestedTarget := x }
  else if startsWith c!"service=" line then
    (setOnce p.service (some (line.drop 8))).map fun x => { p with service := x }
  else if startsWith c!"policy_source=" line then
    (setOnce p.policySource (some (line.drop 14))).map fun x => { p with policySource := x }
  else if line.contains '=' then some p
  else none

/-- The loop over the lines (qrexec-daemon.c:912); `none` is `goto bad_response`. The state is
returned with it because the output parameters keep what was stored so far. -/
def responseLines : PolicyAnswer → List Str → PolicyAnswer × Bool
  | p, [] => (p, true)
  | p, l :: ls =>
    match responseLine p l with
    | none => (p, false)
    | some p' => responseLines p' ls

/-- The final `switch` (qrexec-daemon.c:975-988). -/
def finalVerdict (p : PolicyAnswer) : Verdict :=
  match p.result with
  | some true =>
    if p.user.isNone || p.target.isNone || p.requestedTarget.isNone || p.autostart.isNone then
      .malformed
    else .allow
  | some false =>
    if p.user.isSome || p.target.isSome || p.requestedTarget.isSome || p.autostart.isSome then
      .malformed
    else .deny
  | none => .malformed

/-- One trailing newline is stripped (qrexec-daemon.c:907-910). -/
def chompOne (s : Str) : Str := if s.getLast? = some '\n' then s.dropLast else s

/-- qrexec-daemon.c:881-993 `parse_policy_response`.  All output parameters are reset at the start
except `policy_source`, whose old value is `source0`. -/
def parseResponse (source0 : Option Str) (response : Wire) : Verdict × PolicyAnswer :=
  let p0 : PolicyAnswer := { policySource := source0 }
  if response.isEmpty then (.malformed, p0)
  else if response.contains '\x00' then (.malformed, p0)
  else
    match responseLines p0 (splitOn '\n' (chompOne response)) with
    | (p, true) => (finalVerdict p, p)
    | (p, false) => (.malformed, p)

/-- What came of asking `qrexec-policy-daemon`: no connection, or the bytes it sent before closing;
and of running `qrexec-policy-exec`: the bytes it wrote and its exit status. -/
structure PolicySide where
  daemon : Option Wire
  exec : Wire × Nat

/-- qrexec-daemon.c:1047-1164 `connect_daemon_socket`; `none`: the process exits with
`QREXEC_EXIT_PROBLEM`.  Not modelled: failures of `socket`, `fork` and the like, all of which do
the same; answers longer than 4096 bytes. -/
def connectDaemon (side : PolicySide) : Option (Verdict × PolicyAnswer) :=
  let fallback := fun source0 : Option Str =>
    if side.exec.2 != 0 then none else some (parseResponse source0 side.exec.1)
  match side.daemon with
  | none => fallback none
  | some bytes =>
    match parseResponse none bytes with
    | (.malformed, p) => fallback p.policySource
    | r => some r

/-- What the child of `handle_execute_service` does in the end. -/
inductive ChildAct where
  /-- exit with `QREXEC_EXIT_REQUEST_REFUSED` -/
  | refuse
  /-- exit with `QREXEC_EXIT_PROBLEM` -/
  | problem
  /-- `run_qrexec_to_dom0` with this command and source -/
  | runDom0 (cmd source : Str)
  /-- `qrexec_execute_vm` -/
  | runVm (target : Str) (byUuid autostart : Bool) (cmd : Str)
  deriving DecidableEq, Repr

/-- daemon/qrexec-daemon-common.c `target_refers_to_dom0`. -/
def refersToDom0 (t : Str) : Bool :=
  t == c!"@adminvm" || t == c!"dom0" || t == c!"uuid:00000000-0000-0000-0000-000000000000"

/-- `strchr(target_service_name, '+') ? "" : "+"` (qrexec-daemon.c:1226). -/
def withPlus (service : Str) : Str := if service.contains '+' then service else service ++ c!"+"

/-- The part of `handle_execute_service_child` after the policy decision
(qrexec-daemon.c:1203-1264). -/
def childAction (remote service : Str) (p : PolicyAnswer) : ChildAct :=
  let target := p.target.getD []
  let svc := withPlus (p.service.getD service)
  let source := p.policySource.getD remote
  if refersToDom0 target then
    let rt := p.requestedTarget.getD []
    if rt.head? = some '@' then
      .runDom0 (c!"QUBESRPC " ++ svc ++ c!" " ++ source ++ c!" keyword " ++ rt.drop 1) source
    else .runDom0 (c!"QUBESRPC " ++ svc ++ c!" " ++ source ++ c!" name " ++ rt) source
  else
    .runVm (p.targetUuid.getD target) p.targetUuid.isSome (p.autostart.getD true)
      (p.user.getD [] ++ c!":QUBESRPC " ++ svc ++ c!" " ++ source)

/-- qrexec-daemon.c:1182-1265 `handle_execute_service_child`. -/
def serviceChild (remote service : Str) (side : PolicySide) : ChildAct :=
  match connectDaemon side with
  | none => .problem
  | some (.allow, p) => childAction remote service p
  | some _ => .refuse

/-- `needle in s` for strings. -/
def containsStr (needle : Str) : Str → Bool
  | [] => needle.isEmpty
  | c :: cs => startsWith needle (c :: cs) || containsStr needle cs

/-- qrexec/tools/qrexec_policy_exec.py:330-342 `main`, with three positional arguments and no
options, as the C daemon runs it (qrexec-daemon.c:1117-1123): what it writes and its exit status.
An exception of `handle_request` ends the interpreter with status 1. -/
def policyExec (sys : Option Info) (policy : Except Err (List Rule)) (agent : Agent)
    (source target sa : Str) : Wire × Nat :=
  match (handleRequest sys policy agent {} source target sa []).2 with
  | .error _ => ([], 1)
  | .ok s =>
    (s ++ c!"\n", if containsStr c!"\nresult=allow\n" s || s == c!"result=allow" then 0 else 1)

/-- qrexec-daemon.c:998-1033 `send_request_to_daemon`. -/
def requestText (remote : Str) (requestedSource : Option Str) (target service : Str) : Wire :=
  c!"source=" ++ remote ++
  (match requestedSource with | some s => c!"\nrequested_source=" ++ s | none => []) ++
  c!"\nintended_target=" ++ target ++ c!"\nservice_and_arg=" ++ service ++ c!"\n\n"

end Qrexec
