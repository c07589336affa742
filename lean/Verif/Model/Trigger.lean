import Verif.Model.CResponse

/-!
# Requests of the agent (daemon/qrexec-daemon.c, handle_message_from_agent)
-/
namespace Qrexec

/-- What the daemon does with a message of the agent that triggers a service. -/
inductive TriggerAct where
  /-- `exit(1)`: the daemon of this qube ends -/
  | die
  /-- `send_service_refused` with this identifier (32 bytes, as sent) -/
  | refuse (ident : Wire)
  /-- `handle_execute_service` -/
  | request (requestedSource : Option Str) (target service : Str) (ident : Wire)
  deriving DecidableEq, Repr

/-- The header checks (qrexec-daemon.c:1349-1389 `sanitize_message_from_agent`) for
`MSG_TRIGGER_SERVICE`, `MSG_TRIGGER_SERVICE3` and `MSG_TRIGGER_SERVICE4` (`kind` 2, 3 and 4);
sizes from libqrexec/qrexec.h:142-163. -/
def headerOk (proto kind len : Nat) : Bool :=
  match kind with
  | 2 => !(proto ≥ 3) && len == 64 + 32 + 32
  | 3 => !(proto < 3) && !(len ≤ 64 + 32) && !(len - (64 + 32) > 65000)
  | 4 => !(proto < 4) && !(len ≤ 64 + 64 + 32) && !(len - (64 + 64 + 32) > 65000)
  | _ => false

/-- The bytes `validate_request_id` accepts before the terminator (qrexec-daemon.c:1405-1411). -/
def identChar (c : Char) : Bool :=
  alnumChar c || c == '_' || c == '-' || c == '.' || c == ' '

/-- qrexec-daemon.c:1402-1432 `validate_request_id`. -/
def validIdent : Wire → Bool
  | [] => false
  | c :: cs => if identChar c then validIdent cs else if c == '\x00' then cs.all (· == '\x00') else false

/-- qrexec-daemon.c:1434 `ENSURE_NULL_TERMINATED`. -/
def ensureNul (buf : Wire) : Wire := buf.take (buf.length - 1) ++ c!"\x00"

/-- qrexec-daemon.c:1436-1450 `validate_service_name`; `none`: refused. -/
def validServiceName (buf : Wire) : Option Wire :=
  match buf.head? with
  | none => none
  | some c => if c == '\x00' then none else if c == '+' then none else some (cSanitizeBuf ['+'] buf)

/-- The checks of a trailing service name (qrexec-daemon.c:1518-1528): a NUL byte at the end and no
other. -/
def exactCstr (buf : Wire) : Bool :=
  buf.getLast? == some '\x00' && (cstr buf).length == buf.length - 1

/-- qrexec-daemon.c:1455-1594 `handle_message_from_agent`, for the three kinds of trigger message;
`data` is the payload, whose length the header gives.  (`free` and logging are not modelled.) -/
def triggerMsg (proto kind : Nat) (data : Wire) : TriggerAct :=
  if !headerOk proto kind data.length then .die
  else match kind with
  | 2 =>
    let service := cSanitizeBuf ['+'] (ensureNul (data.take 64))
    let target := cSanitizeBuf ['@', ':'] (ensureNul ((data.drop 64).take 32))
    let ident := data.drop 96
    if !validIdent ident then .refuse ident
    else match validServiceName service with
      | none => .refuse ident
      | some s => .request none (cstr target) (cstr s) ident
  | 3 =>
    let target := cSanitizeBuf ['@', ':'] (ensureNul (data.take 64))
    let ident := (data.drop 64).take 32
    let service := data.drop 96
    if !validIdent ident then .refuse ident
    else if !exactCstr service then .refuse ident
    else match validServiceName service with
      | none => .refuse ident
      | some s => .request none (cstr target) (cstr s) ident
  | _ =>
    let source := cSanitizeBuf ['@', ':'] (ensureNul (data.take 64))
    let target := cSanitizeBuf ['@', ':'] (ensureNul ((data.drop 64).take 64))
    let ident := (data.drop 128).take 32
    let service := data.drop 160
    if !validIdent ident then .refuse ident
    else if !exactCstr service then .refuse ident
    else match validServiceName service with
      | none => .refuse ident
      | some s => .request (some (cstr source)) (cstr target) (cstr s) ident

/-- A request of a qube from the message of its agent to the decision, with the policy daemon
running: `handle_execute_service_child` sends the request (qrexec-daemon.c:1079-1085) and gets what
`handle_client_connection` writes before it closes the connection. -/
def agentCall (sys : Option Info) (policy : Except Err (List Rule)) (agent : Agent) (remote : Str)
    (rs : Option Str) (target service : Str) : ChildAct :=
  serviceChild remote service
    { daemon := some ((handleClient sys policy agent (requestText remote rs target service)).2.getD [])
      exec := policyExec sys policy agent remote target service }

end Qrexec
