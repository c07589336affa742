import Verif.Model.Start
import Verif.Model.IoAll

/-!
# The fork server of a user's session (agent/qrexec-fork-server.c)

The agent hands a request to it over a local socket (`try_fork_server`, agent/qrexec-agent.c:448-508); it starts the process
that serves the request, in the session of the user.

Simplified: `read_all` is described by what it has got when the client has written everything it writes (how it gets there:
`readAll` in Verif.Model.IoAll); `malloc` does not fail.  Not modelled: the creation of the socket, the log.
-/
namespace Qrexec

/-- qrexec-agent.h:52-58 `struct qrexec_cmd_info`, little endian, as filled at qrexec-agent.c:484-491: `text` is the command
with its NUL. -/
def fsHeader (type domain port : Nat) (text : Wire) : Str :=
  u32le type ++ u32le domain ++ u32le port ++ u32le text.length

/-- qrexec-agent.c:492-500: two writes; the second is not tried if the first fails. Whether both succeed, and what has been
written. -/
def fsSend (ks ks' : List Sys) (type domain port : Nat) (text : Wire) : Bool × Str :=
  match writeAll ks (fsHeader type domain port text) with
  | (.done, a) => match writeAll ks' text with
    | (.done, b) => (true, a ++ b)
    | (_, b) => (false, a ++ b)
  | (_, a) => (false, a)

/-- What the fork server does for a client. -/
inductive FsOut where
  /-- the connection is closed, nothing is done -/
  | dropped
  /-- a process is forked that serves the request (`handle_new_process`) -/
  | process (type domain port : Nat) (cmd : RpcCmd)
  /-- the server waits for more -/
  | blocked
  /-- an assertion fails, the server dies (qrexec-agent-data.c:356) -/
  | crash
  deriving DecidableEq, Repr

/-- qrexec-fork-server.c:69-105 `handle_single_command`, behind the header; `s` is what the client writes behind the header,
`closed`: it then closes the connection; `forks`: `fork` succeeds. -/
def fsCommand (type domain port len : Nat) (s : Str) (closed forks : Bool) : FsOut :=
  if len > 2147483647 then .dropped
  else if len < 1 then .dropped
  else if s.length < len then (if closed then .dropped else .blocked)
  else
    let line := s.take len
    if line.getD (len - 1) 'x' ≠ '\x00' then .dropped
    else if (cString line).length ≠ len - 1 then .dropped
    else match parseRpcCommand false (cString line) with
      | none => .dropped
      | some c =>
        if type = 0x202 then .crash
        else if forks then .process type domain port c
        else .dropped

/-- qrexec-fork-server.c:150-153: one client. -/
def fsHandle (s : Str) (closed forks : Bool) : FsOut :=
  if s.length < 16 then (if closed then .dropped else .blocked)
  else fsCommand (u32of s) (u32of (s.drop 4)) (u32of (s.drop 8)) (u32of (s.drop 12)) (s.drop 16) closed forks

/-- What happens to the server: a client connects (what it writes, whether it then closes the connection, whether `fork`
succeeds), or `accept` fails. -/
inductive FsEv where
  | client (s : Str) (closed forks : Bool)
  | acceptFails
  deriving DecidableEq, Repr

/-- qrexec-fork-server.c:146-158, the main loop: what is done for each client that is served, and whether the server still
waits for clients. -/
def fsLoop : List FsEv → List FsOut × Bool
  | [] => ([], true)
  | .acceptFails :: _ => ([], false)
  | .client s closed forks :: es =>
    match fsHandle s closed forks with
    | .blocked => ([.blocked], false)
    | .crash => ([.crash], false)
    | o => let r := fsLoop es; (o :: r.1, r.2)

/-- The process for a request behind its handshake (qrexec-agent-data.c:203-328): the configuration of the service is not
loaded, nothing is replaced in the streams (`replace_chars_stdout` is -1). -/
def fsServe (w : StartWorld) (type : Nat) (cmd : RpcCmd) (version : Nat) : Served :=
  agentServe w type (some (cmd, {})) version false false

end Qrexec
