import Verif.Model.CDaemon

/-!
# Starting a service in a qube (daemon/qrexec-daemon-common.c, `qrexec_execute_vm`)

What happens outside is given by `ExWorld`; the result is the list of the actions taken, in order,
and the returned value.
-/
namespace Qrexec

/-- The results of `connect_unix_socket` (qrexec-daemon-common.c:239-275): a connection, `-2` (the
daemon of the qube does not run), `-1`. -/
inductive Conn where
  | ok | notRunning | failed
  deriving DecidableEq, Repr

/-- The answers of the outside world. -/
structure ExWorld where
  /-- the bytes qubesd sends for `admin.vm.CreateDisposable`; `none`: it cannot be reached -/
  create : Option Wire
  /-- the first connection to the target's daemon -/
  connect1 : Conn
  /-- the bytes qubesd sends for `admin.vm.Start` -/
  start : Option Wire
  /-- the connection after the start -/
  connect2 : Conn
  /-- domain and port of the target's daemon's reply (`negotiate_connection_params`) -/
  negotiate : Option (Nat × Nat)
  /-- the connection to the source's daemon -/
  source : Bool
  /-- the message could be written to it -/
  send : Bool

/-- Actions. -/
inductive ExAct where
  /-- `admin.vm.CreateDisposable` for this template, asking for a uuid or not -/
  | create (template : Str) (uuid : Bool)
  /-- `admin.vm.Start` -/
  | start (target : Str)
  /-- connect to the daemon of the target -/
  | connect (target : Str)
  /-- send the command to that daemon: `MSG_JUST_EXEC` or `MSG_EXEC_CMDLINE` -/
  | command (type domain : Nat) (cmd : Wire)
  /-- connect to the daemon of the source -/
  | connectSource (domain : Nat)
  /-- send `MSG_SERVICE_CONNECT` to it: domain, port, and the 32 bytes of the identifier -/
  | serviceConnect (domain port : Nat) (ident : Wire)
  /-- wait for the end of the connection -/
  | waitEnd
  /-- `admin.vm.Kill` -/
  | kill (target : Str)
  deriving DecidableEq, Repr

/-- libqrexec/ioall.c:258-342 `qubesd_call2`: which responses are returned to the caller (at most 65534
bytes, at least two, with a NUL byte). -/
def qubesdReply (resp : Option Wire) : Option Wire :=
  match resp with
  | none => none
  | some b => if b.length ≥ 65535 || b.length < 2 || !b.contains '\x00' then none else some b

/-- `memcmp(buf, "0", 2) == 0`. -/
def replyOk (b : Wire) : Bool := startsWith c!"0\x00" b

/-- qrexec-daemon-common.c:143-167: the name of the new disposable, if the response is accepted. -/
def disposableName (uuid : Bool) (b : Wire) : Option Str :=
  if replyOk b then
    if (b.drop 2).contains '\x00' then none
    else if uuid && b.length != 43 then none
    else if uuid && !startsWith c!"uuid:" (b.drop 2) then none
    else some (b.drop 2)
  else none

/-- qrexec-daemon-common.c:174-175. -/
def startOk (b : Wire) : Bool := replyOk b || (decide (b.length ≥ 24) && startsWith c!"2\x00QubesVMNotHaltedError\x00" b)

/-- `strncpy` into the 32 bytes of `service_params.ident` (qrexec-daemon-common.c:289-290). -/
def identField (ident : Str) : Wire :=
  (ident.take 31) ++ List.replicate (32 - (ident.take 31).length) '\x00'

/-- qrexec-daemon-common.c:223-227, from the label `kill`. -/
def exKill (disposable : Bool) (target : Str) (rc : Bool) : List ExAct × Bool :=
  (if disposable then [.kill target] else [], rc)

/-- qrexec-daemon-common.c:187-227, with the result of the (last) connection. -/
def exTalk (disposable : Bool) (target : Str) (remote : Nat) (cmd : Wire) (ident : Str)
    (just wait : Bool) (w : ExWorld) (conn : Conn) : List ExAct × Bool :=
  if conn != .ok then exKill disposable target false
  else
    let a := .command (if just then msgJustExec else msgExec) remote cmd
    match w.negotiate with
    | none => let r := exKill disposable target false; (a :: r.1, r.2)
    | some (domain, port) =>
      let b : List ExAct := [a, .connectSource remote] ++
        (if w.source then [.serviceConnect domain port (identField ident)] else [])
      let rc := w.source && w.send
      if wait then
        let r := exKill disposable target rc
        (b ++ .waitEnd :: r.1, r.2)
      else (b, rc)

/-- qrexec-daemon-common.c:169-186 and the rest. -/
def exRun (disposable : Bool) (target : Str) (autostart : Bool) (remote : Nat) (cmd : Wire) (ident : Str)
    (just wait : Bool) (w : ExWorld) : List ExAct × Bool :=
  let first : List ExAct := if disposable then [] else [.connect target]
  let s := if disposable then .notRunning else w.connect1
  if s == .notRunning && autostart then
    match qubesdReply w.start with
    | none => (first ++ [.start target], false)
    | some b =>
      if startOk b then
        let r := exTalk disposable target remote cmd ident just wait w w.connect2
        (first ++ [.start target, .connect target] ++ r.1, r.2)
      else (first ++ [.start target], false)
  else
    let r := exTalk disposable target remote cmd ident just wait w s
    (first ++ r.1, r.2)

/-- qrexec-daemon-common.c:109-228 `qrexec_execute_vm`.  `cmd` includes the terminating NUL. -/
def executeVm (target : Str) (autostart : Bool) (remote : Nat) (cmd : Wire) (ident : Str)
    (just wait uuid : Bool) (w : ExWorld) : List ExAct × Bool :=
  if cmd.length < 2 || cmd.length > 65535 then ([], false)
  else if startsWith c!"@dispvm:" target then
    if !autostart then ([], false)
    else if just then ([], false)
    else
      let a := .create (target.drop 8) uuid
      match qubesdReply w.create with
      | none => ([a], false)
      | some b =>
        match disposableName uuid b with
        | none => ([a], false)
        | some name =>
          let r := exRun true name autostart remote cmd ident just true w
          (a :: r.1, r.2)
  else exRun false target autostart remote cmd ident just wait w

end Qrexec
