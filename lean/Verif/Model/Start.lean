import Verif.Model.VmAgent
import Verif.Model.DataPath
import Verif.Model.ServiceCmd

/-!
What the process that the agent forks for a request does once its data connection is open
(agent/qrexec-agent-data.c:139-328), and its counterpart for calls to dom0 (daemon/qrexec-daemon-common.c:415-462,
499-590).

Simplified: what happens in the child between fork and exec (a failure there is the
exit status of the process).
-/
namespace Qrexec

/-- What the system does. `connects`: the connection to a socket or TCP service succeeds. `forks`: socketpair, pipe and fork
succeed. `writes`: the description of the call can be written to a socket (`MSG_JUST_EXEC` only). -/
structure StartWorld where
  fs : Str → LstatRes
  bufSize : Nat
  pathList : Str
  connects : Bool
  forks : Bool
  writes : Bool
  /-- the descriptor that `open_logger` returns; `none`: it fails -/
  logger : Option Nat := none

/-- Result of `execute_parsed_qubes_rpc_command`: a status other than 0, a process, or a connection whose buffer holds
`first`. -/
inductive ExecRes where
  | fails (status : Int)
  | process
  | socket (first : Str)
  deriving DecidableEq, Repr

/-- exec.c:254-290 `do_fork_exec`. -/
def doForkExec (w : StartWorld) : ExecRes := if w.forks then .process else .fails (-2)

/-- exec.c:677-703 `execute_parsed_qubes_rpc_command`. -/
def executeParsed (w : StartWorld) (cmd : RpcCmd) (sendDesc : Bool) : ExecRes :=
  match cmd.service with
  | some s => match findService w.fs w.bufSize w.pathList true sendDesc w.connects cmd.command s with
    | .notFound => .fails (-1)
    | .failed => .fails (-2)
    | .unix _ first => .socket first
    | .tcp _ _ first => .socket first
    | .exec _ => doForkExec w
  | none => doForkExec w

/-- What the process does next. -/
inductive Served where
  /-- it sends these messages, closes the connection and ends with this status -/
  | atOnce (msgs : List DMsg) (status : Int)
  /-- `qrexec_process_io` -/
  | io (c : IoCfg) (socket hasErr : Bool) (buf : Str)
  /-- it dies -/
  | crash

/-- agent-data.c:139-190 `handle_just_exec`: the exit code. -/
def justExec (w : StartWorld) (cmd : Option VaCmd) : Int :=
  match cmd with
  | none => 125
  | some (c, conf) =>
    match c.service with
    | some s => match findService w.fs w.bufSize w.pathList true conf.sendDescriptor w.connects c.command s with
      | .notFound => 127
      | .failed => 125
      | .unix _ _ => if w.writes then 0 else 125
      | .tcp _ _ _ => if w.writes then 0 else 125
      | .exec _ => if w.forks then 0 else 125
    | none => if w.forks then 0 else 125

/-- agent-data.c:203-328 `handle_new_process_common` behind the handshake; `version` is its result, the two flags are
options of the agent. For an executable service the options for the end of the streams are ignored (exec.c:902-913); a command that is
not a service has none. -/
def agentServe (w : StartWorld) (type : Nat) (cmd : Option VaCmd) (version : Nat) (replaceOut replaceErr : Bool) : Served :=
  if type = 0x201 then .atOnce [(msgExitCode, i32le (justExec w cmd))] 0
  else if type = 0x200 then
    match cmd with
    | none => .atOnce [(msgStdout, []), (msgStderr, []), (msgExitCode, i32le 125)] 125
    | some (c, conf) =>
      match executeParsed w c conf.sendDescriptor with
      | .fails st =>
        let code : Int := if st = -1 then 127 else 125
        .atOnce [(msgStdout, []), (msgStderr, []), (msgExitCode, i32le code)] code
      | .process =>
        .io { isService := true, hasPid := true, replaceOut, replaceErr, maxChunk := maxDataChunk version,
              dup := if c.service.isSome then w.logger else some 0 } false true []
      | .socket first =>
        .io { isService := true, hasPid := false, replaceOut, replaceErr, maxChunk := maxDataChunk version,
              dup := if c.service.isSome then w.logger else some 0,
              exitOnStdinEof := conf.exitOnClientEof, exitOnStdoutEof := conf.exitOnServiceEof } true false first
  else .atOnce [] 0

/-- exec.c:594, 617-619 `service_descriptor_len`: the plus that is appended to a call without argument does not count. -/
def RpcService.descLen (s : RpcService) : Nat := if s.arg.isNone then s.descriptor.length - 1 else s.descriptor.length

/-- open_logger.c:14-24: the words of the process that writes the log of a service. -/
def loggerArgv (s : RpcService) : List Str := [c!"logger", c!"-t", s.descriptor.take s.descLen ++ c!"-" ++ s.source]

/-- daemon-common.c:372-387: the configuration of a service in dom0; it is not read for a command with "nogui:". -/
def dom0Conf (load : RpcService → Option SvcConf) (c : RpcCmd) : Option SvcConf :=
  if c.nogui then some {}
  else match c.service with
    | none => some {}
    | some sv => load sv

/-- daemon-common.c:522-535, 415-429: starting a service in dom0. `none`: the command cannot be parsed. -/
def prepareLocal (w : StartWorld) (load : RpcService → Option SvcConf) (cmd : Option RpcCmd) : ExecRes × SvcConf :=
  match cmd with
  | none => (.fails (-2), {})
  | some c => match dom0Conf load c with
    | none => (.fails (-2), {})
    | some conf => (executeParsed w c conf.sendDescriptor, conf)

/-- daemon-common.c:432-462, 566-590 `handshake_and_go`, behind the handshake, for a call to dom0 (`remote_send_first`): the
messages of `handle_failed_exec`, or `select_loop`. There is no descriptor for stderr, and nothing is replaced. A failure
is logged with `cmd->cmdline` (daemon-common.c:580), which ends the process if the command could not be parsed. -/
def dom0Serve (w : StartWorld) (load : RpcService → Option SvcConf) (cmd : Option RpcCmd) (version : Nat) : Served :=
  match prepareLocal w load cmd with
  | (.fails st, _) =>
    if cmd.isNone then .crash
    else
      let code : Int := if st = -1 then 127 else 125
      .atOnce [(msgStderr, []), (msgStdout, []), (msgExitCode, i32le code)] code
  | (.process, _) => .io { isService := true, hasPid := true, maxChunk := maxDataChunk version } false false []
  | (.socket first, conf) =>
    .io { isService := true, hasPid := false, maxChunk := maxDataChunk version,
          exitOnStdinEof := conf.exitOnClientEof, exitOnStdoutEof := conf.exitOnServiceEof } true false first

end Qrexec
