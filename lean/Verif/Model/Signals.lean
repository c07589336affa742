/-!
# With which signals programs are started

The calls of `signal`, `sigaction` and `sigprocmask` on the way from the start of a long running process to `execve` in its
descendants. `fork` copies the state.  Not modelled: pending signals (`C101` is about them), and the flags of handlers.
-/
namespace Qrexec

/-- Signals. -/
inductive Sig where
  | chld | pipe | term | usr1
  | other (n : Nat)
  deriving DecidableEq, Repr

/-- signal(7): what is done for a signal. -/
inductive Disp where
  | dfl | ign | handler
  deriving DecidableEq, Repr

/-- The signals of a process. -/
structure SigState where
  blocked : Sig → Bool
  disp : Sig → Disp

/-- Calls. -/
inductive SigOp where
  /-- `sigprocmask(SIG_BLOCK)` of one signal -/
  | block (s : Sig)
  /-- `sigprocmask(SIG_SETMASK)` of the empty set -/
  | clear
  /-- `signal`, `sigaction` -/
  | set (s : Sig) (d : Disp)
  deriving DecidableEq, Repr

/-- The effect of a call. -/
def sigDo (st : SigState) : SigOp → SigState
  | .block s => { st with blocked := fun x => if x = s then true else st.blocked x }
  | .clear => { st with blocked := fun _ => false }
  | .set s d => { st with disp := fun x => if x = s then d else st.disp x }

/-- `execve`: handlers are reset, all else is kept. -/
def sigExec (st : SigState) : SigState :=
  { st with disp := fun x => if st.disp x = .handler then .dfl else st.disp x }

/-- qrexec-agent.c:926-939 `main` of the agent. -/
def sigAgent : List SigOp := [.set .chld .handler, .set .term .handler, .set .pipe .ign, .block .chld]

/-- qrexec-agent-data.c:74-84 `prepare_child_env`. -/
def sigData : List SigOp := [.set .chld .handler, .set .usr1 .handler]

/-- exec.c:278 `do_fork_exec`. -/
def sigForkExec : List SigOp := [.set .pipe .dfl]

/-- qrexec-agent.c:155-158 `do_exec` of the agent. -/
def sigAgentDoExec : List SigOp := [.clear, .set .chld .dfl, .set .pipe .dfl]

/-- qrexec-fork-server.c:140-141 `main` of the fork server. -/
def sigForkServer : List SigOp := [.set .chld .ign, .set .pipe .ign]

/-- qrexec-fork-server.c:44-45 `do_exec` of the fork server. -/
def sigForkDoExec : List SigOp := [.set .chld .dfl, .set .pipe .dfl]

/-- qrexec-daemon.c:446-451 (`init`), 1753-1756 (`main`), 1307 (`handle_execute_service`): the daemon and the child for a
request. -/
def sigDaemonChild : List SigOp :=
  [.set .pipe .ign, .set .chld .handler, .set .term .handler, .block .chld, .set .term .dfl]

/-- daemon-common.c:420-426 `prepare_local_fds`. -/
def sigPrepareLocal : List SigOp := [.set .chld .handler]

/-- qrexec-client.c:261, qrexec-client-vm.c:158. -/
def sigClient : List SigOp := [.set .pipe .ign]

/-- Programs that are started. -/
inductive Launch where
  /-- by the agent: a service or a command with a data connection (agent-data.c:246, exec.c:254-290) -/
  | agentService
  /-- by the agent: one without (`MSG_JUST_EXEC`, agent-data.c:163-178) -/
  | agentJust
  /-- by the agent: qubes.WaitForSession (qrexec-agent.c:551-562) -/
  | agentSession
  /-- by the fork server, both cases -/
  | forkService
  | forkJust
  /-- by qrexec-client-vm: the local program (qrexec-client-vm.c:287-330) -/
  | clientVmLocal
  /-- by qrexec-client: the local program, or a service in dom0 called with `-c` -/
  | clientLocal
  /-- by qrexec-client: a service in dom0 called from dom0 (qrexec-client.c:337) -/
  | clientDom0
  /-- by qrexec-client: qubes.WaitForSession in dom0 (daemon-common.c:393-399) -/
  | clientSession
  /-- by the daemon: a service in dom0 called by a qube -/
  | daemonService
  /-- by the daemon: qubes.WaitForSession in dom0 -/
  | daemonSession
  deriving DecidableEq, Repr

/-- The calls up to `execve`, from the start of the agent, fork server, daemon or client. -/
def Launch.ops : Launch → List SigOp
  | .agentService => sigAgent ++ sigData ++ sigForkExec ++ sigAgentDoExec
  | .agentJust => sigAgent ++ sigData ++ sigAgentDoExec
  | .agentSession => sigAgent ++ [.clear]
  | .forkService => sigForkServer ++ sigData ++ sigForkExec ++ sigForkDoExec
  | .forkJust => sigForkServer ++ sigData ++ sigForkDoExec
  | .clientVmLocal => sigClient ++ sigData
  | .clientLocal => sigClient ++ sigPrepareLocal ++ sigForkExec
  | .clientDom0 => sigClient
  | .clientSession => sigClient
  | .daemonService => sigDaemonChild ++ sigPrepareLocal ++ sigForkExec
  | .daemonSession => sigDaemonChild

/-- The signals of the program when it starts. -/
def Launch.signals (l : Launch) (init : SigState) : SigState := sigExec (l.ops.foldl sigDo init)

end Qrexec
