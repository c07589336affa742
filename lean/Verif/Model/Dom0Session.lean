import Verif.Model.Start

/-!
# Waiting for the session in dom0 (daemon/qrexec-daemon-common.c:372-414, libqrexec/exec.c:931-948)

The process that serves a call to dom0 and the process that waits for the session are separate, and their steps interleave. The process has no
other children at this point (`local_pid` is still 0 then: `waitpid` waits for any child of its process group), and
signals do not interrupt it: SIGCHLD is blocked in the child of a daemon, the others are at their default.
-/
namespace Qrexec

/-- The process that serves the call. -/
inductive SwPhase where
  | deciding
  | waiting
  /-- `true`: the service is started (`prepare_local_fds`, or `find_qrexec_service` in qrexec-client) -/
  | started
  /-- `false`: the call fails -/
  | refused
  deriving DecidableEq, Repr

/-- The process that waits for the session. `grouped`: it is in the process group of its parent. -/
inductive SwChild where
  | none
  /-- behind `fork` -/
  | searching
  | running (path : Str) (grouped : Bool)
  /-- `ran`: the program has been executed -/
  | ended (ran grouped : Bool)
  deriving DecidableEq, Repr

structure SwState where
  phase : SwPhase
  child : SwChild
  deriving DecidableEq, Repr

/-- What is fixed: the configuration files, the file system, QREXEC_SERVICE_PATH. -/
structure SwWorld where
  load : RpcService → Option SvcConf
  fs : Str → LstatRes
  pathList : Str

/-- exec.c:936-943: the program, with a buffer of 256 bytes. -/
def sessionProgram (w : SwWorld) : Option Str :=
  match findFile false w.fs 256 w.pathList c!"qubes.WaitForSession" with
  | .found p _ => some p
  | _ => none

/-- A step of one of the two processes, or of the system. -/
inductive SwStep (w : SwWorld) (c : RpcCmd) : SwState → SwState → Prop where
  /-- daemon-common.c:377-383: "nogui:", or not a service -/
  | plain (h : c.nogui = true ∨ c.service = none) : SwStep w c ⟨.deciding, .none⟩ ⟨.started, .none⟩
  /-- daemon-common.c:385-387 -/
  | unreadable (s : RpcService) (h : c.nogui = false) (hs : c.service = some s) (hl : w.load s = none) :
      SwStep w c ⟨.deciding, .none⟩ ⟨.refused, .none⟩
  /-- daemon-common.c:389-391 -/
  | unneeded (s : RpcService) (conf : SvcConf) (h : c.nogui = false) (hs : c.service = some s) (hl : w.load s = some conf)
      (hw : conf.waitForSession = false) : SwStep w c ⟨.deciding, .none⟩ ⟨.started, .none⟩
  /-- daemon-common.c:400-402 -/
  | forkFails (s : RpcService) (conf : SvcConf) (h : c.nogui = false) (hs : c.service = some s) (hl : w.load s = some conf)
      (hw : conf.waitForSession = true) : SwStep w c ⟨.deciding, .none⟩ ⟨.refused, .none⟩
  /-- daemon-common.c:393-405 -/
  | forks (s : RpcService) (conf : SvcConf) (h : c.nogui = false) (hs : c.service = some s) (hl : w.load s = some conf)
      (hw : conf.waitForSession = true) : SwStep w c ⟨.deciding, .none⟩ ⟨.waiting, .searching⟩
  /-- exec.c:931-948 `exec_wait_for_session`; it is executed also if the file cannot be executed, see `cannot` -/
  | executes (ph : SwPhase) (p : Str) (h : sessionProgram w = some p) : SwStep w c ⟨ph, .searching⟩ ⟨ph, .running p true⟩
  /-- daemon-common.c:398-399: nothing is found, or it cannot be executed -/
  | cannot (ph : SwPhase) : SwStep w c ⟨ph, .searching⟩ ⟨ph, .ended false true⟩
  /-- the program gets into another process group (setsid, setpgid) -/
  | leaves (ph : SwPhase) (p : Str) : SwStep w c ⟨ph, .running p true⟩ ⟨ph, .running p false⟩
  | ends (ph : SwPhase) (p : Str) (g : Bool) : SwStep w c ⟨ph, .running p g⟩ ⟨ph, .ended true g⟩
  /-- daemon-common.c:407-409: the status is only logged -/
  | waited (ran : Bool) : SwStep w c ⟨.waiting, .ended ran true⟩ ⟨.started, .ended ran true⟩
  /-- daemon-common.c:410-411: `waitpid(0, ...)` fails if there is no child in the process group; this is only logged -/
  | echild (ch : SwChild) (h : (∃ p, ch = .running p false) ∨ ∃ r, ch = .ended r false) : SwStep w c ⟨.waiting, ch⟩ ⟨.started, ch⟩

/-- Reachable states. -/
inductive SwReach (w : SwWorld) (c : RpcCmd) : SwState → Prop where
  | start : SwReach w c ⟨.deciding, .none⟩
  | step {s s' : SwState} : SwReach w c s → SwStep w c s s' → SwReach w c s'

end Qrexec
