import Verif.Model.Fds

/-!
File descriptors of the programs that are not started by `do_fork_exec` (for those: `Model/Fds`): the local program of
qrexec-client-vm (agent/qrexec-client-vm.c:265-330), a command whose output nobody waits for (agent/qrexec-agent-data.c:139-190) with the
logger of its stderr (libqrexec/open_logger.c), and qrexec-policy-exec, which the daemon starts when the policy daemon does
not answer (daemon/qrexec-daemon.c:1182-1199, 1060-1160).

Simplified: as in `Model/Fds`, opening, copying an open descriptor and `fork` succeed. Numbers above INT_MAX.
-/
namespace Qrexec

/-- A new descriptor that `execve` does not close. -/
def fdOpenKeep (t : FdTable) (file : FdFile) : FdTable × Nat := (fdSet t (fdFree t) (some ⟨file, false⟩), fdFree t)

/-- dup(2). -/
def fdDup (t : FdTable) (a : Nat) : Option (FdTable × Nat) :=
  match fdGet t a with
  | none => none
  | some e => some (fdOpenKeep t e.file)

/-- log.c:83-89 `setup_logging`, called at the start of each C program: the descriptor because of which it exits with 125. -/
def stdClosed (t : FdTable) : Option Nat := [0, 1, 2].find? fun n => (fdGet t n).isNone

/-- qrexec-client-vm.c:312-320: copies of the original streams, and the variables `SAVED_FD_i=n`. `pass`: PASS_LOCAL_STDERR is set.
`none`: the process exits. -/
def saveFds (pass : Bool) : List Nat → FdTable → Option (FdTable × List (Nat × Nat))
  | [], t => some (t, [])
  | i :: is, t =>
    if i ≠ 2 ∨ pass = true then match fdDup t i with
      | none => none
      | some (t1, n) => match saveFds pass is t1 with
        | none => none
        | some (t2, l) => some (t2, (i, n) :: l)
    else saveFds pass is t

/-- A program that has been started, and the process that started it. -/
structure LocalFds where
  /-- the table of the process that started it -/
  table : FdTable
  stdin : Nat
  stdout : Nat
  trigger : Nat
  /-- the table of the program, and the copies of the original streams; `none`: it was not started -/
  child : Option (FdTable × List (Nat × Nat))
  deriving DecidableEq, Repr

/-- qrexec-client-vm.c:309-330, in the new process. -/
def clientVmChild (pass : Bool) (t : FdTable) (in0 in1 out0 out1 trigger : Nat) : Option (FdTable × List (Nat × Nat)) :=
  match saveFds pass [0, 1, 2] (fdSet (fdSet (fdSet t in1 none) out0 none) trigger none) with
  | none => none
  | some (t1, saved) => match fdDup2 t1 in0 0 with
    | none => none
    | some t2 => match fdDup2 t2 out1 1 with
      | none => none
      | some t3 => some (fdExec (fdSet (fdSet t3 in0 none) out1 none), saved)

/-- What qrexec-client-vm with a local program does. -/
inductive LocalRun where
  | exits125 (n : Nat)
  | runs (l : LocalFds)
  deriving DecidableEq, Repr

/-- qrexec-client-vm.c:155, 265, 297-334; `trig`: the connection to the agent (57, without SOCK_CLOEXEC). The pairs are without
SOCK_CLOEXEC, too. -/
def clientVmRun (pass : Bool) (trig : Nat) (t : FdTable) : LocalRun :=
  match stdClosed t with
  | some n => .exits125 n
  | none =>
    let (t0, trigger) := fdOpenKeep t (.other trig)
    let (t1, in0) := fdOpenKeep t0 .inService
    let (t2, in1) := fdOpenKeep t1 .inAgent
    let (t3, out0) := fdOpenKeep t2 .outAgent
    let (t4, out1) := fdOpenKeep t3 .outService
    .runs { table := fdSet (fdSet t4 in0 none) out1 none, stdin := in1, stdout := out0, trigger := trigger
            child := clientVmChild pass t4 in0 in1 out0 out1 trigger }

/-- qrexec-agent-data.c:165-180, in the new process, and open_logger.c:8-38: the command, and the logger if there is one (`log`: the
command is a service). `null`: /dev/null, opened without O_CLOEXEC. -/
def justExecFds (cr : CloseRange) (log : Bool) (null : Nat) (t : FdTable) : FixRes × Option FixRes :=
  let (t1, fdn) := fdOpenKeep t (.other null)
  if log then
    let (t2, r) := fdOpen t1 .errAgent
    let (t3, w) := fdOpen t2 .errService
    (fixFds cr (fdSet t3 r none) fdn fdn w, some (fixFds cr t3 r 1 2))
  else (fixFds cr t1 fdn fdn fdn, none)

/-- qrexec-daemon.c:1191-1198: closing, in the process that serves a request. -/
def daemonClose (cr : CloseRange) (t : FdTable) : FdTable :=
  match cr with
  | .ok => t.take 3
  | _ => t.take 3 ++ List.replicate ((t.take 256).length - (t.take 3).length) none ++ t.drop 256

/-- qrexec-daemon.c:1104-1121, 1151-1154: qrexec-policy-exec (`none`: not started), and what the process that waits for its answer
has. `inService`, `inAgent`: the ends of the pair. -/
def policyExecFds (cr : CloseRange) (t : FdTable) : Option FdTable × FdTable :=
  let t0 := daemonClose cr t
  let (t1, a) := fdOpen t0 .inAgent
  let (t2, b) := fdOpen t1 .inService
  (match fdDup2 (fdSet t2 a none) b 0 with
   | none => none
   | some u => match fdDup2 u b 1 with
     | none => none
     | some v => some (fdExec (fdSet v b none)),
   fdSet t2 b none)

end Qrexec
