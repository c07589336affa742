import Verif.Model.Handshake
import Verif.Model.VchanWait
import Verif.Model.SockDir

/-!
# Starting a daemon (daemon/qrexec-daemon.c, `init`)

Without `--direct` the daemon runs in a child; the process that was started waits for it and reports by its exit status.
-/
namespace Qrexec

/-- isspace in the C locale, at the start of a number (atoi). -/
def atoiSpace (c : Char) : Bool := c == ' ' || ('\t' ≤ c && c ≤ '\r')

/-- `atoi`: white space, a sign, digits. (Numbers that do not fit are undefined behaviour; here they are not cut.) -/
def atoi (s : Str) : Int :=
  match s.dropWhile atoiSpace with
  | '-' :: t => -(tomlNat (t.takeWhile tomlDigit) : Int)
  | '+' :: t => tomlNat (t.takeWhile tomlDigit)
  | t => tomlNat (t.takeWhile tomlDigit)

/-- What is outside. The truth values say whether the system calls succeed. -/
structure DsWorld where
  domid : Int
  /-- QREXEC_STARTUP_TIMEOUT -/
  timeoutVar : Option Str
  /-- QREXEC_STARTUP_NOWAIT is set -/
  nowait : Bool
  /-- `--direct` -/
  direct : Bool
  pipe : Bool
  fork : Bool
  chdir : Bool
  nameLength : Nat
  log : Bool
  dup : Bool
  setsid : Bool
  /-- `libvchan_client_init_async` or `libvchan_client_init` returns something -/
  vchan : Bool
  /-- the clock and the rounds of waiting -/
  clock : Option Tm
  rounds : List VwRound
  /-- what the agent sends -/
  bytes : Str
  setids : Bool
  /-- `create_qrexec_socket` succeeds -/
  sockets : Bool
  signals : Bool
  /-- the byte for the parent can be written -/
  write : Bool

/-- qrexec-daemon.c:303-309: the timeout. -/
def dsTimeout (w : DsWorld) : Int :=
  match w.timeoutVar with
  | none => 60
  | some s => if atoi s ≤ 0 then 60 else atoi s

/-- What the process that becomes the daemon does. -/
inductive DsEv where
  | connected
  | hello (version : Nat)
  | sockets
  /-- the byte for the process that waits -/
  | report (byte : Nat)
  | exit (status : Nat)
  /-- the main loop -/
  | serve
  deriving DecidableEq, Repr

/-- qrexec-daemon.c:425-457: behind the handshake. -/
def dsFinish (w : DsWorld) : List DsEv :=
  if !w.setids then [.exit 1]
  else if !w.sockets then [.exit 1]
  else .sockets ::
    if !w.signals then [.exit 1]
    else if !w.nowait && !w.direct then (if w.write then [.report 0, .serve] else [.exit 1])
    else [.serve]

/-- qrexec-daemon.c:391-424: the connection to the agent. -/
def dsConnect (w : DsWorld) : List DsEv :=
  if !w.nowait && w.vchan && !((waitVchan false (dsTimeout w) w.clock w.rounds).1 == .connected) then
    if (waitVchan false (dsTimeout w) w.clock w.rounds).1 == .waiting then []
    else (if !w.direct && w.write then [.report 1] else []) ++ [.exit 3]
  else if !w.vchan then [.exit 3]
  else .connected ::
    let r := (hsRun controlEnd controlPlan w.bytes).1
    if r.failed || !r.todo.isEmpty then [.exit 1]
    else .hello r.actual :: dsFinish w

/-- qrexec-daemon.c:299-302, 357-457 `init` in the process that becomes the daemon, then `main`. -/
def dsChild (w : DsWorld) : List DsEv :=
  if w.domid ≤ 0 then [.exit 1]
  else if !w.chdir then [.exit 1]
  else if !w.direct && (w.nameLength + 26 ≥ 256 || !w.log || !w.dup || !w.setsid) then [.exit 1]
  else dsConnect w

/-- qrexec-daemon.c:326-354: the status of the process that waits, when the child has done `done` and then (`ended`) has
ended, or not. `none`: it waits. -/
def dsWait (done : List DsEv) (ended : Bool) : Option Nat :=
  match done.filterMap (fun | .report b => some b | _ => none) with
  | 0 :: _ => some 0
  | 1 :: _ => some 3
  | _ :: _ => some 134
  | [] => if ended then some 1 else none

/-- qrexec-daemon.c:289-355 in the process that was started, without `--direct`. -/
def dsParent (w : DsWorld) (done : List DsEv) (ended : Bool) : Option Nat :=
  if w.domid ≤ 0 then some 1
  else if !w.nowait && !w.pipe then some 1
  else if !w.fork then some 1
  else if w.nowait then some 0
  else dsWait done ended

end Qrexec
