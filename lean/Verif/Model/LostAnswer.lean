import Verif.Model.LoopSig

/-!
# The daemon and the ends of the processes it has forked for requests

qrexec-daemon.c:1762-1812 (the main loop), 813-847 (`reap_children`), 518-535, 606-617, 717-774 (the connection of such a process), 1200-1264
(what it does) and qrexec-daemon-common.c:209-219, 277-299: for a call to another qube that the policy grants the process connects to its own
daemon, sends its hello and MSG_SERVICE_CONNECT, and ends. The steps of the loop are those of Model/LoopSig; here with what is read when.
Simplifications: requests have different identifiers (else see Model/CDaemon); other clients and the messages of the agent, as far as they do
not fork, do not appear; `ppoll` looks at all descriptors at one moment.
-/
namespace Qrexec

/-- A process for a request. -/
inductive AwProc where
  | none
  | working
  /-- it has ended; `ok`: its status is 0 -/
  | ended (ok : Bool)
  | reaped
  deriving DecidableEq, Repr

/-- How far it is with its daemon. `stage`: 1 connecting, 2 accepted, 3 has sent its hello, 4 has sent MSG_SERVICE_CONNECT. `read`: how many of
these two messages the daemon has read. `pending`: its entry in `policy_pending` has RESPONSE_PENDING. -/
structure AwKid where
  proc : AwProc := .none
  stage : Nat := 0
  read : Nat := 0
  pending : Bool := false
  deriving DecidableEq, Repr

/-- There is something to read on its connection. -/
def AwKid.unread (k : AwKid) : Bool := decide (k.read + 2 < k.stage)

/-- The daemon. `room`: the vchan has room, so the sockets are polled in this round. `reported k`: `ppoll` reported the connection of `k`. -/
structure AwSt where
  pc : LoopPc := .top
  flag : Bool := false
  signal : Bool := false
  room : Bool := true
  kids : Nat → AwKid := fun _ => {}
  reported : Nat → Bool := fun _ => false

/-- What is observed. -/
inductive AwEv where
  | tau
  | forked (k : Nat)
  /-- `k` has sent MSG_SERVICE_CONNECT: the service has been started -/
  | sent (k : Nat)
  | ended (k : Nat) (ok : Bool)
  /-- `ppoll` was interrupted by the signal -/
  | interrupted (room : Bool)
  /-- `waitpid` returned `k`; `refused`: MSG_SERVICE_REFUSED is sent to the agent -/
  | reaped (k : Nat) (ok refused : Bool)
  /-- MSG_SERVICE_CONNECT is passed on to the agent -/
  | answered (k : Nat)
  /-- it is not: "not requested or already handled" -/
  | ignored (k : Nat)
  deriving DecidableEq, Repr

/-- A change of one process. -/
def AwSt.set (s : AwSt) (k : Nat) (x : AwKid) : AwSt := { s with kids := fun j => if j = k then x else s.kids j }

/-- The steps. -/
inductive AwStep : AwSt → AwEv → AwSt → Prop where
  /-- a request of the agent (qrexec-daemon.c:1281-1318); the number is new -/
  | fork {s : AwSt} {k : Nat} : s.pc = .handling → (s.kids k).proc = .none →
      AwStep s (.forked k) (s.set k { proc := .working, pending := true })
  /-- `connect` (qrexec-daemon-common.c:266) -/
  | connect {s : AwSt} {k : Nat} : (s.kids k).proc = .working → (s.kids k).stage = 0 →
      AwStep s .tau (s.set k { s.kids k with stage := 1 })
  /-- `handle_new_client` -/
  | accept {s : AwSt} {k : Nat} : s.pc = .handling → s.room = true → (s.kids k).stage = 1 →
      AwStep s .tau (s.set k { s.kids k with stage := 2 })
  /-- the hello of the process -/
  | hello {s : AwSt} {k : Nat} : (s.kids k).proc = .working → (s.kids k).stage = 2 →
      AwStep s .tau (s.set k { s.kids k with stage := 3 })
  /-- `send_service_connect` -/
  | send {s : AwSt} {k : Nat} : (s.kids k).proc = .working → (s.kids k).stage = 3 →
      AwStep s (.sent k) (s.set k { s.kids k with stage := 4 })
  /-- the process ends; with 0 only if it has sent all -/
  | ends {s : AwSt} {k : Nat} {ok : Bool} : (s.kids k).proc = .working → (ok = true → (s.kids k).stage = 4) →
      AwStep s (.ended k ok) { s.set k { s.kids k with proc := .ended ok } with signal := true }
  /-- qrexec-daemon.c:1766 -/
  | check {s : AwSt} : s.pc = .top → AwStep s .tau { s with pc := if s.flag then .reaping else .collecting }
  /-- one round of `reap_children` -/
  | reap {s : AwSt} {k : Nat} {ok : Bool} : s.pc = .reaping → (s.kids k).proc = .ended ok →
      AwStep s (.reaped k ok (!ok && (s.kids k).pending)) (s.set k { s.kids k with proc := .reaped, pending := false })
  /-- nothing is left to wait for -/
  | allReaped {s : AwSt} : s.pc = .reaping → (∀ k ok, (s.kids k).proc ≠ .ended ok) → AwStep s .tau { s with pc := .clearing }
  /-- `child_exited = 0` -/
  | clear {s : AwSt} : s.pc = .clearing → AwStep s .tau { s with pc := .collecting, flag := false }
  /-- the descriptors are collected; is there room in the vchan? -/
  | collect {s : AwSt} (room : Bool) : s.pc = .collecting → AwStep s .tau { s with pc := .polling, room := room }
  /-- the signal: only if none of the descriptors is ready -/
  | interrupted {s : AwSt} : s.pc = .polling → s.signal = true →
      (s.room = true → ∀ k, (s.kids k).stage ≠ 1 ∧ (s.kids k).unread = false) →
      AwStep s (.interrupted s.room) { s with pc := .top, flag := true, signal := false }
  /-- descriptors are ready, or the time is over -/
  | ready {s : AwSt} : s.pc = .polling →
      AwStep s .tau { s with pc := .handling, reported := fun k => s.room && (s.kids k).unread }
  /-- the hello is read -/
  | readHello {s : AwSt} {k : Nat} : s.pc = .handling → s.reported k = true → (s.kids k).read = 0 →
      AwStep s .tau { s.set k { s.kids k with read := 1 } with reported := fun j => if j = k then false else s.reported j }
  /-- MSG_SERVICE_CONNECT is read, and the entry is there (qrexec-daemon.c:606-617) -/
  | readFound {s : AwSt} {k : Nat} : s.pc = .handling → s.reported k = true → (s.kids k).read = 1 → (s.kids k).pending = true →
      AwStep s (.answered k)
        { s.set k { s.kids k with read := 2, pending := false } with reported := fun j => if j = k then false else s.reported j }
  /-- … and is not -/
  | readGone {s : AwSt} {k : Nat} : s.pc = .handling → s.reported k = true → (s.kids k).read = 1 → (s.kids k).pending = false →
      AwStep s (.ignored k)
        { s.set k { s.kids k with read := 2 } with reported := fun j => if j = k then false else s.reported j }
  /-- all have been handled -/
  | again {s : AwSt} : s.pc = .handling → (∀ k, s.reported k = false) → AwStep s .tau { s with pc := .top }

/-- A run, with what has been observed. -/
inductive AwRun : List AwEv → AwSt → Prop where
  | start : AwRun [] {}
  | step {tr : List AwEv} {s s' : AwSt} {e : AwEv} : AwRun tr s → AwStep s e s' → AwRun (tr ++ [e]) s'

end Qrexec
