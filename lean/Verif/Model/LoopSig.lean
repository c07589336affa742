/-!
# The main loops of daemon and agent, and the ends of their children

qrexec-daemon.c:1753-1818, 813-847 and qrexec-agent.c:926-1003, 790-820, 746-752: both loops have the same form.  SIGCHLD is
blocked except within `ppoll`.  A step of the program is small enough that a child can end between any two of them.
Not modelled: SIGTERM (the loop ends), failures of `ppoll` other than EINTR, what the handling does (other models); children
that are stopped.
-/
namespace Qrexec

/-- Where the program is. -/
inductive LoopPc where
  /-- at the head of the loop, `if (child_exited)` comes next -/
  | top
  /-- in the loop of `reap_children`, before `waitpid(-1, &status, WNOHANG)` -/
  | reaping
  /-- `waitpid` has returned nothing, `child_exited = 0` comes next -/
  | clearing
  /-- the descriptors are collected -/
  | collecting
  /-- within `ppoll` (SIGCHLD is not blocked) -/
  | polling
  /-- `ppoll` has returned, events are handled; processes may be forked -/
  | handling
  deriving DecidableEq, Repr

/-- The program and its children. `flag` is `child_exited`. -/
structure LoopSt where
  pc : LoopPc := .top
  flag : Bool := false
  /-- SIGCHLD is pending -/
  pending : Bool := false
  alive : List Nat := []
  /-- children that have ended and have not been waited for -/
  ended : List Nat := []
  deriving DecidableEq, Repr

/-- What can be observed: a child is forked, ends, is waited for (and its end handled). -/
inductive LoopEv where
  | forked (p : Nat)
  | dies (p : Nat)
  | waited (p : Nat)
  | tau
  deriving DecidableEq, Repr

/-- The steps.  `ready`: a descriptor is ready, there is a message, or the time is over. -/
inductive LoopStep : LoopSt → LoopEv → LoopSt → Prop where
  /-- the system: a child ends, at any time -/
  | dies {s : LoopSt} {p : Nat} : p ∈ s.alive →
      LoopStep s (.dies p) { s with alive := s.alive.erase p, ended := s.ended ++ [p], pending := true }
  /-- qrexec-daemon.c:1769-1770, qrexec-agent.c:950-951 -/
  | check {s : LoopSt} : s.pc = .top →
      LoopStep s .tau { s with pc := if s.flag then .reaping else .collecting }
  /-- `waitpid` returns some child that has ended -/
  | reap {s : LoopSt} {p : Nat} : s.pc = .reaping → p ∈ s.ended →
      LoopStep s (.waited p) { s with ended := s.ended.erase p }
  /-- `waitpid` returns 0 or fails: there is none -/
  | reaped {s : LoopSt} : s.pc = .reaping → s.ended = [] → LoopStep s .tau { s with pc := .clearing }
  /-- `child_exited = 0` -/
  | clear {s : LoopSt} : s.pc = .clearing → LoopStep s .tau { s with pc := .collecting, flag := false }
  /-- `ppoll` is called -/
  | poll {s : LoopSt} : s.pc = .collecting → LoopStep s .tau { s with pc := .polling }
  /-- within `ppoll` the handler runs, and `ppoll` fails with EINTR: `continue` -/
  | interrupted {s : LoopSt} : s.pc = .polling → s.pending = true →
      LoopStep s .tau { s with pc := .top, flag := true, pending := false }
  /-- `ppoll` returns a descriptor, or the time is over; a pending signal stays pending -/
  | ready {s : LoopSt} : s.pc = .polling → LoopStep s .tau { s with pc := .handling }
  /-- an event is handled with a new process -/
  | fork {s : LoopSt} {p : Nat} : s.pc = .handling → p ∉ s.alive → p ∉ s.ended →
      LoopStep s (.forked p) { s with alive := s.alive ++ [p] }
  /-- all events have been handled -/
  | again {s : LoopSt} : s.pc = .handling → LoopStep s .tau { s with pc := .top }

/-- A run, with what has been observed. -/
inductive LoopRun : List LoopEv → LoopSt → Prop where
  | start : LoopRun [] {}
  | step {tr : List LoopEv} {s s' : LoopSt} {e : LoopEv} : LoopRun tr s → LoopStep s e s' → LoopRun (tr ++ [e]) s'

end Qrexec
