import Verif.Model.Admin

/-!
# Concurrent requests to the policy admin API

Each request is handled by its own process (qrexec/tools/qubes_policy_admin.py), which takes the
lock of the policy directory (admin.py:163-175), reads and checks, and then writes.  The kernel
gives an exclusive `flock` to one process at a time and releases it when the process ends, by
whatever cause.  A step of the model is: getting the lock, all the reading and checking, one file
system operation, releasing the lock, or a process being killed.  (Simplification: the reads of
one request are one step; they happen while the lock is held, and `C31_lock_excludes` shows that
nothing else changes the disk meanwhile.)
-/
namespace Qrexec

/-- What a process does once it holds the lock: what it reads decides what it answers and which
operations it performs. -/
abbrev Prog := Disk → Except AdminErr Plan

/-- Executing a program alone: the file system afterwards and the answer or exception. -/
def runPlan (d : Disk) (prog : Prog) : Disk × Except AdminErr (Option Bytes) :=
  match prog d with
  | .error e => (d, .error e)
  | .ok (reply, ws) =>
    match runWrites d ws with
    | (d', none) => (d', .ok reply)
    | (d', some e) => (d', .error (.internal e))

/-- A request as qubes_policy_admin.py gets it: service, argument, standard input. -/
structure Req where
  service : Str
  arg : Str
  payload : Bytes

/-- The processes when process `i` handles the request `reqs i` (admin.py:114-153). -/
def clients (h : Host) (c : AdminConf) (reqs : Nat → Req) (i : Nat) : Prog := fun d =>
  adminPlan h c d (reqs i).service (reqs i).arg (reqs i).payload

/-- Where a process is. -/
inductive Proc where
  /-- before `flock` returns (admin.py:171) -/
  | waiting
  /-- holds the lock, reading and checking -/
  | locked
  /-- holds the lock; `reply` will be returned, `ws` are the operations still to do -/
  | writing (reply : Option Bytes) (ws : List Write)
  /-- has returned or raised -/
  | done (r : Except AdminErr (Option Bytes))
  | killed

/-- Does the process hold the lock? -/
def Proc.holds : Proc → Bool
  | .locked => true
  | .writing _ _ => true
  | _ => false

/-- The disk and the processes. -/
structure World where
  disk : Disk
  proc : Nat → Proc

/-- `s.proc` with process `i` in another place. -/
def World.set (s : World) (i : Nat) (p : Proc) : Nat → Proc := fun j => if j = i then p else s.proc j

/-- What is recorded of an execution: a process returned or raised, or it was killed. -/
inductive Ev where
  | ended (i : Nat) (r : Except AdminErr (Option Bytes))
  | killed (i : Nat)

/-- One step of the processes; process `i` executes `prog i` (admin.py:152-153, 163-175,
and the writes of `handleAdmin`). -/
inductive ConcStep (prog : Nat → Prog) : World → Option Ev → World → Prop
  /-- `flock` returns: no other process holds the lock. -/
  | acquire {s i} : s.proc i = .waiting → (∀ j, (s.proc j).holds = false) →
      ConcStep prog s none ⟨s.disk, s.set i .locked⟩
  /-- reading and checking succeed -/
  | plan {s i reply ws} : s.proc i = .locked →
      prog i s.disk = .ok (reply, ws) →
      ConcStep prog s none ⟨s.disk, s.set i (.writing reply ws)⟩
  /-- an exception before the first write -/
  | refuse {s i e} : s.proc i = .locked →
      prog i s.disk = .error e →
      ConcStep prog s (some (.ended i (.error e))) ⟨s.disk, s.set i (.done (.error e))⟩
  /-- one file system operation -/
  | write {s i reply w ws d'} : s.proc i = .writing reply (w :: ws) → s.disk.apply w = .ok d' →
      ConcStep prog s none ⟨d', s.set i (.writing reply ws)⟩
  /-- a file system operation fails -/
  | fail {s i reply w ws e} : s.proc i = .writing reply (w :: ws) → s.disk.apply w = .error e →
      ConcStep prog s (some (.ended i (.error (.internal e))))
        ⟨s.disk, s.set i (.done (.error (.internal e)))⟩
  /-- the method returns -/
  | finish {s i reply} : s.proc i = .writing reply [] →
      ConcStep prog s (some (.ended i (.ok reply))) ⟨s.disk, s.set i (.done (.ok reply))⟩
  /-- a process is killed before it ends -/
  | kill {s i} : (∀ r, s.proc i ≠ .done r) → s.proc i ≠ .killed →
      ConcStep prog s (some (.killed i)) ⟨s.disk, s.set i .killed⟩

/-- An execution and its recorded events. -/
inductive ConcRun (prog : Nat → Prog) (s0 : World) :
    List Ev → World → Prop
  | start : ConcRun prog s0 [] s0
  | step {evs s ev s'} : ConcRun prog s0 evs s → ConcStep prog s ev s' →
      ConcRun prog s0 (evs ++ ev.toList) s'

end Qrexec
