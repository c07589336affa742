import Verif.Spec.VmAgent

/-!
# Who holds the connections of clients of the agent

`handle_new_process` (agent/qrexec-agent-data.c:331-356) forks and the new process goes on in the same program: it neither
executes another one nor closes anything, so it has a copy of every descriptor the agent had then. The descriptors of clients come
from `accept` without SOCK_CLOEXEC (libqrexec/unix-server.c:63-74), so that the program that waits for the session
(agent/qrexec-agent.c:536-574, which closes only one end of its pipe) gets copies too. The service itself is not among these processes: `fix_fds`
closes them (libqrexec/exec.c:222-248, see `Model/Fds`), nor is a process of a fork server.

The kernel lets a client see the end of file when no process has the other end any more.

Simplified: a process ends when the agent reaps it; the program that waits for the session leaves no process behind.
-/
namespace Qrexec
open Spec

/-- The process that is started by an action. -/
def forksProc : VaOut → Option Nat
  | .child p _ => p
  | .session p _ _ => some p
  | _ => none

/-- The descriptors of the agent (`FdUse`: what they are for), and the processes with their copies of them. -/
structure InhState where
  uses : Int → Option FdUse
  procs : List (Nat × (Int → Option FdUse))

/-- An action of the agent; qrexec-agent-data.c:331-356, qrexec-agent.c:551-562: `fork` copies the descriptors. -/
def inhOut (s : InhState) (y : VaOut) : InhState :=
  ⟨useOut s.uses y, s.procs ++ (match forksProc y with | some p => [(p, s.uses)] | none => [])⟩

/-- An event: a process that ends gives up its copies; a client connects. -/
def inhEvent (n : Nat) (s : InhState) (e : VaEv) : InhState :=
  ⟨useEvent n s.uses e, match e with
    | .childExit pid _ => s.procs.filter fun q => q.1 != pid
    | _ => s.procs⟩

/-- One event and what the agent does for it. -/
def inhStep (n : Nat) (s : InhState) (x : VaEv × List VaOut) : InhState := x.2.foldl inhOut (inhEvent n s x.1)

/-- After the first `n` events of a history. -/
def inhAt (h : VaHistory) : Nat → InhState
  | 0 => ⟨fun _ => none, []⟩
  | n + 1 => match h[n]? with
    | some x => inhStep n (inhAt h n) x
    | none => inhAt h n

/-- Does a table have the connection of the client whose request is event `k`? -/
def HasConn (u : Int → Option FdUse) (k : Nat) : Prop := ∃ fd, u fd = some (.request k)

/-- After `n` events, the client whose request is event `k` sees the end of file. -/
def SeesEnd (h : VaHistory) (n k : Nat) : Prop :=
  ¬ HasConn (inhAt h n).uses k ∧ ∀ q ∈ (inhAt h n).procs, ¬ HasConn q.2 k

/-- The same if the agent has ended after `n` events, and the processes `gone` since. -/
def SeesEndWithout (h : VaHistory) (n : Nat) (gone : Nat → Prop) (k : Nat) : Prop :=
  ∀ q ∈ (inhAt h n).procs, ¬ gone q.1 → ¬ HasConn q.2 k

end Qrexec
