import Verif.Model.Connect
import Verif.Spec.ServiceCmd

/-!
# Connecting to the socket of a service: what is claimed
-/
namespace Qrexec.Spec

/-- A path from the root. -/
def Absolute (p : Str) : Prop := ∃ q, p = '/' :: q

/-- The address leads to the file at this path: it is the path, or a link to it. A link with a relative path leads elsewhere. -/
def LeadsTo (fs : TmpFs) (addr path : Str) : Prop := addr = path ∨ fs addr = some (.link path) ∧ Absolute path

/-- `mkdtemp` makes a directory that did not exist; there was nothing in it. -/
def FreshTmp (fs : TmpFs) (x : Str) : Prop := x.length = 6 ∧ ∀ p, c!"/tmp/qrexec-" ++ x <+: p → fs p = none

/-- The open descriptors after an event. -/
def fdStep (s : List Nat) : NetEv → List Nat
  | .opened fd => s ++ [fd]
  | .closed fd => s.filter (· ≠ fd)
  | _ => s

/-- The descriptors that are open after the events. -/
def openFds (l : List NetEv) : List Nat := l.foldl fdStep []

/-- The calls of `connect` were interrupted or would have blocked, until the last one, which gave this. -/
def Attempts (calls : List ConnCall) (n : Nat) (last : ConnCall) : Prop :=
  last ≠ .again ∧ ∃ rest, calls = List.replicate n .again ++ last :: rest

end Qrexec.Spec
