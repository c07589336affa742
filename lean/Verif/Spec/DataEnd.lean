import Verif.Spec.DataPath

/-!
# The end of a connection: what is claimed
-/
namespace Qrexec.Spec

/-- The other end is gone and nothing arrives any more. -/
def Gone (t : Tick) : Prop := t.vchanOpen = false ∧ t.arrive = []

/-- `ppoll` works: it is neither interrupted nor fails, and the event of the vchan can be taken. -/
def Works (t : Tick) : Prop := t.poll = .ready ∧ t.waitFails = false

/-- The bytes for the local process that are still here. -/
def pendingBytes (s : IoSt) : Nat :=
  s.buf.length + (s.inbox.map fun i => match i with | .broken => 0 | .msg _ d => d.length).sum

/-- The local process takes everything. -/
def Takes (n : Nat) (t : Tick) : Prop := (∀ k ∈ t.writes, ∃ m, k = .part m) ∧ n ≤ t.writes.length

end Qrexec.Spec
