import Verif.Model.SockDir

/-!
# The sockets of the daemons: what is claimed
-/
namespace Qrexec.Spec

/-- Histories: the states that are reached if every state satisfies `P`. -/
inductive SockHistory (P : SockState → Prop) : SockState → Prop
  | empty : P .empty → SockHistory P .empty
  | step {s s' p} : SockHistory P s → SockStep s p s' → P s' → SockHistory P s'

/-- A name of a qube begins with a letter and contains no colon. -/
def QubeName (n : Str) : Prop := (∃ c t, n = c :: t ∧ (('a' ≤ c ∧ c ≤ 'z') ∨ ('A' ≤ c ∧ c ≤ 'Z'))) ∧ ':' ∉ n

/-- All daemons are for qubes with proper names. -/
def Named (s : SockState) : Prop := ∀ p pr, s.procs p = some pr → QubeName pr.ident.name

/-- A domain id is given to one qube only. -/
def IdsUnique (s : SockState) : Prop :=
  ∀ p q pr qr, s.procs p = some pr → s.procs q = some qr → pr.ident.domid = qr.ident.domid → pr.ident = qr.ident

/-- A name belongs to one qube only. -/
def Apart (d e : DaemonFor) : Prop := d.domid ≠ e.domid ∧ d.name ≠ e.name ∧ d.uuid ≠ e.uuid

/-- No two processes that have not ended are for the same qube: the daemon of a qube that starts again is started after the
former one has ended, and none of its children calls `exit`. -/
def OneEach (s : SockState) : Prop :=
  ∀ p q pr qr, p ≠ q → s.procs p = some pr → s.procs q = some qr → pr.phase ≠ .ended → qr.phase ≠ .ended →
    Apart pr.ident qr.ident

end Qrexec.Spec
