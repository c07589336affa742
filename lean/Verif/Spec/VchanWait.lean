import Verif.Model.VchanWait

/-!
# Waiting for a vchan connection: what is claimed
-/
namespace Qrexec.Spec

/-- Nanoseconds. -/
def Tm.ns (t : Tm) : Int := t.sec * 1000000000 + t.nsec

/-- What the clock gives. -/
def Tm.Valid (t : Tm) : Prop := 0 ≤ t.nsec ∧ t.nsec < 1000000000

/-- There is time left in this round; without a limit always. -/
def InTime (timeout : Int) (deadline : Int) (r : VwRound) : Prop :=
  timeout ≤ 0 ∨ ∃ t, r.now = some t ∧ Tm.ns t ≤ deadline

/-- Nothing has happened yet: a signal, something else than data, or the connection is still being made. -/
def GoesOn (isServer : Bool) (r : VwRound) : Prop :=
  r.poll = .eintr ∨ r.poll = .ready false ∨ (r.poll = .ready true ∧ isServer = false ∧ 0 < r.finish)

/-- The connection is there. -/
def VwConnects (isServer : Bool) (r : VwRound) : Prop :=
  r.poll = .ready true ∧ (isServer = true ∨ r.finish = 0)

/-- The time is over: found by the clock or by `ppoll`. -/
def TimeOver (timeout deadline : Int) (r : VwRound) : Prop :=
  (0 < timeout ∧ ∃ t, r.now = some t ∧ deadline < Tm.ns t) ∨ (InTime timeout deadline r ∧ r.poll = .timeout)

end Qrexec.Spec
