import Verif.Model.Wakeup

/-!
# Sleeping, and what there would be to do
-/
namespace Qrexec.Spec

/-- The loop sleeps: it is in `ppoll` with a timeout, and the vchan would not wake it. -/
def Sleeps (s : WLoop) : Prop := s.pc = .polls false ∧ s.v.event = false

/-- The vchan of the beginning, any state of it; the loop at its top. -/
def Begins (s : WLoop) : Prop := s.pc = .top

end Qrexec.Spec
