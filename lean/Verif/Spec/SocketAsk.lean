import Verif.Model.SocketAsk
import Verif.Spec.Agent
import Verif.Spec.Offer
import Verif.Spec.Answer

/-!
# Specification of questions that are answered by the user
-/
namespace Qrexec.Spec
open Qrexec

/-- The rows of the window: the qubes by their names, and a disposable of each template of disposables. -/
def rowsOf (info : Info) : List Str :=
  (info.filter fun p => !startsWith c!"uuid:" p.1).map Prod.fst ++
  (info.filter fun p => !startsWith c!"uuid:" p.1 && p.2.templateForDispvms).map fun p => c!"@dispvm:" ++ p.1

/-- What the window has to show for a question of the policy. -/
def shownQuestion (info : Info) (p : AskParams) : Question :=
  { source := p.source, service := p.service, argument := p.argument, targets := p.targets,
    defaultTarget := p.defaultTarget, icons := rowsOf info }

/-- The user confirmed: pressed OK or Enter, when the window had had the focus for a second. -/
def Confirms (user : List GuiEvent) : Prop :=
  ∃ pre e post, user = pre ++ e :: post ∧ (e = .okPress ∨ e = .activate) ∧ FocusedFor 1000 pre

/-- The text consists of the characters that names may have. -/
def CleanName (s : Str) : Prop := ∀ c ∈ s, alnumChar c = true ∨ c = '@' ∨ c = '_' ∨ c = '-' ∨ c = '.'

end Qrexec.Spec
