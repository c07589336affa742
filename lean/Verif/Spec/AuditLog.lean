import Verif.Model.AuditLog

/-!
# What a record of the log says
-/
namespace Qrexec.Spec

/-- A record that says that the call was let through. -/
def SaysAllowed : LogEntry → Prop
  | .allowed _ _ _ _ _ => True
  | _ => False

/-- A record that says that the call was refused, whatever the reason. -/
def SaysRefused : LogEntry → Prop
  | .noInfo _ _ _ => True
  | .badPolicy _ _ _ => True
  | .denied _ _ _ _ => True
  | _ => False

/-- The call as it reached the policy daemon: service with argument, calling qube, target. -/
def RefusedNames (call source target : Str) : LogEntry → Prop
  | .noInfo c s t => c = call ∧ s = source ∧ t = target
  | .badPolicy c s t => c = call ∧ s = source ∧ t = target
  | .denied c s t _ => c = call ∧ s = source ∧ t = target
  | _ => False

/-- The log written as a file: the records one after the other, each ended by a newline. -/
def logFile (why : Str) (log : List LogEntry) : Str :=
  log.flatMap (fun e => e.text why ++ c!"\n")

/-- `l` is one of the lines of the text `s`. -/
def IsLineOf (l s : Str) : Prop := '\n' ∉ l ∧ ∃ a b, s = a ++ l ++ '\n' :: b ∧
  (a = [] ∨ ∃ a', a = a' ++ c!"\n")

end Qrexec.Spec
