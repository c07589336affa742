import Verif.Model.Rule

/-!
# Printing rules
-/
namespace Qrexec

/-- `if self.x: return_str += f" {key}={self.x}"` for an optional string (parser.py:1173-1176, 1265-1270): an empty text
counts as absent. -/
def printParam (key : Str) : Option Str → Str
  | none => []
  | some v => if v.isEmpty then [] else c!" " ++ key ++ c!"=" ++ v

/-- parser.py:1121-1122 `Deny.__str__`, 1171-1177 `Allow.__str__`, 1263-1271 `Ask.__str__`. -/
def Action.print : Action → Str
  | .deny _ => c!"deny"
  | .allow t u _ _ => c!"allow" ++ printParam c!"target" (t.map Token.str) ++ printParam c!"user" u
  | .ask t d u _ _ => c!"ask" ++ printParam c!"target" (t.map Token.str) ++
      printParam c!"default_target" (d.map Token.str) ++ printParam c!"user" u

/-- The argument column of `Rule.__str__` (parser.py:1475-1478). -/
def printArgument : Option Str → Str
  | none => c!"*"
  | some a => if a.isEmpty then c!"*" else a

/-- parser.py:1473-1480 `Rule.__str__`.  The service of a rule for all services is the Python object `None`. -/
def Rule.print (r : Rule) : Str :=
  r.service.getD c!"None" ++ c!"\t" ++ printArgument r.argument ++ c!"\t" ++ r.source.str ++ c!"\t" ++ r.target.str ++
    c!"\t" ++ r.action.print

end Qrexec
