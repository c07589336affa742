import Verif.Model.DataPath

/-!
# Specification of the data connection
-/
namespace Qrexec

/-- Messages that carry data for the local process (the names are relative to the service). -/
def isDataType (t : Nat) : Bool := t == 0x190 || t == 0x191

/-- Does the item end the data for the local process: an empty data message, or something that breaks the
connection? -/
def endsData (mx : Nat) : InItem → Bool
  | .broken => true
  | .msg t d => decide (d.length > mx) || (isDataType t && d.isEmpty)

/-- The data for the local process: the contents of the data messages up to the first item that ends them. -/
def dataBefore (mx : Nat) : List InItem → Str
  | [] => []
  | i :: q =>
    if endsData mx i then []
    else match i with
      | .broken => []
      | .msg t d => if isDataType t then d ++ dataBefore mx q else dataBefore mx q

/-- Is there an end of file? -/
def hasEof (l : List InItem) : Prop := ∃ t, isDataType t = true ∧ .msg t [] ∈ l

/-- Non-printable characters are replaced if this is asked for. -/
def conv (replace : Bool) (s : Str) : Str := if replace then s.map replaceChar else s

/-- The status of the last exit message of the service. -/
def lastExit : List InItem → Option Int
  | [] => none
  | i :: q => match lastExit q with
    | some x => some x
    | none => match i with
      | .broken => none
      | .msg t d => if t = 0x193 then some (if d.length < 4 then 255 else i32of d) else none

/-- The state of an iteration's result. -/
def IoStep.st : IoStep → IoSt
  | .next s => s
  | .leave s => s
  | .exit1 s => s
  | .abort s => s

/-- The process did not die. -/
def IoStep.alive : IoStep → Prop
  | .next _ => True
  | .leave _ => True
  | _ => False

end Qrexec

namespace Qrexec

/-- The contents of the messages of one type. -/
def outsOf (t : Nat) (l : List DMsg) : List Str := (l.filter fun m => m.1 == t).map Prod.snd

/-- The messages of a type carry `data`, in non-empty pieces, and then an end of file: never while the local descriptor
is open (`isOpen`), at most once, and nothing follows it. If `strict` is true it has been sent when the descriptor is
closed. -/
def Channel (strict : Prop) (t : Nat) (isOpen : Bool) (data : Str) (sent : List DMsg) : Prop :=
  ∃ chunks : List Str, [] ∉ chunks ∧ chunks.flatten = data ∧
    (outsOf t sent = chunks ∧ (strict → isOpen = true) ∨ outsOf t sent = chunks ++ [[]] ∧ isOpen = false)

/-- The contents of the messages for stderr. -/
def stderrData : List InItem → Str
  | [] => []
  | .broken :: q => stderrData q
  | .msg t d :: q => if t = 0x192 then d ++ stderrData q else stderrData q

end Qrexec
