import Verif.Model.Str

/-!
# Errors and system information
-/
namespace Qrexec

/-- The exceptions the modelled code can raise.  qrexec/exc.py:25-60: `PolicySyntaxError`
and `RequestError` are subclasses of `AccessDenied` whose `notify` is the default `True`.
The message text is not modelled. -/
inductive Err where
  | accessDenied (notify : Bool)
  | policySyntax
  | requestError
  | keyError
  | attributeError
  | assertion
  | valueError
  | typeError
  | osError
  | unicode
  | recursion
  /-- any other exception, e.g. one raised while talking to the GUI agent -/
  | other
  deriving DecidableEq, Repr

/-- `isinstance(err, AccessDenied)` (qrexec/exc.py:25-60). -/
def Err.isAccessDenied : Err → Bool
  | .accessDenied _ => true
  | .policySyntax => true
  | .requestError => true
  | _ => false

/-- `err.notify` for an `AccessDenied` (qrexec/exc.py:34-36). -/
def Err.notify : Err → Bool
  | .accessDenied n => n
  | _ => true

deriving instance DecidableEq for Except

/-- `if not c: raise e` (also `assert c`). -/
def require (c : Bool) (e : Err) : Except Err Unit := if c then .ok () else .error e

/-- One entry of `system_info["domains"]` (qrexec/utils.py:123-133, and the keys read with
`.get()` in parser.py: `internal`, `relayvm`, `transport_rpc`).
`uuid = none` is a missing key.  The other keys are assumed present, as qubesd always sends
them; `relayvm`/`transport_rpc` being `none` covers both a missing key and `None`. -/
structure Dom where
  name : Str
  uuid : Option Str := none
  tags : List Str := []
  /-- key `type` -/
  cls : Str := c!"AppVM"
  templateForDispvms : Bool := false
  defaultDispvm : Option Str := none
  powerState : Str := c!"Halted"
  internal : Bool := false
  guivm : Option Str := none
  icon : Str := []
  relayvm : Option Str := none
  transportRpc : Option Str := none
  deriving DecidableEq, Repr

/-- `system_info["domains"]`: a dict, in insertion order. -/
abbrev Info := List (Str × Dom)

/-- `info[key]` / `key in info` / `info.get(key)`. -/
def Info.get? : Info → Str → Option Dom
  | [], _ => none
  | (k, d) :: rest, key => if k = key then some d else Info.get? rest key

/-- `key in info`. -/
def Info.has (info : Info) (key : Str) : Bool := (info.get? key).isSome

/-- `info[key]`, raising `KeyError`. -/
def Info.lookup (info : Info) (key : Str) : Except Err Dom :=
  match info.get? key with
  | some d => .ok d
  | none => .error .keyError

/-- `d["uuid"]`, raising `KeyError`. -/
def Dom.getUuid (d : Dom) : Except Err Str :=
  match d.uuid with
  | some u => .ok u
  | none => .error .keyError

/-- `info[key] = d`. -/
def Info.set : Info → Str → Dom → Info
  | [], key, d => [(key, d)]
  | (k, e) :: rest, key, d => if k = key then (k, d) :: rest else (k, e) :: Info.set rest key d

/-- qrexec/utils.py:165-176 `get_system_info`, the part after the JSON is decoded: every
domain gets its own `name`, and a second key `uuid:<uuid>` for the same entry.
(`for i, j in list(inner.items())`.) -/
def addUuidKeys : List (Str × Dom) → Info → Info
  | [], acc => acc
  | (k, d) :: rest, acc =>
    let d' := { d with name := k }
    let acc := acc.set k d'
    match d.uuid with
    | some u => addUuidKeys rest (acc.set (c!"uuid:" ++ u) d')
    | none => addUuidKeys rest acc

/-- qrexec/utils.py:151-176. -/
def getSystemInfo (json : List (Str × Dom)) : Info := addUuidKeys json json

/-- qrexec/utils.py:143-148 `uuid_to_name`. -/
def uuidToName (info : Info) (s : Str) : Except Err Str :=
  if startsWith c!"uuid:" s then do
    let d ← info.lookup s
    return d.name
  else if startsWith c!"@dispvm:uuid:" s then do
    let d ← info.lookup (s.drop 8)
    return c!"@dispvm:" ++ d.name
  else return s

end Qrexec
