import Verif.Model.Json
import Verif.Model.Admin
import Verif.Model.PolicyDaemon

/-!
# Calls to qubesd (qrexec/utils.py:88-176)
-/
namespace Qrexec

/-- Why `get_system_info` raises. -/
inductive SysErr where
  /-- `QubesMgmtException(exc_type)` -/
  | mgmt (excType : Str)
  | value | unicode | assertion | key | type
  deriving DecidableEq, Repr

/-- utils.py:94-97, with qrexec/__init__.py:35-36. -/
def qubesdSocket (method : Str) : Str :=
  if startsWith c!"internal." method then c!"/var/run/qubesd.internal.sock" else c!"/var/run/qubesd.sock"

/-- utils.py:105-111: what is sent before the write end is shut down; `none` is a `UnicodeEncodeError`. -/
def qubesdSent (dest method : Str) (arg : Option Str) (payload : Option Bytes) : Option Bytes :=
  let header := method ++ c!"+" ++ arg.getD [] ++ c!" dom0 name " ++ dest ++ c!"\x00"
  if isAscii header then some (header ++ payload.getD []) else none

/-- `b.split(sep, n)`. -/
def splitMax (sep : Char) : Nat → Bytes → List Bytes
  | 0, b => [b]
  | n + 1, b => match splitOnce sep b with
    | some (x, rest) => x :: splitMax sep n rest
    | none => [b]

/-- utils.py:113-122: the answer, read to its end. -/
def qubesdResult (answer : Bytes) : Except SysErr Bytes :=
  if startsWith c!"0\x00" answer then .ok (answer.drop 2)
  else if startsWith c!"2\x00" answer then
    match splitMax '\x00' 4 answer with
    | [_, excType, _, _, _] => if isAscii excType then .error (.mgmt excType) else .error .unicode
    | _ => .error .value
  else .error .assertion

/-- `d[k] = v` for a dict in its order. -/
def dictPut : List (Str × Json) → Str → Json → List (Str × Json)
  | [], k, v => [(k, v)]
  | (k', v') :: rest, k, v => if k' = k then (k, v) :: rest else (k', v') :: dictPut rest k v

/-- The dict of the pairs of a JSON object. -/
def dictOf (l : List (Str × Json)) : List (Str × Json) := l.foldl (fun d p => dictPut d p.1 p.2) []

/-- `d.get(k)`; `none` is a missing key. -/
def jdGet (d : List (Str × Json)) (k : Str) : Option Json := (d.find? fun p => p.1 = k).map Prod.snd

/-- A string. -/
def asStr : Option Json → Option Str
  | some (.str s) => some s
  | _ => none

def asBool : Option Json → Option Bool
  | some (.bool b) => some b
  | _ => none

/-- A string or `None`; the key must be there. -/
def asOptStr : Option Json → Option (Option Str)
  | some (.str s) => some (some s)
  | some .null => some none
  | _ => none

/-- A string or `None`, or no key. -/
def asMaybe : Option Json → Option (Option Str)
  | none => some none
  | v => asOptStr v

/-- A list of strings. -/
def asStrs : List Json → Option (List Str)
  | [] => some []
  | .str s :: rest => (asStrs rest).map (s :: ·)
  | _ => none

def asTags : Option Json → Option (List Str)
  | some (.arr l) => asStrs l
  | _ => none

/-- `j["uuid"]`: may be missing, but `"uuid:" + None` is a `TypeError`. -/
def asUuid : Option Json → Option (Option Str)
  | none => some none
  | some (.str s) => some (some s)
  | _ => none

/-- `info.get("internal", False)`. -/
def asInternal : Option Json → Option Bool
  | none => some false
  | v => asBool v

/-- The entry of one domain (utils.py:123-133 `SystemInfoEntry`). Simplification: all keys the policy needs are read here, and
one that is missing or has another type is an error; Python raises when it reads that key. -/
def entryDom (name : Str) (v : Json) : Option Dom :=
  match v with
  | .obj l =>
    let d := dictOf l
    match asTags (jdGet d c!"tags"), asStr (jdGet d c!"type"), asBool (jdGet d c!"template_for_dispvms"),
      asOptStr (jdGet d c!"default_dispvm"), asStr (jdGet d c!"power_state"), asOptStr (jdGet d c!"guivm"),
      asStr (jdGet d c!"icon"), asUuid (jdGet d c!"uuid"), asInternal (jdGet d c!"internal"),
      asMaybe (jdGet d c!"relayvm"), asMaybe (jdGet d c!"transport_rpc") with
    | some tags, some cls, some tmpl, some dispvm, some power, some guivm, some icon, some uuid, some internal, some relay,
      some rpc => some
        { name := name, uuid := uuid, tags := tags, cls := cls, templateForDispvms := tmpl, defaultDispvm := dispvm,
          powerState := power, internal := internal, guivm := guivm, icon := icon, relayvm := relay, transportRpc := rpc }
    | _, _, _, _, _, _, _, _, _, _, _ => none
  | _ => none

/-- All entries (the loop utils.py:170-171). -/
def entryDoms : List (Str × Json) → Option (List (Str × Dom))
  | [] => some []
  | (k, v) :: rest => match entryDom k v, entryDoms rest with
    | some d, some ds => some ((k, d) :: ds)
    | _, _ => none

/-- `system_info_decoded["domains"]`. -/
def domainsOf : Json → Except SysErr (List (Str × Json))
  | .obj l => match jdGet (dictOf l) c!"domains" with
    | some (.obj doms) => .ok (dictOf doms)
    | some _ => .error .type
    | none => .error .key
  | _ => .error .type

/-- utils.py:151-176 `get_system_info`, for an answer of qubesd. -/
def getSystemInfoFrom (h : Host) (answer : Bytes) : Except SysErr Info :=
  match qubesdResult answer with
  | .error e => .error e
  | .ok b => match h.decode b with
    | none => .error .unicode
    | some text => match jsonLoads text with
      | none => .error .value
      | some v => match domainsOf v with
        | .error e => .error e
        | .ok doms => match entryDoms doms with
          | none => .error .type
          | some json => .ok (getSystemInfo json)

/-- qrexec_policy_exec.py:361-366: only a `QubesMgmtException` is caught. -/
def handleRequestFrom (h : Host) (answer : Bytes) (policy : Except Err (List Rule)) (agent : Agent)
    (mode : Mode) (source target serviceAndArg requestedSource : Str) : Run Str :=
  match getSystemInfoFrom h answer with
  | .ok info => handleRequest (some info) policy agent mode source target serviceAndArg requestedSource
  | .error (.mgmt _) => handleRequest none policy agent mode source target serviceAndArg requestedSource
  | .error _ => ([], .error .other)

end Qrexec
