import Verif.Model.ServiceCmd

/-!
# libqrexec/toml.c: the configuration of a service; exec.c: its use

Files are sequences of bytes, here characters. `malloc` and reading a file that was opened do not fail.
-/
namespace Qrexec

/-- toml.c:13-15 `qubes_isspace`. -/
def tomlSpace (c : Char) : Bool := c == ' ' || c == '\t'

/-- toml.c:17-28 `enum toml_type`, `union toml_data`. -/
inductive TomlVal where
  | int (n : Nat)
  | bool (b : Bool)
  | str (s : Str)
  deriving DecidableEq, Repr

/-- toml.c:104-108: only spaces and a comment follow the value. -/
def tomlEnd (rest : Str) : Bool :=
  match rest.dropWhile tomlSpace with
  | [] => true
  | c :: _ => c == '#'

def tomlDigit (c : Char) : Bool := decide ('0' ≤ c) && decide (c ≤ '9')

/-- Value of decimal digits (strtoull). -/
def tomlNat (ds : Str) : Nat := ds.foldl (fun n c => 10 * n + (c.toNat - '0'.toNat)) 0

/-- toml.c:30-117 `parse_toml_value`. `none` is TOML_TYPE_INVALID. `unsigned long long` has 64 bits. -/
def tomlValue (v : Str) : Option TomlVal :=
  match v with
  | [] => none
  | c :: rest =>
    if c == '0' then (if tomlEnd rest then some (.int 0) else none)
    else if tomlDigit c then
      let n := tomlNat (v.takeWhile tomlDigit)
      if n > 18446744073709551615 then none
      else if tomlEnd (v.dropWhile tomlDigit) then some (.int n) else none
    else if c == 't' then
      if startsWith c!"true" v && tomlEnd (v.drop 4) then some (.bool true) else none
    else if c == 'f' then
      if startsWith c!"false" v && tomlEnd (v.drop 5) then some (.bool false) else none
    else if c == '\'' then
      if startsWith c!"''" rest then none
      else match splitOnce '\'' rest with
        | none => none
        | some (s, rest') => if tomlEnd rest' then some (.str s) else none
    else none

def tomlLetter (c : Char) : Bool := (decide ('a' ≤ c) && decide (c ≤ 'z')) || (decide ('A' ≤ c) && decide (c ≤ 'Z'))

/-- toml.c:119-131 `qubes_is_key_byte`. -/
def tomlKeyByte (c : Char) : Bool := tomlDigit c || tomlLetter c || c == '.' || c == '-' || c == '_'

/-- getline: the lines, and whether there was a newline behind the line. -/
def tomlLines : Str → List (Str × Bool)
  | [] => []
  | c :: cs =>
    if c = '\n' then ([], true) :: tomlLines cs
    else match tomlLines cs with
      | [] => [([c], false)]
      | (l, nl) :: ls => (c :: l, nl) :: ls

/-- A line: nothing to do, an error, or a setting. -/
inductive TomlLine where
  | skip
  | bad
  | set (key : Str) (v : TomlVal)
  deriving DecidableEq, Repr

/-- toml.c:227-232: a carriage return before the newline. -/
def chopCr (line : Str) : Str :=
  match line.getLast? with
  | some '\r' => line.dropLast
  | _ => line

/-- toml.c:238-241: trailing whitespace, but not the first character. -/
def chopSpace (line : Str) : Str :=
  match line with
  | [] => []
  | c :: cs => c :: (cs.reverse.dropWhile tomlSpace).reverse

/-- toml.c:242-283: the text of a line. -/
def tomlText (text : Str) : TomlLine :=
  match text with
  | [] => .skip
  | c :: cs =>
    if c == '#' then .skip
    else if tomlLetter c then
      let key := c :: cs.takeWhile tomlKeyByte
      match (cs.dropWhile tomlKeyByte).dropWhile tomlSpace with
      | [] => .bad
      | e :: rest =>
        if e == '=' then
          match tomlValue (rest.dropWhile tomlSpace) with
          | none => .bad
          | some v => .set key v
        else .bad
    else .bad

/-- toml.c:210-283: a line of the file. -/
def tomlLine (line : Str) (nl : Bool) : TomlLine :=
  if line.contains (Char.ofNat 0) then .bad
  else tomlText (chopSpace (if nl then chopCr line else line))

/-- libqrexec-utils.h:60-110, what the configuration sets in `struct qrexec_parsed_command`. -/
structure SvcConf where
  waitForSession : Bool := false
  user : Option Str := none
  sendDescriptor : Bool := true
  exitOnServiceEof : Bool := false
  exitOnClientEof : Bool := false
  deriving DecidableEq, Repr

/-- toml.c:189-195, 181-184: which keys were seen. -/
structure TomlSeen where
  wait : Bool := false
  user : Bool := false
  skipDesc : Bool := false
  clientEof : Bool := false
  serviceEof : Bool := false
  deriving DecidableEq, Repr

/-- toml.c:285-325: a setting. An unknown key is only logged. -/
def tomlSet (seen : TomlSeen) (c : SvcConf) (key : Str) (v : TomlVal) : Option (TomlSeen × SvcConf) :=
  if key = c!"wait-for-session" then
    if seen.wait then none
    else match v with
      | .int n => if n < 2 then some ({ seen with wait := true }, { c with waitForSession := n == 1 }) else none
      | .bool b => some ({ seen with wait := true }, { c with waitForSession := b })
      | .str _ => none
  else if key = c!"exit-on-client-eof" then
    if seen.clientEof then none
    else match v with
      | .bool b => some ({ seen with clientEof := true }, { c with exitOnClientEof := b })
      | _ => none
  else if key = c!"exit-on-service-eof" then
    if seen.serviceEof then none
    else match v with
      | .bool b => some ({ seen with serviceEof := true }, { c with exitOnServiceEof := b })
      | _ => none
  else if key = c!"skip-service-descriptor" then
    if seen.skipDesc then none
    else match v with
      | .bool b => some ({ seen with skipDesc := true }, { c with sendDescriptor := !b })
      | _ => none
  else if key = c!"force-user" then
    if seen.user then none
    else match v with
      | .str s => some ({ seen with user := true }, { c with user := some s })
      | _ => none
  else some (seen, c)

/-- toml.c:210-326: the loop over the lines. -/
def tomlLoop (seen : TomlSeen) (c : SvcConf) : List (Str × Bool) → Option SvcConf
  | [] => some c
  | (l, nl) :: ls => match tomlLine l nl with
    | .skip => tomlLoop seen c ls
    | .bad => none
    | .set k v => match tomlSet seen c k v with
      | none => none
      | some (seen, c) => tomlLoop seen c ls

/-- toml.c:170-333 `qubes_toml_config_parse` for a file that can be opened. `none`: the result is -1. -/
def tomlParse (text : Str) : Option SvcConf := tomlLoop {} {} (tomlLines text)

/-- exec.c:453-508 `load_service_config_raw`, `load_service_config_v2` for a call. `read`: the contents of a file that can be
opened. `none`: the call is refused. The fields are those of a command that has just been parsed (exec.c:546). -/
def loadServiceConfig (fs : Str → LstatRes) (read : Str → Option Str) (bufSize : Nat) (pathList : Str) (s : RpcService) :
    Option SvcConf :=
  match findDescOrName false fs bufSize pathList s with
  | .absent => some {}
  | .error => none
  | .tcp _ => none
  | .found path _ => match read path with
    | none => none
    | some text => match tomlParse text with
      | none => none
      | some c =>
        if c.user.isSome && (!c.sendDescriptor || c.exitOnClientEof || c.exitOnServiceEof) then none else some c

end Qrexec
