import Verif.Model.Str

/-!
# JSON as Python's `json` module writes and reads it

Used by qrexec/server.py:69, 110, 118 for the requests to the policy agent.
-/
namespace Qrexec

/-- A value of `json.loads`. Numbers are kept as text; an object is the list of its pairs as written. -/
inductive Json where
  | null
  | bool (b : Bool)
  | num (text : Str)
  | str (s : Str)
  | arr (l : List Json)
  | obj (l : List (Str × Json))

/-! ## `json.dumps` with its default arguments -/

/-- Lower case hexadecimal digit (`%04x` in json/encoder.py). -/
def jsonHex (n : Nat) : Char := if n < 10 then Char.ofNat (48 + n) else Char.ofNat (87 + n)

/-- `\uXXXX`. -/
def jsonUnit (n : Nat) : Str :=
  ['\\', 'u', jsonHex (n / 4096 % 16), jsonHex (n / 256 % 16), jsonHex (n / 16 % 16), jsonHex (n % 16)]

/-- One character of `py_encode_basestring_ascii` (json/encoder.py). -/
def jsonChar (c : Char) : Str :=
  if c = '"' then c!"\\\""
  else if c = '\\' then c!"\\\\"
  else if c = '\n' then c!"\\n"
  else if c = '\r' then c!"\\r"
  else if c = '\t' then c!"\\t"
  else if c.toNat = 12 then c!"\\f"
  else if c.toNat = 8 then c!"\\b"
  else if 32 ≤ c.toNat && c.toNat ≤ 126 then [c]
  else if c.toNat < 0x10000 then jsonUnit c.toNat
  else jsonUnit (0xd800 + (c.toNat - 0x10000) / 0x400) ++ jsonUnit (0xdc00 + (c.toNat - 0x10000) % 0x400)

def jsonStr (s : Str) : Str := '"' :: s.flatMap jsonChar ++ ['"']

mutual
/-- `json.dumps(v)`. -/
def jsonDumps : Json → Str
  | .null => c!"null"
  | .bool b => if b then c!"true" else c!"false"
  | .num t => t
  | .str s => jsonStr s
  | .arr l => '[' :: jsonElems l ++ [']']
  | .obj l => '{' :: jsonPairs l ++ ['}']

/-- The items of a list, separated by `, `. -/
def jsonElems : List Json → Str
  | [] => []
  | [v] => jsonDumps v
  | v :: w :: vs => jsonDumps v ++ ',' :: ' ' :: jsonElems (w :: vs)

/-- The items of a dict. -/
def jsonPairs : List (Str × Json) → Str
  | [] => []
  | [(k, v)] => jsonStr k ++ ':' :: ' ' :: jsonDumps v
  | (k, v) :: q :: kvs => jsonStr k ++ ':' :: ' ' :: (jsonDumps v ++ ',' :: ' ' :: jsonPairs (q :: kvs))
end

/-! ## `json.loads` -/

/-- White space of JSON (json/decoder.py `WHITESPACE`). -/
def jsonWs (c : Char) : Bool := c == ' ' || c == '\t' || c == '\n' || c == '\r'

def skipWs (s : Str) : Str := s.dropWhile jsonWs

/-- Value of a hexadecimal digit. -/
def jsonHexVal (c : Char) : Option Nat :=
  if '0' ≤ c && c ≤ '9' then some (c.toNat - 48)
  else if 'a' ≤ c && c ≤ 'f' then some (c.toNat - 87)
  else if 'A' ≤ c && c ≤ 'F' then some (c.toNat - 55)
  else none

/-- The character of a two-character escape sequence. -/
def jsonUnescape (c : Char) : Option Char :=
  if c = '"' then some '"'
  else if c = '\\' then some '\\'
  else if c = '/' then some '/'
  else if c = 'b' then some (Char.ofNat 8)
  else if c = 'f' then some (Char.ofNat 12)
  else if c = 'n' then some '\n'
  else if c = 'r' then some '\r'
  else if c = 't' then some '\t'
  else none

/-- Where the scanner of a string is: behind a backslash, or `k` digits behind `\u`, which make `n`. -/
inductive StrState where
  | plain
  | esc
  | hex (n k : Nat)
  deriving DecidableEq, Repr

/-- A piece of a string: a character, or a UTF-16 code unit. -/
inductive StrPiece where
  | lit (c : Char)
  | unit (n : Nat)
  deriving DecidableEq, Repr

def pushPiece (p : StrPiece) : Option (List StrPiece × Str) → Option (List StrPiece × Str)
  | some (ps, r) => some (p :: ps, r)
  | none => none

/-- `scanstring` (json/decoder.py, strict): the pieces up to the closing quote, and what is behind it. -/
def scanPieces : StrState → Str → Option (List StrPiece × Str)
  | _, [] => none
  | .plain, c :: cs =>
    if c = '"' then some ([], cs)
    else if c = '\\' then scanPieces .esc cs
    else if c.toNat < 32 then none
    else pushPiece (.lit c) (scanPieces .plain cs)
  | .esc, c :: cs =>
    if c = 'u' then scanPieces (.hex 0 0) cs
    else match jsonUnescape c with
      | some x => pushPiece (.lit x) (scanPieces .plain cs)
      | none => none
  | .hex n k, c :: cs =>
    match jsonHexVal c with
    | none => none
    | some d => if k = 3 then pushPiece (.unit (16 * n + d)) (scanPieces .plain cs) else scanPieces (.hex (16 * n + d) (k + 1)) cs

/-- The text of the pieces; `hi` is a high surrogate just read. (Simplification: a surrogate without its partner is an error;
Python keeps it as a character that no encoding accepts.) -/
def joinPieces : Option Nat → List StrPiece → Option Str
  | none, [] => some []
  | some _, [] => none
  | none, .lit c :: ps => (joinPieces none ps).map (c :: ·)
  | some _, .lit _ :: _ => none
  | none, .unit n :: ps =>
    if 0xd800 ≤ n && n ≤ 0xdbff then joinPieces (some n) ps
    else if 0xdc00 ≤ n && n ≤ 0xdfff then none
    else (joinPieces none ps).map (Char.ofNat n :: ·)
  | some h, .unit n :: ps =>
    if 0xdc00 ≤ n && n ≤ 0xdfff then
      (joinPieces none ps).map (Char.ofNat (0x10000 + (h - 0xd800) * 0x400 + (n - 0xdc00)) :: ·)
    else none

def scanString (s : Str) : Option (Str × Str) :=
  match scanPieces .plain s with
  | some (ps, r) => (joinPieces none ps).map fun t => (t, r)
  | none => none

def jsonDigit (c : Char) : Bool := '0' ≤ c && c ≤ '9'

/-- `NUMBER_RE` of json/scanner.py, behind the sign: the number of characters. -/
def numberLen (s : Str) : Option Nat :=
  let int := match s with
    | '0' :: _ => 1
    | _ => (s.takeWhile jsonDigit).length
  if int = 0 then none
  else
    let frac := match s.drop int with
      | '.' :: r => let k := (r.takeWhile jsonDigit).length; if k = 0 then 0 else k + 1
      | _ => 0
    let rest := s.drop (int + frac)
    let exp := match rest with
      | e :: r =>
        if e = 'e' || e = 'E' then
          let sign := match r with
            | c :: _ => if c = '+' || c = '-' then 1 else 0
            | [] => 0
          let k := ((r.drop sign).takeWhile jsonDigit).length
          if k = 0 then 0 else 1 + sign + k
        else 0
      | [] => 0
    some (int + frac + exp)

/-- Literals and numbers (json/scanner.py `_scan_once`). -/
def scanAtom (s : Str) : Option (Json × Str) :=
  if startsWith c!"null" s then some (.null, s.drop 4)
  else if startsWith c!"true" s then some (.bool true, s.drop 4)
  else if startsWith c!"false" s then some (.bool false, s.drop 5)
  else if startsWith c!"NaN" s then some (.num c!"NaN", s.drop 3)
  else if startsWith c!"Infinity" s then some (.num c!"Infinity", s.drop 8)
  else if startsWith c!"-Infinity" s then some (.num c!"-Infinity", s.drop 9)
  else
    let sign := if startsWith c!"-" s then 1 else 0
    match numberLen (s.drop sign) with
    | some k => some (.num (s.take (sign + k)), s.drop (sign + k))
    | none => none

mutual
/-- json/scanner.py `_scan_once`. (Simplification: the nesting is not limited; `n` is at least the length of the text.) -/
def scanValue : Nat → Str → Option (Json × Str)
  | 0, _ => none
  | n + 1, s =>
    match s with
    | '"' :: r => (scanString r).map fun p => (.str p.1, p.2)
    | '{' :: r =>
      match skipWs r with
      | '}' :: r' => some (.obj [], r')
      | '"' :: r' => (scanMembers n r').map fun p => (.obj p.1, p.2)
      | _ => none
    | '[' :: r =>
      match skipWs r with
      | ']' :: r' => some (.arr [], r')
      | r' => (scanElems n r').map fun p => (.arr p.1, p.2)
    | _ => scanAtom s

/-- json/decoder.py `JSONArray`, at an item. -/
def scanElems : Nat → Str → Option (List Json × Str)
  | 0, _ => none
  | n + 1, s =>
    match scanValue n s with
    | none => none
    | some (v, r) =>
      match skipWs r with
      | ']' :: r' => some ([v], r')
      | ',' :: r' => (scanElems n (skipWs r')).map fun p => (v :: p.1, p.2)
      | _ => none

/-- json/decoder.py `JSONObject`, behind the quote of a key. -/
def scanMembers : Nat → Str → Option (List (Str × Json) × Str)
  | 0, _ => none
  | n + 1, s =>
    match scanString s with
    | none => none
    | some (k, r) =>
      match skipWs r with
      | ':' :: r1 =>
        match scanValue n (skipWs r1) with
        | none => none
        | some (v, r2) =>
          match skipWs r2 with
          | '}' :: r3 => some ([(k, v)], r3)
          | ',' :: r3 =>
            match skipWs r3 with
            | '"' :: r4 => (scanMembers n r4).map fun p => ((k, v) :: p.1, p.2)
            | _ => none
          | _ => none
      | _ => none
end

/-- `json.loads(s)`; `none` is a `JSONDecodeError`. -/
def jsonLoads (s : Str) : Option Json :=
  match scanValue (s.length + 1) (skipWs s) with
  | some (v, r) => if skipWs r = [] then some v else none
  | none => none

/-- `params[key]` of a dict: the last pair with the key counts. -/
def Json.get? (v : Json) (key : Str) : Option Json :=
  match v with
  | .obj l => (l.reverse.find? fun p => p.1 = key).map Prod.snd
  | _ => none

end Qrexec
