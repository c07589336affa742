import Verif.Model.Toml

/-!
# Specification: the configuration of a service
-/
namespace Qrexec

/-- Spaces and tabs. -/
def Blanks (w : Str) : Prop := ∀ c ∈ w, c = ' ' ∨ c = '\t'

/-- A comment, or nothing. -/
def CommentText (t : Str) : Prop := t = [] ∨ ∃ u, t = '#' :: u

/-- The first character of a key. -/
def KeyStart (c : Char) : Prop := ('a' ≤ c ∧ c ≤ 'z') ∨ ('A' ≤ c ∧ c ≤ 'Z')

/-- Any other character of a key. -/
def KeyByte (c : Char) : Prop := KeyStart c ∨ ('0' ≤ c ∧ c ≤ '9') ∨ c = '.' ∨ c = '-' ∨ c = '_'

/-- Value of a decimal number. -/
def decimal (ds : Str) : Nat := ds.foldl (fun n c => 10 * n + (c.toNat - '0'.toNat)) 0

/-- The texts for a value: a decimal number without extra zeros that fits into 64 bits, a truth value, a string between
apostrophes. -/
inductive ValText : Str → TomlVal → Prop
  | zero : ValText c!"0" (.int 0)
  | int (ds : Str) (h1 : ds ≠ []) (h2 : ∀ c ∈ ds, '0' ≤ c ∧ c ≤ '9') (h3 : ds.head? ≠ some '0') (h4 : decimal ds < 2 ^ 64) :
      ValText ds (.int (decimal ds))
  | yes : ValText c!"true" (.bool true)
  | no : ValText c!"false" (.bool false)
  | str (s : Str) (h : '\'' ∉ s) : ValText (c!"'" ++ s ++ c!"'") (.str s)

/-- The text of a line: empty, a comment, or `key = value` - the key at the start of the line - with an optional comment. -/
inductive ConfText : Str → Option (Str × TomlVal) → Prop
  | blank : ConfText [] none
  | comment (t : Str) : ConfText ('#' :: t) none
  | setting (c : Char) (ks w1 w2 val w3 com : Str) (v : TomlVal) (hc : KeyStart c) (hk : ∀ c ∈ ks, KeyByte c)
      (h1 : Blanks w1) (h2 : Blanks w2) (hv : ValText val v) (h3 : Blanks w3) (hcom : CommentText com) :
      ConfText (c :: (ks ++ (w1 ++ '=' :: (w2 ++ (val ++ (w3 ++ com)))))) (some (c :: ks, v))

/-- A configuration file and its settings: lines end with a newline or carriage return and newline; the last may have none;
no byte is zero. -/
inductive ConfFile : Str → List (Str × TomlVal) → Prop
  | nil : ConfFile [] []
  | last (l : Str) (x : Option (Str × TomlVal)) (h0 : l ≠ []) (h1 : '\n' ∉ l) (h2 : Char.ofNat 0 ∉ l) (h : ConfText l x) :
      ConfFile l x.toList
  | lf (l rest : Str) (x : Option (Str × TomlVal)) (xs : List (Str × TomlVal)) (h1 : '\n' ∉ l) (h2 : Char.ofNat 0 ∉ l)
      (h3 : l.getLast? ≠ some '\r') (h : ConfText l x) (hr : ConfFile rest xs) :
      ConfFile (l ++ '\n' :: rest) (x.toList ++ xs)
  | crlf (l rest : Str) (x : Option (Str × TomlVal)) (xs : List (Str × TomlVal)) (h1 : '\n' ∉ l) (h2 : Char.ofNat 0 ∉ l)
      (h : ConfText l x) (hr : ConfFile rest xs) :
      ConfFile (l ++ '\r' :: '\n' :: rest) (x.toList ++ xs)

/-- The keys that are known. -/
def knownKeys : List Str :=
  [c!"wait-for-session", c!"exit-on-client-eof", c!"exit-on-service-eof", c!"skip-service-descriptor", c!"force-user"]

/-- The value is allowed for the key; any value is, if the key is not known. -/
def RightType (key : Str) (v : TomlVal) : Prop :=
  if key = c!"wait-for-session" then v = .bool true ∨ v = .bool false ∨ v = .int 0 ∨ v = .int 1
  else if key = c!"force-user" then ∃ s, v = .str s
  else if key ∈ knownKeys then v = .bool true ∨ v = .bool false
  else True

/-- The value of a key. -/
def valueOf (xs : List (Str × TomlVal)) (key : Str) : Option TomlVal :=
  (xs.find? fun kv => decide (kv.1 = key)).map Prod.snd

/-- All values are allowed, and no known key occurs twice. -/
def GoodSettings (xs : List (Str × TomlVal)) : Prop :=
  (∀ kv ∈ xs, RightType kv.1 kv.2) ∧ xs.Pairwise fun a b => a.1 ∈ knownKeys → a.1 ≠ b.1

/-- The string of a value. -/
def strOf (v : Option TomlVal) : Option Str :=
  match v with
  | some (.str s) => some s
  | _ => none

/-- What the settings mean. -/
def confOf (xs : List (Str × TomlVal)) : SvcConf where
  waitForSession := decide (valueOf xs c!"wait-for-session" = some (.bool true) ∨
    valueOf xs c!"wait-for-session" = some (.int 1))
  user := strOf (valueOf xs c!"force-user")
  sendDescriptor := decide (valueOf xs c!"skip-service-descriptor" ≠ some (.bool true))
  exitOnServiceEof := decide (valueOf xs c!"exit-on-service-eof" = some (.bool true))
  exitOnClientEof := decide (valueOf xs c!"exit-on-client-eof" = some (.bool true))

end Qrexec
