import Verif.Model.Json

/-!
# Specification: the grammar of JSON (RFC 8259)

With the literals `NaN`, `Infinity` and `-Infinity`, which Python also reads, and without surrogates that have no partner.
-/
namespace Qrexec.Spec
open Qrexec

/-- White space. -/
def JsonWs (w : Str) : Prop := ∀ c ∈ w, c = ' ' ∨ c = '\t' ∨ c = '\n' ∨ c = '\r'

/-- Digits. -/
def JsonDigits (s : Str) : Prop := s ≠ [] ∧ ∀ c ∈ s, c ∈ c!"0123456789"

/-- `0`, or digits that do not begin with `0`. -/
inductive JsonInt : Str → Prop
  | zero : JsonInt c!"0"
  | digits {c s} : c ∈ c!"123456789" → (∀ d ∈ s, d ∈ c!"0123456789") → JsonInt (c :: s)

inductive JsonFrac : Str → Prop
  | none : JsonFrac []
  | some {s} : JsonDigits s → JsonFrac ('.' :: s)

inductive JsonExp : Str → Prop
  | none : JsonExp []
  | plain {e s} : e = 'e' ∨ e = 'E' → JsonDigits s → JsonExp (e :: s)
  | sign {e g s} : e = 'e' ∨ e = 'E' → g = '+' ∨ g = '-' → JsonDigits s → JsonExp (e :: g :: s)

inductive JsonNum : Str → Prop
  | pos {a b c} : JsonInt a → JsonFrac b → JsonExp c → JsonNum (a ++ (b ++ c))
  | neg {a b c} : JsonInt a → JsonFrac b → JsonExp c → JsonNum ('-' :: (a ++ (b ++ c)))
  | nan : JsonNum c!"NaN"
  | inf : JsonNum c!"Infinity"
  | negInf : JsonNum c!"-Infinity"

/-- A hexadecimal digit and its value. -/
inductive HexDigit : Char → Nat → Prop
  | digit {k} : k < 10 → HexDigit (Char.ofNat (0x30 + k)) k
  | lower {k} : k < 6 → HexDigit (Char.ofNat (0x61 + k)) (10 + k)
  | upper {k} : k < 6 → HexDigit (Char.ofNat (0x41 + k)) (10 + k)

/-- Four hexadecimal digits and their value. -/
inductive Hex4 : Str → Nat → Prop
  | mk {a b c d i j k l} : HexDigit a i → HexDigit b j → HexDigit c k → HexDigit d l →
      Hex4 [a, b, c, d] (i * 4096 + j * 256 + k * 16 + l)

/-- The two-character escape sequences. -/
def jsonEscapes : List (Char × Char) :=
  [('"', '"'), ('\\', '\\'), ('/', '/'), ('b', '\x08'), ('f', '\x0c'), ('n', '\n'), ('r', '\r'), ('t', '\t')]

/-- The text between the quotes, and the string it stands for. -/
inductive JsonChars : Str → Str → Prop
  | nil : JsonChars [] []
  | lit {c t s} : c ≠ '"' → c ≠ '\\' → 0x20 ≤ c.toNat → JsonChars t s → JsonChars (c :: t) (c :: s)
  | esc {e c t s} : (e, c) ∈ jsonEscapes → JsonChars t s → JsonChars ('\\' :: e :: t) (c :: s)
  | unit {x n t s} : Hex4 x n → n < 0xd800 ∨ 0xdfff < n → JsonChars t s →
      JsonChars ('\\' :: 'u' :: (x ++ t)) (Char.ofNat n :: s)
  | pair {x y hi lo t s} : Hex4 x (0xd800 + hi) → hi < 0x400 → Hex4 y (0xdc00 + lo) → lo < 0x400 → JsonChars t s →
      JsonChars ('\\' :: 'u' :: (x ++ '\\' :: 'u' :: (y ++ t))) (Char.ofNat (0x10000 + hi * 0x400 + lo) :: s)

mutual
/-- A text of a value, without white space around it. -/
inductive JsonText : Str → Json → Prop
  | null : JsonText c!"null" .null
  | true : JsonText c!"true" (.bool true)
  | false : JsonText c!"false" (.bool false)
  | num {t} : JsonNum t → JsonText t (.num t)
  | str {t s} : JsonChars t s → JsonText ('"' :: (t ++ c!"\"")) (.str s)
  | arr0 {w} : JsonWs w → JsonText ('[' :: (w ++ c!"]")) (.arr [])
  | arr {w t l} : JsonWs w → JsonItems t l → JsonText ('[' :: (w ++ (t ++ c!"]"))) (.arr l)
  | obj0 {w} : JsonWs w → JsonText ('{' :: (w ++ c!"}")) (.obj [])
  | obj {w t l} : JsonWs w → JsonPairs t l → JsonText ('{' :: (w ++ (t ++ c!"}"))) (.obj l)

/-- Values separated by commas; begins with the first value. -/
inductive JsonItems : Str → List Json → Prop
  | one {t v w} : JsonText t v → JsonWs w → JsonItems (t ++ w) [v]
  | more {t v w w' t' l} : JsonText t v → JsonWs w → JsonWs w' → JsonItems t' l →
      JsonItems (t ++ (w ++ ',' :: (w' ++ t'))) (v :: l)

/-- Keys with values, separated by commas; begins with the quote of the first key. -/
inductive JsonPairs : Str → List (Str × Json) → Prop
  | one {x k w w' t v w2} : JsonChars x k → JsonWs w → JsonWs w' → JsonText t v → JsonWs w2 →
      JsonPairs ('"' :: (x ++ '"' :: (w ++ ':' :: (w' ++ (t ++ w2))))) [(k, v)]
  | more {x k w w' t v w2 w3 t' l} : JsonChars x k → JsonWs w → JsonWs w' → JsonText t v → JsonWs w2 → JsonWs w3 →
      JsonPairs t' l → JsonPairs ('"' :: (x ++ '"' :: (w ++ ':' :: (w' ++ (t ++ (w2 ++ ',' :: (w3 ++ t'))))))) ((k, v) :: l)
end

/-- A JSON text. -/
def JsonFile (s : Str) (v : Json) : Prop := ∃ w t w', s = w ++ (t ++ w') ∧ JsonWs w ∧ JsonText t v ∧ JsonWs w'

end Qrexec.Spec
