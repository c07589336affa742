/-!
# Strings

Python `str` values are modelled as lists of characters.  This file holds the handful of
`str` methods the policy code uses.  They model CPython built-ins, not lines of /repo;
the comment at each says which call sites use it.
-/
namespace Qrexec

/-- A Python `str`. -/
abbrev Str := List Char

/-- `c!"abc"` is the explicit character list `['a', 'b', 'c']`. -/
macro:max "c!" s:str : term => do
  let cs := s.getString.toList.map fun ch => Lean.Syntax.mkCharLit ch
  let arr := cs.toArray
  `(([$arr,*] : List Char))

/-- `s.startswith(p)` (used throughout qrexec/policy/parser.py). -/
def startsWith (p s : Str) : Bool := p.isPrefixOf s

/-- `s.endswith(p)` (qrexec/policy/admin.py:190). -/
def endsWith (p s : Str) : Bool := p.isSuffixOf s

/-- `str.isspace` for one character: the code points CPython's `_PyUnicode_IsWhitespace`
accepts.  `str.strip()` and `str.split()` without arguments use it
(parser.py:1625, 1633, 1501, 1536, 1709, 1723). -/
def isSpace (c : Char) : Bool :=
  let n := c.toNat
  (9 ≤ n && n ≤ 13) || (28 ≤ n && n ≤ 32) || n == 0x85 || n == 0xa0 || n == 0x1680 ||
  (0x2000 ≤ n && n ≤ 0x200a) || n == 0x2028 || n == 0x2029 || n == 0x202f ||
  n == 0x205f || n == 0x3000

/-- Python `s.split()`: maximal runs of non-whitespace characters.  The accumulator is
the word being read, reversed. -/
def splitWsAux : Str → Str → List Str
  | [], acc => if acc.isEmpty then [] else [acc.reverse]
  | c :: cs, acc =>
    if isSpace c then
      (if acc.isEmpty then splitWsAux cs [] else acc.reverse :: splitWsAux cs [])
    else splitWsAux cs (c :: acc)

/-- Python `s.split()`. -/
def splitWs (s : Str) : List Str := splitWsAux s []

/-- Python `s.lstrip()`. -/
def lstrip (s : Str) : Str := s.dropWhile isSpace

/-- Python `s.strip()`. -/
def strip (s : Str) : Str := (lstrip (lstrip s).reverse).reverse

/-- Python `s.split(c)` for a one-character separator: always at least one piece. -/
def splitOn (sep : Char) : Str → List Str
  | [] => [[]]
  | c :: cs =>
    if c = sep then [] :: splitOn sep cs
    else match splitOn sep cs with
      | [] => [[c]]
      | w :: ws => (c :: w) :: ws

/-- Python `s.split(c, maxsplit=1)` when unpacked into two values; `none` is the
`ValueError` of a failed unpacking. -/
def splitOnce (sep : Char) : Str → Option (Str × Str)
  | [] => none
  | c :: cs =>
    if c = sep then some ([], cs)
    else (splitOnce sep cs).map fun (a, b) => (c :: a, b)

/-- Python `sep.join(ws)` for a one-character separator. -/
def joinWith (sep : Char) : List Str → Str
  | [] => []
  | [w] => w
  | w :: ws => w ++ sep :: joinWith sep ws

/-- Iteration over a text file opened by `open()` (universal newlines, `newline=None`):
"\r\n" and "\r" are translated to "\n". -/
def universalNewlines : Str → Str
  | [] => []
  | '\r' :: '\n' :: cs => '\n' :: universalNewlines cs
  | '\r' :: cs => '\n' :: universalNewlines cs
  | c :: cs => c :: universalNewlines cs

/-- The lines of an `open()`ed text file.  Simplification: a final piece after the last
newline is always present (it may be empty); the loader skips empty lines, so this only
affects line numbers, which are not modelled. -/
def fileLines (s : Str) : List Str := splitOn '\n' (universalNewlines s)

/-- The lines of an `io.StringIO(content)`: no newline translation (default
`newline="\n"`), so only "\n" ends a line (parser.py:2161, 2173). -/
def stringIOLines (s : Str) : List Str := splitOn '\n' s

/-- Lexicographic order on code points, Python's `<` on `str`. -/
def strLt : Str → Str → Bool
  | _, [] => false
  | [], _ :: _ => true
  | a :: as, b :: bs => if a.toNat < b.toNat then true else if b.toNat < a.toNat then false else strLt as bs

/-- `a <= b` on `str`. -/
def strLe (a b : Str) : Bool := !strLt b a

end Qrexec
