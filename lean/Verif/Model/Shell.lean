import Verif.Model.ServiceCmd

/-!
# The shell that starts a service

An agent that runs as root starts a service as `/bin/sh -lc SCRIPT sh PROGRAM ...` (libqrexec/exec.c:170-216).  This is
the part of the POSIX shell command language that the script needs, applied to the text of the script: words of plain and
double-quoted characters and of the positional parameters `$1`..`$9`, and the special built-in utilities `set -e`, `unset`,
`export` and `exec`.  Any other text has no meaning here (`none`), so that a statement about a script includes that it is
within this part.  The files that a login shell reads first are represented by the state they leave, which is arbitrary;
they are assumed not to change the positional parameters and to define no alias of a built-in.
-/
namespace Qrexec

/-- A part of a word. -/
inductive ShPiece where
  /-- a quotation mark, which counts even if nothing is quoted -/
  | mark
  | lit (c : Char)
  /-- a parameter; `quoted`: inside of quotation marks -/
  | param (n : Nat) (quoted : Bool)
  deriving DecidableEq, Repr

/-- The commands, words and the word that have been read. -/
structure ShLex where
  cmds : List (List (List ShPiece)) := []
  words : List (List ShPiece) := []
  cur : List ShPiece := []
  deriving DecidableEq, Repr

def ShLex.add (s : ShLex) (p : ShPiece) : ShLex := { s with cur := s.cur ++ [p] }
def ShLex.endWord (s : ShLex) : ShLex := if s.cur = [] then s else { s with words := s.words ++ [s.cur], cur := [] }
def ShLex.endCmd (s : ShLex) : ShLex :=
  let t := s.endWord
  if t.words = [] then t else { t with cmds := t.cmds ++ [t.words], words := [] }

/-- Characters with a meaning that is not modelled. -/
def shSpecial : Str := c!"|&;<>()`'\\#*?[]~!{}^"

/-- Token recognition and quoting (POSIX 2.2.3, 2.3). -/
def shLex (q : Bool) (s : ShLex) : Str → Option ShLex
  | [] => if q then none else some s.endCmd
  | '$' :: d :: cs => if '1' ≤ d ∧ d ≤ '9' then shLex q (s.add (.param (d.toNat - 48) q)) cs else none
  | c :: cs =>
    if c = '"' then shLex (!q) (s.add .mark) cs
    else if c = '$' then none
    else if q then (if c = '\\' ∨ c = '`' then none else shLex q (s.add (.lit c)) cs)
    else if c = ' ' ∨ c = '\t' then shLex q s.endWord cs
    else if c = '\n' then shLex q s.endCmd cs
    else if c ∈ shSpecial then none
    else shLex q (s.add (.lit c)) cs

/-- A variable of the shell. -/
structure ShVar where
  value : Option Str := none
  exported : Bool := false
  readonly : Bool := false
  deriving DecidableEq, Repr

/-- The state of the shell: variables, `set -e`, and what a word with an unquoted parameter becomes: after the value is put
in, it is split and patterns are replaced by file names (POSIX 2.6.5, 2.6.6), which can be anything. -/
structure ShState where
  vars : Str → ShVar
  errexit : Bool
  unquoted : List ShPiece → List Str → List Str

/-- The value of a piece. -/
def shPiece (params : List Str) : ShPiece → Str
  | .mark => []
  | .lit c => [c]
  | .param n _ => params.getD (n - 1) []

/-- Word expansion (POSIX 2.6) to fields. -/
def shWord (st : ShState) (params : List Str) (w : List ShPiece) : List Str :=
  if w.any (fun p => match p with | .param _ q => !q | _ => false) then st.unquoted w params
  else [w.flatMap (shPiece params)]

/-- `unset name...`: `false` if one of them is readonly, which stays. -/
def shUnset (st : ShState) : List Str → ShState × Bool
  | [] => (st, true)
  | n :: ns =>
    if (st.vars n).readonly then ((shUnset st ns).1, false)
    else shUnset { st with vars := fun v => if v = n then {} else st.vars v } ns

/-- `export name[=value]...`: `false` if one of them is to be changed and readonly. -/
def shExport (st : ShState) : List Str → ShState × Bool
  | [] => (st, true)
  | a :: as =>
    match splitOnce '=' a with
    | none => shExport { st with vars := fun v => if v = a then { st.vars v with exported := true } else st.vars v } as
    | some (n, x) =>
      if (st.vars n).readonly then ((shExport st as).1, false)
      else shExport { st with vars := fun v => if v = n then ⟨some x, true, false⟩ else st.vars v } as

/-- How the script ends: by executing a program, with a failure, or at its end. -/
inductive ShEnd where
  | exec (path : Str) (argv : List Str) (env : Str → Option Str)
  | fails
  | ends

/-- The environment of a program that is executed: the exported variables that have a value. -/
def ShState.env (st : ShState) (v : Str) : Option Str := if (st.vars v).exported then (st.vars v).value else none

/-- The commands of a script, one after the other. -/
def shRun (params : List Str) (st : ShState) : List (List (List ShPiece)) → Option ShEnd
  | [] => some .ends
  | cmd :: cmds =>
    match cmd.flatMap (shWord st params) with
    | [] => shRun params st cmds
    | name :: args =>
      if name = c!"set" then
        if args = [c!"-e"] then shRun params { st with errexit := true } cmds else none
      else if name = c!"unset" then
        if (shUnset st args).2 then shRun params (shUnset st args).1 cmds
        else if st.errexit then some .fails else shRun params (shUnset st args).1 cmds
      else if name = c!"export" then
        if (shExport st args).2 then shRun params (shExport st args).1 cmds
        else if st.errexit then some .fails else shRun params (shExport st args).1 cmds
      else if name = c!"exec" then
        match args with
        | p :: more => if p.contains '/' then some (.exec p (p :: more) st.env) else none
        | [] => none
      else none

/-- `sh -lc SCRIPT ZERO PARAM...` (POSIX `sh -c`), in the state that the login files left. -/
def runSh (argv : List Str) (st : ShState) : Option ShEnd :=
  match argv with
  | _ :: flags :: script :: _ :: params =>
    if flags = c!"-lc" then (shLex false {} script).bind fun l => shRun params st l.cmds else none
  | _ => none

end Qrexec
