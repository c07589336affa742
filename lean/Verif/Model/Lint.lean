import Verif.Model.Loader

/-!
# qubes-policy-lint

qrexec/tools/qubes_policy_lint.py, with the in-memory policy `StringPolicy` (parser.py:2183-2390) it uses.  Not
modelled: argparse, the text of the messages (only which lines they are about), `-s`.
-/
namespace Qrexec

/-- `str(pathlib.PurePosixPath(s))`: empty and `.` components are dropped; two leading slashes stay. -/
def purePathStr (s : Str) : Str :=
  let comps := (splitOn '/' s).filter fun c => !(c.isEmpty || c == c!".")
  if startsWith c!"//" s && !startsWith c!"///" s then c!"//" ++ joinWith '/' comps
  else if startsWith c!"/" s then c!"/" ++ joinWith '/' comps
  else if comps.isEmpty then c!"."
  else joinWith '/' comps

/-- The test of `save_included_path` (parser.py:2254-2275). -/
def badIncludeKey (key : Str) : Bool :=
  key.contains '/' && (!startsWith c!"include/" key || key.count '/' > 1)

/-- A dict display `{k: v, ...}`: for a repeated key the last value counts. -/
def dictGet (policy : List (Str × Str)) (key : Str) : Option Str :=
  (policy.reverse.find? fun kv => kv.1 == key).map Prod.snd

/-- parser.py:2332-2352 `StringLoader.resolve_filepath`. -/
def stringOpen (policy : List (Str × Str)) (key : Str) : Except Err Opened :=
  match dictGet policy key with
  | none => .error .policySyntax
  | some text => .ok (stringIOLines text, [key ++ c!"[in-memory]"])

/-- `StringPolicy`: `handle_include` and `handle_include_service` check the path first (parser.py:2277-2308; both
failures are syntax errors, so the order of the checks does not matter); `!include-dir` is not implemented
(parser.py:2354-2359); `!compat-4.0` finds no files (parser_compat.py:216-221). -/
def stringEnv (policy : List (Str × Str)) : LoadEnv where
  openFile included :=
    let key := purePathStr included
    if badIncludeKey key then .error .policySyntax else stringOpen policy key
  openDir _ := .error .other
  compat _ := .ok []

/-- `StringPolicy(policy=...)` (parser.py:2371-2382); `n` is the nesting limit of `loadFile`. -/
def stringPolicy (n : Nat) (policy : List (Str × Str)) : Except Err (List Rule) := do
  let f ← stringOpen policy c!"__main__"
  loadFile (stringEnv policy) n f

/-- qubes_policy_lint.py:66-86 `parse_string_policy`: the dict it builds. -/
def lintPolicy (includeService : Bool) (line includedPath : Str) : List (Str × Str) :=
  (if includeService then [(c!"__main__", c!"!include-service * * inc"), (c!"inc", line)] else [(c!"__main__", line)]) ++
  (if includedPath.isEmpty then [] else [(includedPath, [])])

/-- What `parse_file` does with a directive line before parsing it (qubes_policy_lint.py:110-128): the file to pretend
exists; `none` is a line that is not parsed; an error is reported. -/
def lintDirective : List Str → Except Err (Option Str)
  | directive :: params =>
    if directive == c!"!include-service" then
      match params with
      | [_, _, included] => .ok (some included)
      | _ => .ok (some [])
    else if directive == c!"!include" then
      match params with
      | [included] => .ok (some included)
      | _ => .ok (some [])
    else if directive == c!"!include-dir" then
      match params with
      | [_] => .ok none
      | _ => .error .policySyntax
    else .ok (some [])
  | [] => .ok (some [])

/-- One line (qubes_policy_lint.py:100-140): `error .policySyntax` is reported, another exception is not caught. -/
def lintLine (includeService : Bool) (n : Nat) (line : Str) : Except Err Unit :=
  let line := strip line
  if isCommentLine line then .ok ()
  else
    match (if startsWith c!"!" line then lintDirective (splitWs line) else .ok (some [])) with
    | .error e => .error e
    | .ok none => .ok ()
    | .ok (some included) =>
      match stringPolicy n (lintPolicy includeService line included) with
      | .ok _ => .ok ()
      | .error e => .error e

/-- The loop of `parse_file` (qubes_policy_lint.py:100-140): the numbers of the lines reported, counting from `k`. -/
def lintLines (includeService : Bool) (n : Nat) : Nat → List Str → Except Err (List Nat)
  | _, [] => .ok []
  | k, line :: rest =>
    match lintLine includeService n line with
    | .ok () => lintLines includeService n (k + 1) rest
    | .error .policySyntax => do
      let l ← lintLines includeService n (k + 1) rest
      return k :: l
    | .error e => .error e

/-- qubes_policy_lint.py:89-144 `parse_file` for a text that can be read: the numbers of the lines reported.  (The
lines are right-stripped first, then stripped: one `strip`.) -/
def lintFile (includeService : Bool) (n : Nat) (text : Str) : Except Err (List Nat) :=
  lintLines includeService n 1 (fileLines text)

/-- What was printed, and how the program ended. -/
structure LintEnd where
  /-- file index and line number, in the order printed -/
  reports : List (Nat × Nat)
  /-- the exit status, or the exception that ended it -/
  result : Except Err Nat
  deriving DecidableEq, Repr

/-- The loop of `main` (qubes_policy_lint.py:176-186): `sys.exit(1)` in `parse_file` (lines 142-144) ends the program at
the first file with an error. `files` holds the texts, or the exception of reading them; `k` counts the files. -/
def lintMain (includeService : Bool) (n : Nat) : Nat → List (Except Err Str) → LintEnd
  | _, [] => ⟨[], .ok 0⟩
  | k, file :: rest =>
    match file >>= lintFile includeService n with
    | .error e => ⟨[], .error e⟩
    | .ok [] => lintMain includeService n (k + 1) rest
    | .ok errs => ⟨errs.map fun i => (k, i), .ok 1⟩

end Qrexec
