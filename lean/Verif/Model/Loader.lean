import Verif.Model.Rule

/-!
# Loading policy files

The parser object's only mutable state that matters is `self.rules`, to which
`handle_rule` appends (parser.py:1828-1830).  A load is modelled as a function returning the
rules it appends, in order, or the exception that leaves it.  The nesting of includes is
bounded in CPython by the recursion limit: the model takes the number of nested file loads
the interpreter allows as the argument `n`; exceeding it is `Err.recursion`.
The file system does not change while one policy is loaded.
-/
namespace Qrexec

/-- A normalised absolute `pathlib.Path`: its components. -/
abbrev Path := List Str

/-- What the loader sees of the file system. -/
structure FS where
  /-- `Path.resolve()`: symlinks and `..`; arbitrary. -/
  resolve : Path → Path
  /-- `is_file()` is `isSome`; then the text, or the exception of opening/decoding it.
  (Simplification: an undecodable file fails before any of its lines is handled.) -/
  file : Path → Option (Except Err Str)
  /-- `is_dir()` is `isSome`; then the entry names in `iterdir()` order. -/
  dir : Path → Option (List Str)

/-- `PurePosixPath(included)` joined to a base: an absolute path replaces the base, `.` and
empty components are dropped (pathlib; parser.py:1648, 2098-2104). -/
def joinPath (base : Path) (included : Str) : Path :=
  let comps := (splitOn '/' included).filter fun c => !(c.isEmpty || c == c!".")
  if startsWith c!"/" included then comps else base ++ comps

/-- Run `f` on each element in order and append the rules; the first exception ends it. -/
def collectRules {α : Type} (f : α → Except Err (List Rule)) : List α → Except Err (List Rule)
  | [] => .ok []
  | x :: xs => do
    let a ← f x
    let b ← collectRules f xs
    return a ++ b

/-- An opened file: the lines iteration yields, and the file's path. -/
abbrev Opened := List Str × Path

/-- Python `line.replace(pat, rep)`; the number is how many characters of a match remain to
be skipped. -/
def replaceAux (pat rep : Str) : Nat → Str → Str
  | _, [] => []
  | k + 1, _ :: cs => replaceAux pat rep k cs
  | 0, c :: cs =>
    if startsWith pat (c :: cs) then rep ++ replaceAux pat rep (pat.length - 1) cs
    else c :: replaceAux pat rep 0 cs

/-- The compatibility substitutions of `load_policy_file_service` (parser.py:1714-1718). -/
def compatSubst (line : Str) : Str :=
  (replaceAux c!"$include:" c!"!include " 0 line).map fun c =>
    if c == '$' then '@' else if c == ',' then ' ' else c

/-- `not line or line[0] == "#"` (parser.py:1628, 1711). -/
def isCommentLine (line : Str) : Bool := line.isEmpty || line.head? == some '#'

/-- parser.py:1976-1994 `handle_include_service`. -/
def includeService (openFile : Str → Except Err Opened)
    (load : Option Str → Option Str → Opened → Except Err (List Rule))
    (service argument : Option Str) (included : Str) : Except Err (List Rule) := do
  let sa ← validateServiceAndArgument service argument
  let f ← openFile included
  load sa.1 sa.2 f

/-- One directive line of a service file (parser.py:1720-1741). -/
def serviceDirective (openFile : Str → Except Err Opened)
    (load : Option Str → Option Str → Opened → Except Err (List Rule))
    (service argument : Option Str) : List Str → Except Err (List Rule)
  | [directive, included] =>
    if directive == c!"!include" then includeService openFile load service argument included
    else .error .policySyntax
  | _ => .error .policySyntax

/-- One line of `load_policy_file_service` (parser.py:1708-1754). -/
def serviceLine (openFile : Str → Except Err Opened)
    (load : Option Str → Option Str → Opened → Except Err (List Rule))
    (service argument : Option Str) (path : Path) (line : Str) : Except Err (List Rule) :=
  let line := strip line
  if isCommentLine line then .ok []
  else
    let line := compatSubst line
    if startsWith c!"!" line then
      serviceDirective openFile load service argument (splitWs line)
    else do
      let r ← ruleFromLineService service argument line path
      return [r]

/-- parser.py:1704-1756 `load_policy_file_service`. -/
def loadService (openFile : Str → Except Err Opened) :
    Nat → Option Str → Option Str → Opened → Except Err (List Rule)
  | 0, _, _, _ => .error .recursion
  | n + 1, service, argument, f =>
    collectRules (serviceLine openFile (loadService openFile n) service argument f.2) f.1

/-- What a parser does when it meets a directive: how `!include` and `!include-service` open
a file, which files `!include-dir` loads, and the rules `!compat-4.0` inserts. -/
structure LoadEnv where
  openFile : Str → Except Err Opened
  openDir : Str → Except Err (List (Except Err Opened))
  compat : Nat → Except Err (List Rule)

/-- One directive line of a policy file (parser.py:1632-1690); `n` is what is left of the
nesting limit, `load` loads an opened file. -/
def fileDirective (env : LoadEnv) (n : Nat) (load : Opened → Except Err (List Rule)) :
    List Str → Except Err (List Rule)
  | directive :: params =>
    if directive == c!"!include" then
      match params with
      | [included] => do
        let f ← env.openFile included
        load f
      | _ => .error .policySyntax
    else if directive == c!"!include-dir" then
      match params with
      | [included] => do
        let fs ← env.openDir included
        collectRules (fun f => do let f ← f; load f) fs
      | _ => .error .policySyntax
    else if directive == c!"!include-service" then
      match params with
      | [service, argument, included] =>
        includeService env.openFile (loadService env.openFile n) (some service)
          (some argument) included
      | _ => .error .policySyntax
    else if directive == c!"!compat-4.0" then
      match params with
      | [] => env.compat n
      | _ => .error .policySyntax
    else .error .policySyntax
  | [] => .error .policySyntax

/-- One line of `load_policy_file` (parser.py:1624-1700). -/
def fileLine (env : LoadEnv) (n : Nat) (load : Opened → Except Err (List Rule)) (path : Path)
    (line : Str) : Except Err (List Rule) :=
  let line := strip line
  if isCommentLine line then .ok []
  else if startsWith c!"!" line then fileDirective env n load (splitWs line)
  else do
    let r ← ruleFromLine line path
    return [r]

/-- parser.py:1620-1702 `load_policy_file`. -/
def loadFile (env : LoadEnv) : Nat → Opened → Except Err (List Rule)
  | 0, _ => .error .recursion
  | n + 1, f => collectRules (fileLine env n (loadFile env n) f.2) f.1

/-- Stable insertion sort, for `list.sort` and `sorted` (parser.py:95, 2089;
parser_compat.py:72-73). -/
def insertSorted {α : Type} (le : α → α → Bool) (x : α) : List α → List α
  | [] => [x]
  | y :: ys => if le x y then x :: y :: ys else y :: insertSorted le x ys

/-- See `insertSorted`. -/
def sortBy {α : Type} (le : α → α → Bool) : List α → List α
  | [] => []
  | x :: xs => insertSorted le x (sortBy le xs)

/-- `FILENAME_ALLOWED_CHARSET` (parser.py:64). -/
def fileNameChar (c : Char) : Bool :=
  ('0' ≤ c && c ≤ '9') || ('a' ≤ c && c ≤ 'z') || c == '_' || c == '.' || c == '-'

/-- The first comprehension of `filter_filepaths` (parser.py:83-89) for an entry `name` of
`d`.  For a name without a leading dot, `suffix == ".policy"` is `endswith(".policy")`. -/
def isPolicyFile (fs : FS) (d : Path) (name : Str) : Bool :=
  (fs.file (d ++ [name])).isSome && endsWith c!".policy" name && !startsWith c!"." name

/-- parser.py:67-98 `filter_filepaths(d.iterdir())`: the names, sorted.  (All paths are in one
directory, so sorting paths is sorting names.) -/
def filterFilepaths (fs : FS) (d : Path) (names : List Str) : Except Err (List Str) := do
  let keep := names.filter (isPolicyFile fs d)
  require (keep.all fun n => n.all fileNameChar) (.accessDenied true)
  return sortBy strLe keep

/-- `with path.open() as file` and its lines (parser.py:2038-2040, 2091). -/
def openPath (fs : FS) (p : Path) : Except Err Opened :=
  match fs.file p with
  | none => .error .osError
  | some r => do
    let text ← r
    return (fileLines text, p)

/-- parser.py:1944-1965 `resolve_filepath` with `resolve_path` of a loader whose base
directory is `base` (parser.py:2098-2104; parser_compat.py:205-207). -/
def resolveFilepath (fs : FS) (base : Path) (included : Str) : Except Err Opened :=
  let p := fs.resolve (joinPath base included)
  match fs.file p with
  | none => .error .policySyntax
  | some r => do
    let text ← r
    return (fileLines text, p)

/-- parser.py:2000-2040 `resolve_dirpath`, `handle_include_dir`, `load_policy_dir`: the files
loaded by `!include-dir`, in order. -/
def resolveDir (fs : FS) (base : Path) (included : Str) :
    Except Err (List (Except Err Opened)) :=
  let p := fs.resolve (joinPath base included)
  match fs.dir p with
  | none => .error .policySyntax
  | some names => do
    let files ← filterFilepaths fs p names
    return files.map fun n => openPath fs (p ++ [n])

/-! ### `!compat-4.0` -/

/-- parser.py:101-121 `parse_service_and_argument(path, no_arg="*")` on a file name. -/
def parseServiceAndArgument (name : Str) : Str × Str :=
  match splitOnce '+' name with
  | some (s, a) => (s, '+' :: a)
  | none => (name, c!"*")

/-- parser_compat.py:78-99 `_list_compat_files`: is this entry used? -/
def isCompatFile (fs : FS) (d : Path) (name : Str) : Bool :=
  (fs.file (d ++ [name])).isSome &&
  !(endsWith c!".rpmsave" name || endsWith c!".rpmnew" name || endsWith c!".swp" name) &&
  !startsWith c!"." name && name.all rpcNameChar

/-- parser_compat.py:48-61 `_NoArgumentLastKey`: `a <= b` (`functools.total_ordering`: `<` or
`==`). -/
def argLe (a b : Str) : Bool :=
  if a == b then true
  else if a == c!"*" then false
  else if b == c!"*" then true
  else strLt a b

/-- The order of parser_compat.py:72-75: by service, then by argument with `*` last.
(Simplification: the nested dict and the two sorts are one sort on pairs; distinct file names
give distinct pairs.) -/
def compatLe (a b : Str × Str × Str) : Bool :=
  if a.1 == b.1 then argLe a.2.1 b.2.1 else strLt a.1 b.1

/-- parser_compat.py:64-75, 102-111 `walk_compat_files`: `(service, argument, file name)`. -/
def walkCompat (fs : FS) (legacy : Path) : Except Err (List (Str × Str × Str)) :=
  match fs.dir legacy with
  | none => .error .osError
  | some names =>
    .ok (sortBy compatLe ((names.filter (isCompatFile fs legacy)).map fun n =>
      let sa := parseServiceAndArgument n
      (sa.1, sa.2, n)))

/-- The body of the loop of `Compat40Parser.execute` (parser_compat.py:137-171).  The file is
given by its absolute path, `legacy_path / path` is that path, resolved. -/
def compatBlock (fs : FS) (legacy : Path) (n : Nat) (f : Str × Str × Str) :
    Except Err (List Rule) := do
  let path := legacy ++ [f.2.2]
  let sa ← validateServiceAndArgument (some f.1) (some f.2.1)
  let opened ← (match fs.file (fs.resolve path) with
    | none => Except.error Err.policySyntax
    | some r => do
      let text ← r
      return (fileLines text, fs.resolve path))
  let rules ← loadService (resolveFilepath fs legacy) n sa.1 sa.2 opened
  if f.2.1 == c!"*" then return rules
  else do
    let d1 ← ruleFromLineService (some f.1) (some f.2.1) c!"@anyvm @anyvm deny" path
    let d2 ← ruleFromLineService (some f.1) (some f.2.1) c!"@anyvm @adminvm deny" path
    return rules ++ [d1, d2]

/-- parser_compat.py:137-171 `execute`. -/
def compat40 (fs : FS) (legacy : Path) (n : Nat) : Except Err (List Rule) := do
  let files ← walkCompat fs legacy
  collectRules (compatBlock fs legacy n) files

/-! ### `FilePolicy` -/

/-- The parser `FilePolicy` while it loads a file of the directory `base`
(parser.py:2092-2096, 2120-2126): includes are relative to `base` at any depth. -/
def policyEnv (fs : FS) (legacy base : Path) : LoadEnv where
  openFile := resolveFilepath fs base
  openDir := resolveDir fs base
  compat := compat40 fs legacy

/-- The first loop of `load_policy_dirs` (parser.py:2081-2088): the files, as (directory,
name); `seen` are the names already taken. -/
def selectFiles (fs : FS) : List Path → List Str → Except Err (List (Path × Str))
  | [], _ => .ok []
  | d :: ds, seen =>
    match fs.dir d with
    | none => .error .osError
    | some names => do
      let files ← filterFilepaths fs d names
      let new := files.filter fun n => !seen.contains n
      let rest ← selectFiles fs ds (seen ++ new)
      return new.map (fun n => (d, n)) ++ rest

/-- The second loop of `load_policy_dirs` (parser.py:2090-2096). -/
def loadTopFile (fs : FS) (legacy : Path) (n : Nat) (f : Path × Str) :
    Except Err (List Rule) := do
  let file ← openPath fs (f.1 ++ [f.2])
  loadFile (policyEnv fs legacy f.1) n file

/-- parser.py:2080-2096 `load_policy_dirs`. -/
def loadPolicyDirs (fs : FS) (legacy : Path) (dirs : List Path) (n : Nat) :
    Except Err (List Rule) := do
  let files ← selectFiles fs dirs []
  collectRules (loadTopFile fs legacy n) (sortBy (fun a b => strLe a.2 b.2) files)

/-- `except OSError ... raise AccessDenied` (parser.py:2069-2075). -/
def wrapOSError {α : Type} : Except Err α → Except Err α
  | .error .osError => .error (.accessDenied true)
  | r => r

/-- parser.py:2053-2076 `FilePolicy(policy_path=dirs)`: the rules of the policy object. -/
def filePolicy (fs : FS) (legacy : Path) (dirs : List Path) (n : Nat) :
    Except Err (List Rule) :=
  wrapOSError (loadPolicyDirs fs legacy dirs n)

/-! ### `ValidateParser` -/

/-- The `overrides` dict (parser.py:2137-2146): new content, or `none` for a removed file. -/
abbrev Overrides := List (Path × Option Str)

/-- `self.overrides[path]`, `none` when the key is missing. -/
def Overrides.get? : Overrides → Path → Option (Option Str)
  | [], _ => none
  | (k, v) :: rest, p => if k = p then some v else Overrides.get? rest p

/-- parser.py:2163-2177 `ValidateParser.resolve_filepath`. -/
def validateFilepath (fs : FS) (ov : Overrides) (base : Path) (included : Str) :
    Except Err Opened :=
  let p := fs.resolve (joinPath base included)
  match ov.get? p with
  | some none => .error .policySyntax
  | some (some text) => .ok (stringIOLines text, p)
  | none => resolveFilepath fs base included

/-- parser.py:2154-2161 `ValidateParser.load_policy_dir(d)`: the files loaded, in order. -/
def validateDirFiles (fs : FS) (ov : Overrides) (d : Path) :
    Except Err (List (Except Err Opened)) :=
  match fs.dir d with
  | none => .error .osError
  | some names => do
    let files ← filterFilepaths fs d names
    let kept := files.filter fun n => (ov.get? (d ++ [n])).isNone
    let over := ov.filterMap fun (p, v) =>
      if p.dropLast = d && !p.isEmpty then v.map fun text => Except.ok (stringIOLines text, p)
      else none
    return kept.map (fun n => openPath fs (d ++ [n])) ++ over

/-- parser.py:2000-2026 `!include-dir` in `ValidateParser`. -/
def validateDir (fs : FS) (ov : Overrides) (base : Path) (included : Str) :
    Except Err (List (Except Err Opened)) :=
  let p := fs.resolve (joinPath base included)
  match fs.dir p with
  | none => .error .policySyntax
  | some _ => validateDirFiles fs ov p

/-- `ValidateParser` as a loader. -/
def validateEnv (fs : FS) (legacy : Path) (ov : Overrides) (base : Path) : LoadEnv where
  openFile := validateFilepath fs ov base
  openDir := validateDir fs ov base
  compat := compat40 fs legacy

/-- parser.py:2140-2180 `ValidateParser(overrides=ov, policy_path=base)`.  The rules it parses
are thrown away (`handle_rule` is `pass`). -/
def validatePolicy (fs : FS) (legacy : Path) (ov : Overrides) (base : Path) (n : Nat) :
    Except Err Unit :=
  wrapOSError do
    let files ← validateDirFiles fs ov base
    let _ ← collectRules (fun f => do let f ← f; loadFile (validateEnv fs legacy ov base) n f)
      files
    return ()

end Qrexec
