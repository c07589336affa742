import Verif.Model.Str

/-!
# Restoring a policy (qrexec/tools/qrexec_policy_restore.py) and the order for it (qrexec/policy/parser.py:2183-2316)

Simplified: a directory is a list of files (name relative to it, content); permissions and failures of single writes are not
modelled. `logging` has no effect.
-/
namespace Qrexec

/-- What Python raises here. -/
inductive PyErr where
  | attribute (name : Str)
  | type
  deriving DecidableEq, Repr

/-- parser.py: the names that the module defines or imports (24-2391, its definitions at the outermost level). -/
def parserNames : List Str :=
  [c!"abc", c!"collections", c!"enum", c!"io", c!"itertools", c!"logging", c!"pathlib", c!"string",
   c!"Iterable", c!"List", c!"TextIO", c!"Tuple", c!"Dict", c!"Optional", c!"Set", c!"Union", c!"Type", c!"NoReturn", c!"FrozenSet",
   c!"Sequence", c!"POLICYPATH", c!"RPCNAME_ALLOWED_CHARSET", c!"POLICYSUFFIX", c!"RUNTIME_POLICY_PATH", c!"FullSystemInfo",
   c!"SystemInfo", c!"uuid_to_name", c!"exc", c!"AccessDenied", c!"PolicySyntaxError", c!"RequestError", c!"FILENAME_ALLOWED_CHARSET",
   c!"filter_filepaths", c!"parse_service_and_argument", c!"get_invalid_characters", c!"validate_service_and_argument",
   c!"VMTokenMeta", c!"match_strings", c!"is_dom0", c!"VMToken", c!"Source", c!"_BaseTarget", c!"Target", c!"Redirect",
   c!"IntendedTarget", c!"WildcardVM", c!"AdminVM", c!"AnyVM", c!"DefaultVM", c!"TypeVM", c!"TagVM", c!"DispVM", c!"DispVMTemplate",
   c!"DispVMTag", c!"AbstractResolution", c!"AllowResolution", c!"AskResolution", c!"Request", c!"ActionType", c!"Deny", c!"Allow",
   c!"Ask", c!"Action", c!"Rule", c!"AbstractParser", c!"AbstractPolicy", c!"AbstractFileLoader", c!"AbstractDirectoryLoader",
   c!"AbstractFileSystemLoader", c!"FilePolicy", c!"ValidateParser", c!"ToposortMixIn", c!"StringLoader", c!"StringPolicy"]

/-- A directory with policy files: its files, and whether there is a directory `include` in it. -/
structure PolicyTree where
  files : List (Str × Str)
  hasInclude : Bool
  deriving DecidableEq, Repr

/-- qrexec_policy_restore.py:73-83: one file of the backup; a file that exists is not overwritten. -/
def restoreFile (dest : PolicyTree) (f : Str × Str) : PolicyTree :=
  if dest.files.any (fun g => g.1 == f.1) then dest else { dest with files := dest.files ++ [f] }

/-- qrexec_policy_restore.py:53-83 `main`; `names`: what `parser` has; `order`: what its function `toposort` would yield.
The live policy afterwards, and the exit status or what is raised. -/
def restoreMain (names : List Str) (order : List (Str × Str) → List (Str × Str)) (backup : List (Str × Str)) (dest : PolicyTree) :
    PolicyTree × Except PyErr Nat :=
  let dest := { dest with hasInclude := true }
  if names.contains c!"toposort" then ((order backup).foldl restoreFile dest, .ok 0)
  else (dest, .error (.attribute c!"toposort"))

/-! ## The order -/

/-- What a set of Python may be asked to hold here. -/
inductive PyElem where
  | str (s : Str)
  | set (l : List Str)
  deriving DecidableEq, Repr

/-- Adding to a set: elements have to be hashable, a set is not. -/
def pySetAdd (q : List PyElem) (e : PyElem) : Except PyErr (List PyElem) :=
  match e with
  | .str _ => .ok (if q.contains e then q else q ++ [e])
  | .set _ => .error .type

/-- `set.update` -/
def pySetUpdate (q : List PyElem) : List PyElem → Except PyErr (List PyElem)
  | [] => .ok q
  | e :: es => match pySetAdd q e with
    | .ok q => pySetUpdate q es
    | .error x => .error x

/-- `included_paths`, a `defaultdict(set)`, in the order of insertion. -/
abbrev InclPaths := List (Str × List Str)

/-- What loading does to it: parser.py:2310-2314 `load_policy_file` mentions the key of a file; 2247-2269 `save_included_path`
adds the included path under *its* key. -/
inductive TsEvent where
  | load (key : Str)
  | incl (key path : Str)
  deriving DecidableEq, Repr

/-- `included_paths[key]`: makes an entry if there is none. -/
def inclTouch (m : InclPaths) (key : Str) : InclPaths := if m.any (fun x => x.1 == key) then m else m ++ [(key, [])]

def inclAdd (m : InclPaths) (key path : Str) : InclPaths :=
  (inclTouch m key).map fun x => if x.1 == key then (x.1, if x.2.contains path then x.2 else x.2 ++ [path]) else x

def tsEvent (m : InclPaths) : TsEvent → InclPaths
  | .load key => inclTouch m key
  | .incl key path => inclAdd m key path

/-- parser.py:2216-2231 `toposort`, the first call: `self.queue.update(itertools.chain(self.included_paths.values()))` adds the
values, which are sets, and not their elements. `dfs`: what would follow for the elements of the queue. -/
def toposort (dfs : List PyElem → Except PyErr (List Str)) (m : InclPaths) : Except PyErr (List Str) :=
  match pySetUpdate (m.map fun x => .str x.1) (m.map fun x => .set x.2) with
  | .error x => .error x
  | .ok [] => .ok []
  | .ok q => dfs q

end Qrexec
