import Verif.Model.Loader
import Verif.Model.Policy

/-!
# The policy admin API (qrexec/policy/admin.py)

`handle_request` is modelled as a plan (everything it reads and checks, and the file system
operations it decides to do) followed by the operations themselves, one at a time, so that a
crash between any two of them can be stated.  Files of the policy directories are bytes here.
-/
namespace Qrexec

/-- Python `bytes`: the byte `b` is the character with code `b`. -/
abbrev Bytes := List Char

/-- The parts of the platform the model leaves open. -/
structure Host where
  /-- `hashlib.sha256(data).hexdigest()` -/
  hash : Bytes → Bytes
  /-- UTF-8 decoding, of `data.decode("utf-8")` and of a file opened in text mode
  (simplification: the locale encoding is UTF-8). -/
  decode : Bytes → Option Str

/-- The file system.  `content` and `entries` are of real (resolved) paths. -/
structure Disk where
  /-- `Path.resolve()`; fixed: no request creates or removes a symbolic link. -/
  resolve : Path → Path
  content : Path → Option Bytes
  /-- names in a directory, in `iterdir()` order -/
  entries : Path → Option (List Str)

/-- Text of a file. -/
def decodeText (h : Host) (b : Bytes) : Except Err Str :=
  match h.decode b with
  | some s => .ok s
  | none => .error .unicode

/-- What the policy loader sees of a disk: symbolic links are followed. -/
def Disk.fs (h : Host) (d : Disk) : FS where
  resolve := d.resolve
  file p := (d.content (d.resolve p)).map (decodeText h)
  dir p := d.entries (d.resolve p)

/-- `path.name`. -/
def fileName (p : Path) : Str := p.getLast?.getD []

/-- Effect of creating or overwriting the file `p`. -/
def Disk.setFile (d : Disk) (p : Path) (b : Bytes) : Disk where
  resolve := d.resolve
  content q := if q = p then some b else d.content q
  entries q := if q = p.dropLast then
      (d.entries q).map fun ns => if ns.contains (fileName p) then ns else ns ++ [fileName p]
    else d.entries q

/-- Effect of removing the file `p`. -/
def Disk.removeFile (d : Disk) (p : Path) : Disk where
  resolve := d.resolve
  content q := if q = p then none else d.content q
  entries q := if q = p.dropLast then (d.entries q).map fun ns => ns.filter (· != fileName p)
    else d.entries q

/-- One operation on the file system, atomic (admin.py:243-254, 276). -/
inductive Write where
  /-- `open(p, "wb")`: create or truncate -/
  | create (p : Path)
  /-- one more byte written to the open file -/
  | append (p : Path) (b : Char)
  /-- `chmod` and `chown` -/
  | setOwner (p : Path)
  | rename (src dst : Path)
  | unlink (p : Path)
  /-- `open(p, "a")`: create if missing -/
  | touch (p : Path)
  /-- one `write(2)` of several bytes to a file opened for appending -/
  | appendText (p : Path) (bs : Bytes)
  deriving DecidableEq, Repr

/-- Execute one operation, or raise an `OSError`.  (Simplification: the only failures are
those due to the kind of the files involved; other failures, such as a full disk, are covered
like crashes.  The temporary file is not a symbolic link.) -/
def Disk.apply (d : Disk) : Write → Except Err Disk
  | .create p =>
    if (d.entries p).isSome || (d.entries p.dropLast).isNone then .error .osError
    else .ok (d.setFile p [])
  | .append p b =>
    match d.content p with
    | none => .error .osError
    | some bs => .ok (d.setFile p (bs ++ [b]))
  | .setOwner p => if (d.content p).isSome then .ok d else .error .osError
  | .rename src dst =>
    match d.content src with
    | none => .error .osError
    | some bs =>
      if (d.entries dst).isSome then .error .osError
      else .ok ((d.setFile dst bs).removeFile src)
  | .unlink p => if (d.content p).isSome then .ok (d.removeFile p) else .error .osError
  | .touch p =>
    if (d.entries p).isSome || (d.entries p.dropLast).isNone then .error .osError
    else .ok (if (d.content p).isSome then d else d.setFile p [])
  | .appendText p bs =>
    match d.content p with
    | none => .error .osError
    | some old => .ok (d.setFile p (old ++ bs))

/-- Execute operations until one fails. -/
def runWrites : Disk → List Write → Disk × Option Err
  | d, [] => (d, none)
  | d, w :: ws =>
    match d.apply w with
    | .ok d' => runWrites d' ws
    | .error e => (d, some e)

/-- The exceptions of admin.py:34-76; `internal` is any other exception. -/
inductive AdminErr where
  | token
  | notFound
  | protocol
  | syntax
  | fileName
  | filePath
  /-- `sys.exit(1)` of qubes-rpc-dom0/policy.RegisterArgument:72-74 -/
  | died
  | internal (e : Err)
  deriving DecidableEq, Repr

/-- `PolicyAdmin.policy_path` (admin.py:110-112), the legacy directory, and the nesting the
interpreter allows when policy files are loaded. -/
structure AdminConf where
  policy : Path
  legacy : Path
  depth : Nat

/-- admin.py:112 `include_path`. -/
def AdminConf.incl (c : AdminConf) : Path := c.policy ++ [c!"include"]

/-- `RENAME_PREFIX + path.name` in the directory of `path` (admin.py:89, 242). -/
def tempPath (p : Path) : Path := p.dropLast ++ ['!' :: fileName p]

/-- admin.py:359-360 `compute_token`. -/
def computeToken (h : Host) (data : Bytes) : Bytes := c!"sha256:" ++ h.hash data

/-- `\w` or `-` for the characters `RPCNAME_ALLOWED_CHARSET` lets through (admin.py:310). -/
def adminNameChar (c : Char) : Bool :=
  ('0' ≤ c && c ≤ '9') || ('a' ≤ c && c ≤ 'z') || ('A' ≤ c && c ≤ 'Z') || c == '_' || c == '-'

/-- admin.py:309-323 `_get_path`.  (The directory is not the root directory.) -/
def adminPath (d : Disk) (arg : Str) (dir : Path) (suffix : Str) : Except AdminErr Path :=
  if arg.isEmpty || !arg.all adminNameChar then .error .fileName
  else
    let p := d.resolve (dir ++ [arg ++ suffix])
    if p.dropLast = dir && !p.isEmpty then .ok p else .error .filePath

/-- `path.exists()`. -/
def Disk.exists (d : Disk) (p : Path) : Bool := (d.content p).isSome || (d.entries p).isSome

/-- admin.py:335-356 `_check_token`. -/
def checkToken (h : Host) (d : Disk) (p : Path) (token : Bytes) : Except AdminErr Unit :=
  if token == c!"any" then .ok ()
  else if token == c!"new" then
    if d.exists p then .error .token else .ok ()
  else if !startsWith c!"sha256:" token then .error .protocol
  else if !d.exists p then .error .token
  else match d.content p with
    | none => .error (.internal .osError)
    | some data => if computeToken h data == token then .ok () else .error .token

/-- admin.py:325-333 `_validate`. -/
def adminValidate (h : Host) (c : AdminConf) (d : Disk) (p : Path) (content : Option Str) :
    Except AdminErr Unit :=
  match validatePolicy (d.fs h) c.legacy [(p, content)] c.policy c.depth with
  | .ok _ => .ok ()
  | .error .policySyntax => .error .syntax
  | .error e => .error (.internal e)

/-- What a method returns and the operations it performs. -/
abbrev Plan := Option Bytes × List Write

/-- admin.py:186-198 `_common_list`, the name shown for an entry. -/
def listedName (suffix name : Str) : Option Str :=
  if suffix.isEmpty then some name
  else if endsWith suffix name then some (name.take (name.length - suffix.length))
  else none

/-- admin.py:186-200 `_common_list`. -/
def adminList (d : Disk) (dir : Path) (suffix : Str) : Except AdminErr Plan :=
  match d.entries (d.resolve dir) with
  | none => .error (.internal .osError)
  | some ns =>
    let files := ns.filter fun n => (d.content (d.resolve (dir ++ [n]))).isSome
    let text := (sortBy strLe (files.filterMap (listedName suffix))).flatMap (· ++ c!"\n")
    if text.all fun ch => ch.toNat < 128 then .ok (some text, [])
    else .error (.internal .unicode)

/-- admin.py:212-218 `_common_get`. -/
def adminGet (h : Host) (d : Disk) (p : Path) : Except AdminErr Plan :=
  match d.content p with
  | none => .error .notFound
  | some data => .ok (some (computeToken h data ++ '\n' :: data), [])

/-- The operations of `_common_replace` (admin.py:242-254). -/
def replaceWrites (p : Path) (data : Bytes) : List Write :=
  .create (tempPath p) :: data.map (.append (tempPath p)) ++
    [.setOwner (tempPath p), .rename (tempPath p) p]

/-- admin.py:232-254 `_common_replace`. -/
def adminReplace (h : Host) (c : AdminConf) (d : Disk) (p : Path) (payload : Bytes) :
    Except AdminErr Plan :=
  match splitOnce '\n' payload with
  | none => .error .protocol
  | some (token, data) => do
    checkToken h d p token
    match h.decode data with
    | none => .error (.internal .unicode)
    | some text => do
      adminValidate h c d p (some text)
      return (none, replaceWrites p data)

/-- admin.py:268-276 `_common_remove`. -/
def adminRemove (h : Host) (c : AdminConf) (d : Disk) (p : Path) (payload : Bytes) :
    Except AdminErr Plan := do
  checkToken h d p payload
  match d.content p with
  | none => .error .notFound
  | some _ => do
    adminValidate h c d p none
    return (none, [.unlink p])

/-- `path.stem`. -/
def pathStem (name : Str) : Str :=
  match (splitOnce '.' name.reverse) with
  | none => name
  | some (suf, rest) => if suf.isEmpty || rest.isEmpty then name else rest.reverse

/-- What `policy.GetFiles` shows for the file of a rule (admin.py:294-300). -/
def shownFile (c : AdminConf) (p : Path) : Str :=
  if c.policy.isPrefixOf p then pathStem (fileName p) else p.flatMap ('/' :: ·)

/-- `if x not in l: l.append(x)` over all of `xs` (admin.py:292-303). -/
def appendNew (l : List Str) : List Str → List Str
  | [] => l
  | x :: xs => appendNew (if l.contains x then l else l ++ [x]) xs

/-- admin.py:280-305 `policy_get_files`; parser.py:1854-1857 `find_rules_for_service`. -/
def adminGetFiles (h : Host) (c : AdminConf) (d : Disk) (arg : Str) : Except AdminErr Plan :=
  if arg.isEmpty then .error .protocol
  else if !arg.all fun ch => rpcNameChar ch && ch != '+' then .error .protocol
  else match filePolicy (d.fs h) c.legacy [c.policy] c.depth with
    | .error e => .error (.internal e)
    | .ok rules =>
      let found := findRulesForService rules arg
      .ok (some ((appendNew [] (found.map fun r => shownFile c r.filepath)).flatMap
        (· ++ c!"\n")), [])

/-- `if func.api_no_arg` / `api_no_payload`: nothing may be given (admin.py:140-150). -/
def noneGiven (s : Str) (k : Except AdminErr Plan) : Except AdminErr Plan :=
  if s.isEmpty then k else .error .protocol

/-- `with self._lock()` (admin.py:152-153, 163-175): opening the directory may fail. -/
def locked (c : AdminConf) (d : Disk) (k : Except AdminErr Plan) : Except AdminErr Plan :=
  if (d.entries (d.resolve c.policy)).isSome then k else .error (.internal .osError)

/-- admin.py:114-153 `handle_request` with `_find_method` (155-161) and the decorated methods
(178-305), up to the first write. -/
def adminPlan (h : Host) (c : AdminConf) (d : Disk) (service arg : Str) (payload : Bytes) :
    Except AdminErr Plan :=
  if !arg.all rpcNameChar then .error .protocol
  else if service == c!"policy.List" then
    noneGiven arg (noneGiven payload (locked c d (adminList d c.policy c!".policy")))
  else if service == c!"policy.include.List" then
    noneGiven arg (noneGiven payload (locked c d (adminList d c.incl [])))
  else if service == c!"policy.Get" then
    noneGiven payload (locked c d (do
      let p ← adminPath d arg c.policy c!".policy"
      adminGet h d p))
  else if service == c!"policy.include.Get" then
    noneGiven payload (locked c d (do
      let p ← adminPath d arg c.incl []
      adminGet h d p))
  else if service == c!"policy.Replace" then
    locked c d (do
      let p ← adminPath d arg c.policy c!".policy"
      adminReplace h c d p payload)
  else if service == c!"policy.include.Replace" then
    locked c d (do
      let p ← adminPath d arg c.incl []
      adminReplace h c d p payload)
  else if service == c!"policy.Remove" then
    locked c d (do
      let p ← adminPath d arg c.policy c!".policy"
      adminRemove h c d p payload)
  else if service == c!"policy.include.Remove" then
    locked c d (do
      let p ← adminPath d arg c.incl []
      adminRemove h c d p payload)
  else if service == c!"policy.GetFiles" then
    noneGiven payload (locked c d (adminGetFiles h c d arg))
  else .error .protocol

/-- A whole request: the file system afterwards and the answer or exception. -/
def handleAdmin (h : Host) (c : AdminConf) (d : Disk) (service arg : Str) (payload : Bytes) :
    Disk × Except AdminErr (Option Bytes) :=
  match adminPlan h c d service arg payload with
  | .error e => (d, .error e)
  | .ok (reply, ws) =>
    match runWrites d ws with
    | (d', none) => (d', .ok reply)
    | (d', some e) => (d', .error (.internal e))

end Qrexec
