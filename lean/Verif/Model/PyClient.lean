import Verif.Model.AdminClient

/-!
# The Python client (qrexec/client.py, qrexec/utils.py:179-200)

`subprocess` and `asyncio` are represented by what their documentation says of the arguments used here.  A file is its descriptor.
-/
namespace Qrexec

/-- What a caller may give as `input`. -/
inductive PyInput where
  | none
  | bytes (b : Bytes)
  | str (s : Str)
  | file (fd : Nat)
  deriving DecidableEq, Repr

/-- The values of the keyword `stdin`. -/
inductive PyStdin where
  | devnull
  | pipe
  | file (fd : Nat)
  deriving DecidableEq, Repr

/-- The dictionary; `none`: the key is not there. The keys `stdout` and `stderr` have the value `PIPE`. -/
structure PyKwds where
  stdin : Option PyStdin := none
  input : Option Bytes := none
  stdout : Bool := false
  stderr : Bool := false
  deriving DecidableEq, Repr

/-- utils.py:179-200 `prepare_subprocess_kwds`. -/
def prepareKwds (enc : Str → Bytes) (input : PyInput) (forPopen forCheck : Bool) : PyKwds :=
  let k : PyKwds := match input with
    | .none => { stdin := some .devnull }
    | .bytes b => { stdin := if forPopen then some .pipe else none, input := some b }
    | .str s => { stdin := if forPopen then some .pipe else none, input := some (enc s) }
    | .file fd => { stdin := some (.file fd) }
  { k with stdout := !forCheck, stderr := true }

/-- What a started program has as its standard input: nothing, these bytes and then the end, a file, or that of the caller. -/
inductive PyFeed where
  | nothing
  | bytes (b : Bytes)
  | file (fd : Nat)
  | callers
  deriving DecidableEq, Repr

/-- How a call ends for the caller. -/
inductive PyRes where
  | ok (s : Str)
  /-- an exception of `make_command`, `subprocess` or `decode` -/
  | fails (e : ClientErr)
  /-- `KeyError` -/
  | keyError
  /-- `ValueError` for arguments that exclude each other -/
  | valueError
  deriving DecidableEq, Repr

/-- What is done: a program is started, with these words and this input, at most once. -/
abbrev PyRun := Option (List Str × PyFeed)

/-- The standard input of a program that is started with `stdin=`, and gets `data` through the pipe. -/
def pyFeed (stdin : Option PyStdin) (data : Bytes) : PyFeed :=
  match stdin with
  | none => .callers
  | some .devnull => .nothing
  | some .pipe => .bytes data
  | some (.file fd) => .file fd

/-- `subprocess.check_output(command, **kwds)` (Python's documentation: `stdout` is not allowed; `input` together with `stdin`
neither; `input` implies a pipe), then `.decode()`. `run` is what the started program does. -/
def pyCheckOutput (h : Host) (run : List Str → PyFeed → ProcEnd) (command : List Str) (k : PyKwds) : PyRun × PyRes :=
  if k.stdout then (none, .valueError)
  else if k.input.isSome && k.stdin.isSome then (none, .valueError)
  else if command.any fun w => w.contains '\x00' then (none, .fails .nul)
  else
    let f := match k.input with
      | some b => .bytes b
      | none => pyFeed k.stdin []
    let e := run command f
    (some (command, f), if e.status != 0 then .fails (.failed e.status (if k.stderr then e.stderr else []))
      else match h.decode e.stdout with
        | some s => .ok s
        | none => .fails .decode)

/-- client.py:37-56 `call`. -/
def pyCall (h : Host) (enc : Str → Bytes) (inDom0 : Option Bool) (run : List Str → PyFeed → ProcEnd) (dest rpc : Str) (arg : Option Str)
    (input : PyInput) : PyRun × PyRes :=
  match makeCommand inDom0 dest rpc arg with
  | .error e => (none, .fails e)
  | .ok command => pyCheckOutput h run command (prepareKwds enc input false true)

/-- client.py:59-82 `call_async`, as it goes if it is not cancelled. `create_subprocess_exec` has no `input`; `communicate` writes
what it is given to the pipe. -/
def pyCallAsync (h : Host) (enc : Str → Bytes) (inDom0 : Option Bool) (run : List Str → PyFeed → ProcEnd) (dest rpc : Str)
    (arg : Option Str) (input : PyInput) : PyRun × PyRes :=
  match makeCommand inDom0 dest rpc arg with
  | .error e => (none, .fails e)
  | .ok command =>
    let k := prepareKwds enc input true false
    match k.input with
    | none => (none, .keyError)
    | some data =>
      if command.any fun w => w.contains '\x00' then (none, .fails .nul)
      else
        let e := run command (pyFeed k.stdin data)
        (some (command, pyFeed k.stdin data), if e.status != 0 then .fails (.failed e.status [])
          else if !k.stdout then .fails .decode
          else match h.decode e.stdout with
            | some s => .ok s
            | none => .fails .decode)

/-- client.py:31-34: is this dom0? -/
def pyInDom0 (isFile : Str → Bool) : Option Bool :=
  if isFile c!"/usr/bin/qrexec-client" then some true
  else if isFile c!"/usr/bin/qrexec-client-vm" then some false
  else none

end Qrexec
