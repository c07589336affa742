import Verif.Model.Str

/-!
File descriptors of a service (libqrexec/exec.c:222-300): the pipes between an agent and the process it starts.

Simplified: `socketpair`, `pipe2`, `fork` and `dup2` of an open descriptor succeed (a failure ends the request, see
`StartWorld.forks`); threads.
-/
namespace Qrexec

/-- What a descriptor refers to. -/
inductive FdFile where
  /-- something the process had before -/
  | other (n : Nat)
  /-- ends of the pair for stdin: of the service, of the agent -/
  | inService | inAgent
  /-- ends of the pair for stdout -/
  | outAgent | outService
  /-- ends of the pipe for stderr -/
  | errAgent | errService
  deriving DecidableEq, Repr

/-- An entry of the descriptor table; `cloexec`: closed by `execve`. -/
structure FdEnt where
  file : FdFile
  cloexec : Bool
  deriving DecidableEq, Repr

/-- A table: the entry for each number. -/
abbrev FdTable := List (Option FdEnt)

/-- Entry of a number. -/
def fdGet (t : FdTable) (n : Nat) : Option FdEnt := (t[n]?).join

/-- Table with another entry. -/
def fdSet (t : FdTable) (n : Nat) (e : Option FdEnt) : FdTable :=
  (t ++ List.replicate (n + 1 - t.length) none).set n e

/-- The number a new descriptor gets: the lowest that is free. -/
def fdFree (t : FdTable) : Nat := t.findIdx (·.isNone)

/-- A new descriptor. -/
def fdOpen (t : FdTable) (file : FdFile) : FdTable × Nat := (fdSet t (fdFree t) (some ⟨file, true⟩), fdFree t)

/-- dup2(2): the copy is not closed by `execve`; a descriptor that is not open is an error. -/
def fdDup2 (t : FdTable) (a b : Nat) : Option FdTable :=
  match fdGet t a with
  | none => none
  | some e => if a = b then some t else some (fdSet t b (some ⟨e.file, false⟩))

/-- execve(2). -/
def fdExec (t : FdTable) : FdTable := t.map fun e => match e with
  | some x => if x.cloexec then none else some x
  | none => none

/-- Result of `close_range`. -/
inductive CloseRange where
  | ok
  | enosys
  | otherError
  deriving DecidableEq, Repr

/-- How `fix_fds` ends. -/
inductive FixRes where
  | done (t : FdTable)
  | exits (status : Nat)
  | aborts
  deriving DecidableEq, Repr

/-- exec.c:244-252: closing. -/
def fdCloseRest (cr : CloseRange) (t : FdTable) : FixRes :=
  match cr with
  | .ok => .done (t.take 3)
  | .otherError => .aborts
  | .enosys => .done (t.take 3 ++ List.replicate ((t.take 256).length - (t.take 3).length) none ++ t.drop 256)

/-- exec.c:236: `fd != want && dup2(fd, want) < 0`; `none` if it fails. -/
def fdMove (t : FdTable) (fd want : Nat) : Option FdTable := if fd ≠ want then fdDup2 t fd want else some t

/-- exec.c:227-252 `fix_fds`. -/
def fixFds (cr : CloseRange) (t : FdTable) (fdin fdout fderr : Nat) : FixRes :=
  if fdout < 1 ∨ fderr < 2 then .exits 125
  else match fdMove t fdin 0 with
    | none => .aborts
    | some t1 => match fdMove t1 fdout 1 with
      | none => .aborts
      | some t2 => match fdMove t2 fderr 2 with
        | none => .aborts
        | some t3 => fdCloseRest cr t3

/-- The agent's side of a started process. -/
structure ForkedFds where
  table : FdTable
  stdin : Nat
  stdout : Nat
  stderr : Option Nat
  child : FixRes
  deriving DecidableEq, Repr

/-- exec.c:254-300 `do_fork_exec`; `wantErr`: `stderr_fd` is given. -/
def forkFds (cr : CloseRange) (wantErr : Bool) (t : FdTable) : ForkedFds :=
  let (t1, in0) := fdOpen t .inService
  let (t2, in1) := fdOpen t1 .inAgent
  let (t3, out0) := fdOpen t2 .outAgent
  let (t4, out1) := fdOpen t3 .outService
  if wantErr then
    let (t5, err0) := fdOpen t4 .errAgent
    let (t6, err1) := fdOpen t5 .errService
    { child := fixFds cr t6 in0 out1 err1
      table := fdSet (fdSet (fdSet t6 in0 none) out1 none) err1 none
      stdin := in1, stdout := out0, stderr := some err0 }
  else
    { child := fixFds cr t4 in0 out1 2
      table := fdSet (fdSet t4 in0 none) out1 none
      stdin := in1, stdout := out0, stderr := none }

end Qrexec
