import Verif.Model.Str

/-!
# libqrexec/buffer.c: the buffers of a process, and their common memory limit
-/
namespace Qrexec

/-- buffer.c:29 `BUFFER_LIMIT`. -/
def bufferLimit : Nat := 50000000

/-- The buffers of a process, by number, and the static `total_mem` (buffer.c:30). -/
structure BufState where
  bufs : List Str
  mem : Nat
  deriving DecidableEq, Repr

/-- `n` initialised buffers (buffer.c:56-60 `buffer_init`). -/
def BufState.start (n : Nat) : BufState := ⟨List.replicate n [], 0⟩

/-- buffer.c:31-46 `limited_malloc`; `none`: the process is aborted. -/
def limitedMalloc (mem len : Nat) : Option Nat :=
  if mem + len > bufferLimit || len == 0 then none else some (mem + len)

/-- buffer.c:48-54 `limited_free`. -/
def limitedFree (mem len : Nat) : Option Nat := if mem < len then none else some (mem - len)

/-- buffer.c:62-67 `buffer_free`, the accounting. -/
def bufferFree (mem : Nat) (b : Str) : Option Nat :=
  if b.length != 0 then limitedFree mem b.length else some mem

/-- buffer.c:79-103 `buffer_append`. -/
def bufferAppend (s : BufState) (i : Nat) (data : Str) : Option BufState :=
  let b := s.bufs.getD i []
  if b.length > bufferLimit then none
  else if data.length > bufferLimit then none
  else if data.length == 0 then some s
  else match limitedMalloc s.mem (data.length + b.length) with
    | none => none
    | some m => match bufferFree m b with
      | none => none
      | some m => some ⟨s.bufs.set i (b ++ data), m⟩

/-- buffer.c:105-121 `buffer_remove`. -/
def bufferRemove (s : BufState) (i : Nat) (len : Nat) : Option BufState :=
  let b := s.bufs.getD i []
  if len > b.length then none
  else
    let new := b.drop len
    match (if new.length > 0 then limitedMalloc s.mem new.length else some s.mem) with
    | none => none
    | some m => match bufferFree m b with
      | none => none
      | some m => some ⟨s.bufs.set i new, m⟩

/-- buffer.c:62-67 `buffer_free`. -/
def bufferClear (s : BufState) (i : Nat) : Option BufState :=
  match bufferFree s.mem (s.bufs.getD i []) with
  | none => none
  | some m => some ⟨s.bufs.set i [], m⟩

/-- Operations. -/
inductive BufOp where
  | append (i : Nat) (data : Str)
  | remove (i : Nat) (len : Nat)
  | free (i : Nat)
  deriving DecidableEq, Repr

/-- One operation. -/
def bufOp (s : BufState) : BufOp → Option BufState
  | .append i data => bufferAppend s i data
  | .remove i len => bufferRemove s i len
  | .free i => bufferClear s i

/-- A sequence of operations; `none`: the process was aborted. -/
def bufOps (s : BufState) : List BufOp → Option BufState
  | [] => some s
  | o :: os => match bufOp s o with
    | none => none
    | some s => bufOps s os

end Qrexec
