import Verif.Model.Str

/-!
# libqrexec/ioall.c, txrx-vchan.c: complete reads and writes

The kernel is a schedule: one entry for each system call. A function whose schedule is used up has not
returned yet (`blocked`); every execution that returns is an execution with some finite schedule.
-/
namespace Qrexec

/-- What a system call does. `part n`: it transfers `n + 1` bytes, or as many as possible if these are fewer
(at the end of the stream a read returns 0); `zero`: a write, or a read of a vchan, returns 0 (this does not
happen to reads of file descriptors before the end of the stream; such entries are skipped). -/
inductive Sys where
  | part (n : Nat)
  | zero
  | eintr
  | eagain
  | error
  deriving DecidableEq, Repr

/-- How a call ends: `done` with the result 1 or true, `failed` with 0, false or NULL, `blocked` not yet,
`fault`: an assertion fails or memory outside of the buffer is accessed. -/
inductive IoRes where
  | done
  | failed
  | blocked
  | fault
  deriving DecidableEq, Repr

/-- ioall.c:56-71 `write_all`: the result and what has been written. -/
def writeAll : List Sys → Str → IoRes × Str
  | _, [] => (.done, [])
  | [], _ => (.blocked, [])
  | .part n :: ks, d =>
    let r := writeAll ks (d.drop (n + 1))
    (r.1, d.take (n + 1) ++ r.2)
  | .eintr :: ks, d => writeAll ks d
  | .zero :: _, _ => (.failed, [])
  | .eagain :: _, _ => (.failed, [])
  | .error :: _, _ => (.failed, [])

/-- txrx-vchan.c:52-64 `write_vchan_all`: a write that returns 0 is repeated, any failure is final. -/
def writeVchanAll : List Sys → Str → IoRes × Str
  | _, [] => (.done, [])
  | [], _ => (.blocked, [])
  | .part n :: ks, d =>
    let r := writeVchanAll ks (d.drop (n + 1))
    (r.1, d.take (n + 1) ++ r.2)
  | .zero :: ks, d => writeVchanAll ks d
  | .eintr :: _, _ => (.failed, [])
  | .eagain :: _, _ => (.failed, [])
  | .error :: _, _ => (.failed, [])

/-- ioall.c:73-99 `read_all` on a stream that ends after `s`: the result, what was read, what is left. `buf` is
what has been read already. -/
def readAll : List Sys → Str → Nat → Str → IoRes × Str × Str
  | ks, s, size, buf =>
    if buf.length < size then
      match ks with
      | [] => (.blocked, buf, s)
      | .part n :: ks =>
        let k := min (n + 1) (size - buf.length)
        if s.isEmpty then (.failed, buf, s)
        else readAll ks (s.drop k) size (buf ++ s.take k)
      | .eintr :: ks => readAll ks s size buf
      | .zero :: ks => readAll ks s size buf
      | .eagain :: _ => (.failed, buf, s)
      | .error :: _ => (.failed, buf, s)
    else (.done, buf, s)
termination_by structural ks => ks

/-- txrx-vchan.c:66-78 `read_vchan_all`: `s` are the bytes that the other end sends before it goes away. -/
def readVchanAll : List Sys → Str → Nat → Str → IoRes × Str × Str
  | ks, s, size, buf =>
    if buf.length < size then
      match ks with
      | [] => (.blocked, buf, s)
      | .part n :: ks =>
        let k := min (n + 1) (size - buf.length)
        if s.isEmpty then (.failed, buf, s)
        else readVchanAll ks (s.drop k) size (buf ++ s.take k)
      | .zero :: ks => readVchanAll ks s size buf
      | .eintr :: _ => (.failed, buf, s)
      | .eagain :: _ => (.failed, buf, s)
      | .error :: _ => (.failed, buf, s)
    else (.done, buf, s)
termination_by structural ks => ks

/-- ioall.c:120-193, the loop of `qubes_read_all_to_malloc`: `buf` are the bytes in the buffer (its length is
`offset`), `bufSize` is the size of the allocation. `fault`: the assertion at 123 fails, or 146 writes behind
the end of the buffer. Not modelled: failures of malloc and realloc. -/
def readMallocLoop (maxBytes : Nat) : List Sys → Str → Nat → Str → IoRes × Str
  | ks, s, bufSize, buf =>
    if bufSize ≤ buf.length then (.fault, buf)
    else
      let toRead := bufSize - buf.length
      match ks with
      | [] => (.blocked, buf)
      | .eintr :: ks => readMallocLoop maxBytes ks s bufSize buf
      | .eagain :: ks => readMallocLoop maxBytes ks s bufSize buf
      | .error :: _ => (.failed, [])
      | .zero :: ks => readMallocLoop maxBytes ks s bufSize buf
      | .part n :: ks =>
        let got := s.take (min (n + 1) toRead)
        if got.length == 0 then
          if buf.length < bufSize then (.done, buf) else (.fault, buf)
        else if got.length == toRead then
          if maxBytes ≤ bufSize then (.failed, [])
          else
            let new := if maxBytes - bufSize > bufSize / 2 then bufSize + bufSize / 2 else maxBytes
            readMallocLoop maxBytes ks (s.drop got.length) new (buf ++ got)
        else readMallocLoop maxBytes ks (s.drop got.length) bufSize (buf ++ got)
termination_by structural ks => ks

/-- ioall.c:102-197 `qubes_read_all_to_malloc`; `fault` also when it is called with bad sizes (108-122). -/
def readAllToMalloc (ks : List Sys) (s : Str) (initial maxBytes : Nat) : IoRes × Str :=
  if maxBytes > 2147483647 then (.fault, [])
  else if initial < 2 || maxBytes < initial then (.fault, [])
  else readMallocLoop maxBytes ks s initial []

/-- ioall.c:235-248, the inner loop of `qubes_sendmsg_all`: the iovecs that are left after `res` bytes were
accepted; `none`: an iovec behind the last one is accessed. -/
def iovAdvance : List Str → Nat → Option (List Str)
  | [], _ => none
  | v :: vs, res =>
    if res < v.length then some (v.drop res :: vs)
    else match vs with
      | [] => some []
      | w :: ws => iovAdvance (w :: ws) (res - v.length)

/-- ioall.c:221-251 `qubes_sendmsg_all`: the result and what was sent. -/
def sendmsgAll : List Sys → List Str → IoRes × Str
  | _, [] => (.done, [])
  | [], _ => (.blocked, [])
  | .part n :: ks, v :: vs =>
    let all := (v :: vs).flatten
    match iovAdvance (v :: vs) (all.take (n + 1)).length with
    | none => (.fault, all.take (n + 1))
    | some vs =>
      let r := sendmsgAll ks vs
      (r.1, all.take (n + 1) ++ r.2)
  | .zero :: ks, v :: vs =>
    match iovAdvance (v :: vs) 0 with
    | none => (.fault, [])
    | some vs => sendmsgAll ks vs
  | .eintr :: ks, v :: vs => sendmsgAll ks (v :: vs)
  | .eagain :: ks, v :: vs => sendmsgAll ks (v :: vs)
  | .error :: _, _ :: _ => (.failed, [])

/-- ioall.c:199-219 `copy_fd_all`: `k` is the size of each read minus one, for each read also the schedule of the
write. A read of an exhausted stream returns 0 and ends the copy. -/
def copyFdAll : List (Sys × List Sys) → Str → IoRes × Str
  | [], _ => (.blocked, [])
  | (.part n, ws) :: ks, s =>
    let d := s.take (min (n + 1) 4096)
    if d.length == 0 then (.done, [])
    else match writeAll ws d with
      | (.done, w) =>
        let r := copyFdAll ks (s.drop d.length)
        (r.1, w ++ r.2)
      | (r, w) => (r, w)
  | (.eintr, _) :: ks, s => copyFdAll ks s
  | (.zero, _) :: ks, s => copyFdAll ks s
  | (.eagain, _) :: _, _ => (.failed, [])
  | (.error, _) :: _, _ => (.failed, [])

end Qrexec
