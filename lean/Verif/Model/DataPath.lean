import Verif.Model.IoAll

/-!
# libqrexec: the data connection (write-stdin.c, remote.c, replace.c, process_io.c)

Both ends of a data vchan run `qrexec_process_io`. Everything outside of the process is an oracle: what arrives on
the vchan, how much of each write the kernel accepts, what reads of the local descriptors give, when children
exit, when descriptors hang up. The vchan carries messages here; that the bytes of a message are read back as the
message is the framing (`frame`, `unframe`). Not modelled: the memory limit of the buffers (Model/Buffer.lean), and
that the copy of stderr for the logger is written without a limit of time.
-/
namespace Qrexec

/-- libqrexec/qrexec.h:170-179, the types of data messages. -/
def msgStdin : Nat := 0x190
def msgStdout : Nat := 0x191
def msgStderr : Nat := 0x192
def msgExitCode : Nat := 0x193

/-- libqrexec-utils.h:274-279 `max_data_chunk_size`, qrexec.h `MAX_DATA_CHUNK_V2/V3`. -/
def maxDataChunk (version : Nat) : Nat := if version < 3 then 4096 else 65536

/-- A number as 4 bytes, least significant first, as the structures of qrexec.h are sent. -/
def u32le (n : Nat) : Str :=
  [Char.ofNat (n % 256), Char.ofNat (n / 256 % 256), Char.ofNat (n / 65536 % 256), Char.ofNat (n / 16777216 % 256)]

/-- The number in the first 4 bytes. -/
def u32of (s : Str) : Nat :=
  (s.getD 0 (Char.ofNat 0)).toNat + 256 * (s.getD 1 (Char.ofNat 0)).toNat +
    65536 * (s.getD 2 (Char.ofNat 0)).toNat + 16777216 * (s.getD 3 (Char.ofNat 0)).toNat

/-- The same as a signed number (`int`). -/
def i32of (s : Str) : Int := if u32of s < 2147483648 then (u32of s : Int) else (u32of s : Int) - 4294967296

/-- A signed number as 4 bytes. -/
def i32le (i : Int) : Str := u32le (i % 4294967296).toNat

/-- A message of the data vchan. -/
abbrev DMsg := Nat × Str

/-- remote.c:187-196, 215-222: header (qrexec.h:130-133 `struct msg_header`) and body. -/
def frame (m : DMsg) : Str := u32le m.1 ++ u32le m.2.length ++ m.2

/-- remote.c:63-72: the next message of the byte stream, or `none` if the stream ends within it or it is longer
than the buffer. -/
def unframe (maxLen : Nat) (s : Str) : Option (DMsg × Str) :=
  if s.length < 8 then none
  else
    let len := u32of (s.drop 4)
    if len > maxLen then none
    else if (s.drop 8).length < len then none
    else some ((u32of s, (s.drop 8).take len), s.drop (8 + len))

/-- replace.c:24-38 `do_replace_chars`. -/
def replaceChar (c : Char) : Char :=
  if (c.toNat < 32 || c.toNat > 126) && c != '\t' && c != '\n' && c != '\r' && c != Char.ofNat 8 && c != Char.ofNat 7
  then '_' else c

def doReplaceChars (s : Str) : Str := s.map replaceChar

/-! ## Writing to the local process -/

/-- libqrexec-utils.h:54-56 `WRITE_STDIN_*`; `aborted`: write-stdin.c:76-79. -/
inductive WStdin where
  | ok
  | buffered
  | error
  | aborted
  deriving DecidableEq, Repr

/-- write-stdin.c:35-59 `flush_client_data`, for an open descriptor: the result, the new buffer, what was written and
the rest of the schedule. A used up schedule stands for a full pipe. -/
def flushClientData : List Sys → Str → WStdin × Str × Str × List Sys
  | ks, [] => (.ok, [], [], ks)
  | [], b :: bs => (.buffered, b :: bs, [], [])
  | .part n :: ks, b :: bs =>
    let r := flushClientData ks ((b :: bs).drop (n + 1))
    (r.1, r.2.1, (b :: bs).take (n + 1) ++ r.2.2.1, r.2.2.2)
  | .zero :: ks, b :: bs => flushClientData ks (b :: bs)
  | .eagain :: ks, b :: bs => (.buffered, b :: bs, [], ks)
  | .eintr :: ks, b :: bs => (.error, b :: bs, [], ks)
  | .error :: ks, b :: bs => (.error, b :: bs, [], ks)

/-- write-stdin.c:74-91, the loop of `write_stdin` (the buffer is empty). -/
def writeStdinLoop : List Sys → Str → WStdin × Str × Str × List Sys
  | ks, [] => (.ok, [], [], ks)
  | [], d :: ds => (.buffered, d :: ds, [], [])
  | .part n :: ks, d :: ds =>
    let r := writeStdinLoop ks ((d :: ds).drop (n + 1))
    (r.1, r.2.1, (d :: ds).take (n + 1) ++ r.2.2.1, r.2.2.2)
  | .zero :: ks, _ :: _ => (.aborted, [], [], ks)
  | .eagain :: ks, d :: ds => (.buffered, d :: ds, [], ks)
  | .eintr :: ks, _ :: _ => (.error, [], [], ks)
  | .error :: ks, _ :: _ => (.error, [], [], ks)

/-- write-stdin.c:65-92 `write_stdin`. -/
def writeStdin (ks : List Sys) (data buf : Str) : WStdin × Str × Str × List Sys :=
  if buf.length != 0 then (.buffered, buf ++ data, [], ks)
  else writeStdinLoop ks data

/-! ## Receiving -/

/-- What the vchan delivers: a message, or a failing `libvchan_recv` (the other end went away within a message). -/
inductive InItem where
  | msg (t : Nat) (data : Str)
  | broken
  deriving DecidableEq, Repr

/-- libqrexec-utils.h:286-289 `REMOTE_*`. -/
inductive Rc where
  | exited
  | error
  | eof
  | ok
  | aborted
  deriving DecidableEq, Repr

/-- Fixed parameters of `qrexec_process_io` (process_io.c:93-110). `closes`: the descriptor for stdin is closed and
not only shut down by `close_stdio` (process_io.c:50-70). -/
structure IoCfg where
  isService : Bool
  hasPid : Bool
  replaceOut : Bool := false
  replaceErr : Bool := false
  exitOnStdinEof : Bool := false
  exitOnStdoutEof : Bool := false
  maxChunk : Nat := 65536
  closes : Bool := false
  /-- `logger_fd`, the descriptor that gets a copy of stderr (process_io.c:99; `none` for -1). All callers set the structure to
  zeroes at first (agent-data.c:212, 356, daemon-common.c:472). -/
  dup : Option Nat := some 0
  deriving Repr

/-- The variables of `qrexec_process_io`, and what it has done so far: `written` to the descriptor for stdin, `logged`
to its own stderr, `sent` on the vchan, `seen` the items received, `readOut`/`readErr` the bytes read from the local
stdout and stderr. `inbox`: items that have arrived and are not received yet.
`sendOk`: no send of a message has failed. -/
structure IoSt where
  stdin : Bool
  stdout : Bool
  stderr : Bool
  saved : Bool
  single : Bool
  buf : Str := []
  pfx : Str := []
  localStatus : Option Nat := none
  remoteStatus : Int := -1
  inbox : List InItem := []
  written : Str := []
  logged : Str := []
  sent : List DMsg := []
  seen : List InItem := []
  readOut : Str := []
  readErr : Str := []
  /-- written to the descriptor `dup` -/
  copied : Str := []
  sendOk : Bool := true
  deriving DecidableEq, Repr

/-- remote.c:62-142, the loop of `handle_remote_data_v2`. -/
def remoteLoop (c : IoCfg) : List InItem → List Sys → IoSt → Rc × IoSt
  | [], _, s => (.ok, { s with inbox := [] })
  | .broken :: q, _, s => (.error, { s with inbox := q, seen := s.seen ++ [.broken] })
  | .msg t d :: q, ks, s =>
    let s := { s with inbox := q, seen := s.seen ++ [.msg t d] }
    if d.length > c.maxChunk then (.error, s)
    else if t == msgStdin || t == msgStdout then
      if s.stdin == false then remoteLoop c q ks s
      else if d.length == 0 then (.eof, s)
      else
        let d := if c.replaceOut then doReplaceChars d else d
        match writeStdin ks d s.buf with
        | (.ok, b, w, ks) => remoteLoop c q ks { s with buf := b, written := s.written ++ w }
        | (.buffered, b, w, _) => (.ok, { s with buf := b, written := s.written ++ w })
        | (.error, b, w, _) => (.eof, { s with buf := b, written := s.written ++ w })
        | (.aborted, b, w, _) => (.aborted, { s with buf := b, written := s.written ++ w })
    else if t == msgStderr then
      if c.isService then remoteLoop c q ks s
      else remoteLoop c q ks { s with logged := s.logged ++ (if c.replaceErr then doReplaceChars d else d) }
    else if t == msgExitCode then
      if c.isService then remoteLoop c q ks s
      else (.exited, { s with remoteStatus := if d.length < 4 then 255 else i32of d })
    else (.error, s)

/-- remote.c:35-148 `handle_remote_data_v2`. With stdin closed the flush does nothing (write-stdin.c:37-38). -/
def handleRemoteData (c : IoCfg) (ks : List Sys) (s : IoSt) : Rc × IoSt :=
  if s.stdin == false then remoteLoop c s.inbox ks s
  else match flushClientData ks s.buf with
    | (.ok, b, w, ks) => remoteLoop c s.inbox ks { s with buf := b, written := s.written ++ w }
    | (.buffered, b, w, _) => (.ok, { s with buf := b, written := s.written ++ w })
    | (.error, b, w, _) => (.eof, { s with buf := b, written := s.written ++ w })
    | (.aborted, b, w, _) => (.aborted, { s with buf := b, written := s.written ++ w })

/-! ## Sending -/

/-- What a read gives; `got []` is the end of the file. -/
inductive ReadRes where
  | got (d : Str)
  | again
  | connReset
  | error
  deriving DecidableEq, Repr

/-- One iteration of `handle_input_v2`: the space in the vchan, the read, whether the two sends succeed. -/
structure OutStep where
  space : Int
  read : ReadRes
  hdrOk : Bool := true
  bodyOk : Bool := true
  /-- the copy of stderr: `none` if all is written, else how much before the write failed -/
  copyFails : Option Nat := none
  deriving DecidableEq, Repr

/-- remote.c:185-203: send a message, return whether to go on, and the code to return otherwise. -/
def sendChunk (t : Nat) (d : Str) (o : OutStep) (s : IoSt) : Option Rc × IoSt :=
  if o.hdrOk == false then
    if d.length != 0 then (some .error, { s with sendOk := false })
    else (some .eof, { s with sendOk := false })
  else if d.length != 0 then
    if o.bodyOk then (none, { s with sent := s.sent ++ [(t, d)] })
    else (some .error, { s with sendOk := false })
  else (some .eof, { s with sent := s.sent ++ [(t, [])] })

/-- remote.c:150-209 `handle_input_v2` for stdout, with the prefix data. A read of the descriptor -1 fails. A used up
schedule: no space in the vchan. -/
def inputOut (c : IoCfg) (t : Nat) : List OutStep → IoSt → Rc × IoSt
  | [], s => (.ok, s)
  | o :: os, s =>
    if o.space ≤ 8 then (.ok, s)
    else
      let len := min (o.space - 8).toNat c.maxChunk
      if s.pfx.length != 0 then
        let d := s.pfx.take len
        match sendChunk t d o { s with pfx := s.pfx.drop len } with
        | (none, s) => inputOut c t os s
        | (some r, s) => (r, s)
      else if s.stdout == false then (.error, s)
      else match o.read with
        | .again => (.ok, s)
        | .error => (.error, s)
        | .connReset =>
          let r := sendChunk t [] o s
          (r.1.getD .ok, r.2)
        | .got d =>
          let d := d.take len
          match sendChunk t d o { s with readOut := s.readOut ++ d } with
          | (none, s) => inputOut c t os s
          | (some r, s) => (r, s)

/-- remote.c:176-178: bytes were read from stderr; `write_all` gives a copy to the logger, its result is ignored. -/
def IoSt.gotErr (c : IoCfg) (o : OutStep) (d : Str) (s : IoSt) : IoSt :=
  { s with
    readErr := s.readErr ++ d
    copied := s.copied ++ (if c.dup.isSome then (match o.copyFails with | none => d | some n => d.take n) else []) }

/-- remote.c:150-209 `handle_input_v2` for stderr (no prefix data). -/
def inputErr (c : IoCfg) : List OutStep → IoSt → Rc × IoSt
  | [], s => (.ok, s)
  | o :: os, s =>
    if o.space ≤ 8 then (.ok, s)
    else
      let len := min (o.space - 8).toNat c.maxChunk
      match o.read with
      | .again => (.ok, s)
      | .error => (.error, s)
      | .connReset =>
        let r := sendChunk msgStderr [] o s
        (r.1.getD .ok, r.2)
      | .got d =>
        let d := d.take len
        match sendChunk msgStderr d o (s.gotErr c o d) with
        | (none, s) => inputErr c os s
        | (some r, s) => (r, s)

/-! ## The loop -/

/-- Results of poll. -/
inductive PollRes where
  | ready
  | eintr
  | error
  deriving DecidableEq, Repr

/-- What happens during one iteration of the loop of `qrexec_process_io`. -/
structure Tick where
  /-- a SIGCHLD arrived and the local process has exited with this status -/
  reaped : Option Nat := none
  /-- items that arrive on the vchan -/
  arrive : List InItem := []
  vchanOpen : Bool := true
  /-- a SIGUSR1 arrived -/
  usr1 : Bool := false
  poll : PollRes := .ready
  waitFails : Bool := false
  stdinHup : Bool := false
  writes : List Sys := []
  outReady : Bool := false
  out : List OutStep := []
  errReady : Bool := false
  err : List OutStep := []
  /-- does the send of an end of file (remote exited, or exit-on-client-eof) succeed -/
  eofOk : Bool := true
  exitCodeOk : Bool := true
  deriving Repr

/-- process_io.c:104 `stdout_msg_type`. -/
def IoCfg.outType (c : IoCfg) : Nat := if c.isService then msgStdout else msgStdin

/-- process_io.c:164-172, 341-345: an empty message. -/
def sendEof (c : IoCfg) (ok : Bool) (s : IoSt) : IoSt :=
  if ok then { s with sent := s.sent ++ [(c.outType, [])] } else { s with sendOk := false }

/-- process_io.c:160-184 `close_stdin()`. -/
def closeStdin (c : IoCfg) (ok : Bool) (s : IoSt) : IoSt :=
  if c.exitOnStdinEof then
    let s := if s.stdout then sendEof c ok s else s
    { s with stdin := false, stdout := false }
  else
    { s with saved := s.saved && !(s.stdin && c.closes && !s.single), stdin := false }

/-- process_io.c:185-196 `close_stdout()`. -/
def closeStdout (c : IoCfg) (s : IoSt) : IoSt :=
  if c.exitOnStdoutEof then { s with stdin := false, stdout := false } else { s with stdout := false }

/-- How an iteration ends: another one, the loop is left, or the process exits with code 1 or is aborted. -/
inductive IoStep where
  | next (s : IoSt)
  | leave (s : IoSt)
  | exit1 (s : IoSt)
  | abort (s : IoSt)
  deriving DecidableEq, Repr

/-- process_io.c:201-211. `waitpid` reports a process only once. -/
def ioReap (c : IoCfg) (t : Tick) (s : IoSt) : IoSt :=
  match t.reaped with
  | none => s
  | some st => if c.hasPid && s.localStatus.isNone then closeStdin c t.eofOk { s with localStatus := some st } else s

/-- process_io.c:213-228. `none`: go on. -/
def ioAllDone (c : IoCfg) (t : Tick) (s : IoSt) : Option IoStep :=
  if s.stdin == false && s.stdout == false && s.stderr == false then
    if c.isService then
      if !c.hasPid || s.localStatus.isSome then
        if t.exitCodeOk then
          some (.leave { s with sent := s.sent ++ [(msgExitCode,
            i32le (if c.hasPid then ((s.localStatus.getD 0 : Nat) : Int) else 0))] })
        else some (.exit1 { s with sendOk := false })
      else none
    else if (!c.hasPid || s.localStatus.isSome) && decide (s.remoteStatus ≥ 0) then some (.leave s)
    else none
  else none

/-- process_io.c:253-259, SIGUSR1. -/
def ioUsr1 (c : IoCfg) (t : Tick) (s : IoSt) : IoSt :=
  if t.usr1 && !s.single then
    let s := closeStdout c s
    { s with stdout := s.saved, single := true }
  else s

/-- process_io.c:325-352, what arrived. -/
def ioRemote (c : IoCfg) (t : Tick) (s : IoSt) : IoStep :=
  match handleRemoteData c t.writes s with
  | (.error, s) => .exit1 s
  | (.aborted, s) => .abort s
  | (.eof, s) => .next (closeStdin c t.eofOk s)
  | (.exited, s) => .next (closeStdout c (if s.stdout then sendEof c t.eofOk s else s))
  | (.ok, s) => .next s

/-- process_io.c:353-374, local stdout. `ready`: poll reported it. -/
def ioOut (c : IoCfg) (t : Tick) (ready : Bool) (s : IoSt) : IoStep :=
  if s.pfx.length != 0 || (s.stdout && ready) then
    match inputOut c c.outType t.out s with
    | (.error, s) =>
      if !c.isService && s.remoteStatus == -1 then .next (closeStdout c s) else .exit1 s
    | (.eof, s) => .next (closeStdout c s)
    | (_, s) => .next s
  else .next s

/-- process_io.c:375-387, local stderr. -/
def ioErr (c : IoCfg) (t : Tick) (ready : Bool) (s : IoSt) : IoStep :=
  if s.stderr && ready then
    match inputErr c t.err s with
    | (.error, s) => .exit1 s
    | (.eof, s) => .next { s with stderr := false }
    | (_, s) => .next s
  else .next s

/-- process_io.c:261-388, one iteration from the poll on. -/
def ioPoll (c : IoCfg) (t : Tick) (s : IoSt) : IoStep :=
  match t.poll with
  | .eintr => .next s
  | .error => .leave s
  | .ready =>
    let outReady := t.outReady && s.pfx.length == 0 && s.stdout
    let errReady := t.errReady && s.stderr
    if t.waitFails then .exit1 s
    else
      let s := if t.stdinHup && s.stdin then closeStdin c t.eofOk s else s
      match ioRemote c t s with
      | .next s => match ioOut c t outReady s with
        | .next s => ioErr c t errReady s
        | r => r
      | r => r

/-- process_io.c:199-388, one iteration. -/
def ioTick (c : IoCfg) (t : Tick) (s : IoSt) : IoStep :=
  let s := { s with inbox := s.inbox ++ t.arrive }
  let s := ioReap c t s
  match ioAllDone c t s with
  | some r => r
  | none =>
    if !t.vchanOpen && s.inbox.isEmpty && s.buf.length == 0 then .leave s
    else ioPoll c t (ioUsr1 c t s)

/-- process_io.c:199-388, the loop: `next`: it still runs when the schedule is used up. -/
def ioRun (c : IoCfg) : List Tick → IoSt → IoStep
  | [], s => .next s
  | t :: ts, s => match ioTick c t s with
    | .next s => ioRun c ts s
    | r => r

/-- process_io.c:390-415, behind the loop: the descriptors are closed and the local process is waited for, `late` is
its status. The state and the returned value. -/
def ioFinish (c : IoCfg) (eofOk : Bool) (late : Option Nat) (s : IoSt) : IoSt × Int :=
  let s := closeStdout c (closeStdin c eofOk s)
  let s := if c.hasPid && s.localStatus.isNone then { s with localStatus := late } else s
  let l : Int := match s.localStatus with | some n => (n : Int) | none => -1
  (s, if !c.isService && s.remoteStatus != 0 then s.remoteStatus else if c.hasPid then l else 0)

/-- process_io.c:93-158: the start. `socket`: stdin and stdout are one descriptor. `hasErr`: there is a descriptor for
stderr; a service without one reports its end at once (process_io.c:114-117). -/
def ioStart (c : IoCfg) (socket hasErr : Bool) (buf pfx : Str) : IoSt :=
  { stdin := true, stdout := true, stderr := hasErr, saved := true, single := socket, buf := buf, pfx := pfx,
    sent := if c.isService && !hasErr then [(msgStderr, [])] else [] }

end Qrexec
