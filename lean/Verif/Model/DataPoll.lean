import Verif.Model.DataPath

/-!
# libqrexec: when the data connection sleeps (process_io.c:261-312)
-/
namespace Qrexec

/-- What `ppoll` can see: can the local process be written to, has it gone away, is there something to read from it (data, or
the end of the file), the free space of the vchan, an event of the vchan, a pending signal. -/
structure IoReady where
  writable : Bool := false
  stdinHup : Bool := false
  outData : Bool := false
  errData : Bool := false
  space : Int := 0
  event : Bool := false
  signal : Bool := false
  deriving DecidableEq, Repr

/-- process_io.c:261-299: does `ppoll` sleep (for up to ten seconds)? `POLLHUP` and `POLLERR` are reported for every descriptor
that is watched; the timeout is zero if there is a message and nothing buffered. -/
def ioSleeps (s : IoSt) (e : IoReady) : Bool :=
  let stdinEv := s.stdin && (e.stdinHup || (decide (s.buf.length > 0) && e.writable))
  let room := decide (e.space > 8)
  let outEv := room && s.pfx.length == 0 && s.stdout && e.outData
  let errEv := room && s.stderr && e.errData
  let zero := s.buf.length == 0 && !s.inbox.isEmpty
  !(stdinEv || outEv || errEv || e.event || e.signal || zero)

end Qrexec
