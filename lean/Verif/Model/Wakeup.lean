import Verif.Model.Str

/-!
# The event of a vchan, and the loops that wait for it

The peer is another machine: it may act between any two steps of the loop.  libvchan's contract is
assumed: whatever the peer does (writes, reads, closes) raises the event of this side, and the event
stays raised until `libvchan_wait` takes it, also if that call is made inside a blocking
`libvchan_read` or `libvchan_write`.
-/
namespace Qrexec

/-- A vchan as one side sees it: bytes that can be read, room to write, whether the peer is there,
and whether the event is raised (the descriptor of the vchan is readable). -/
structure Vch where
  avail : Nat
  room : Nat
  isOpen : Bool
  event : Bool
  deriving DecidableEq, Repr

/-- What the peer can do. -/
inductive PeerAct where
  | writes (n : Nat)
  | reads (n : Nat)
  | closes
  deriving DecidableEq, Repr

def peerStep (v : Vch) : PeerAct → Vch
  | .writes n => { v with avail := v.avail + (n + 1), event := true }
  | .reads n => { v with room := v.room + (n + 1), event := true }
  | .closes => { v with isOpen := false, event := true }

/-- Where the loop is. -/
inductive WakePc where
  /-- at the beginning of an iteration -/
  | top
  /-- the vchan has been seen open (process_io.c:245) -/
  | seenOpen
  /-- the room has been looked at, and so it is known which descriptors to watch
  (process_io.c:279; qrexec-daemon.c:1775; qrexec-agent.c:953) -/
  | seenRoom
  /-- in `ppoll`; `zero` if the timeout is zero (process_io.c:293-297; txrx-vchan.c:38-43) -/
  | polls (zero : Bool)
  /-- `ppoll` has returned and reported the vchan: about to call `libvchan_wait`
  (process_io.c:310-312; txrx-vchan.c:46-47) -/
  | clears
  /-- handling what there is, reading and writing -/
  | works
  /-- the loop has been left -/
  | left
  deriving DecidableEq, Repr

/-- The loop: the vchan, where it is, and what it found: the room when it looked at it.  `pend` is
whether there is data for the local process that it does not take (`buffer_len(stdin_buf)`), which
changes only while the loop works; always `false` in the agent and the daemon. -/
structure WLoop where
  v : Vch
  pc : WakePc := .top
  roomSeen : Nat := 0
  pend : Bool := false
  deriving DecidableEq, Repr

/-- Steps of the loop; `checks` is `true` for the data connection (process_io.c:206-404), which
looks whether the vchan is open in the beginning of an iteration, and `false` for the main loops of
agent and daemon, which do not (qrexec-agent.c:942-1005, qrexec-daemon.c:1763-1811). -/
inductive WStep (checks : Bool) : WLoop → WLoop → Prop
  /-- the peer acts -/
  | peer (s : WLoop) (a : PeerAct) : WStep checks s { s with v := peerStep s.v a }
  /-- process_io.c:245-255: closed, nothing to read and nothing buffered -/
  | leaves (s : WLoop) : checks = true → s.pc = .top → s.v.isOpen = false → s.v.avail = 0 →
      s.pend = false → WStep checks s { s with pc := .left }
  /-- process_io.c:245: it goes on, since one of the three does not hold.  If the vchan is closed
  this may be because of what is left to do -/
  | goesOn (s : WLoop) : checks = true → s.pc = .top →
      ¬ (s.v.isOpen = false ∧ s.v.avail = 0 ∧ s.pend = false) →
      WStep checks s { s with pc := .seenOpen }
  /-- agent and daemon do not look -/
  | noLook (s : WLoop) : checks = false → s.pc = .top → WStep checks s { s with pc := .seenOpen }
  /-- `libvchan_buffer_space` -/
  | looksRoom (s : WLoop) : s.pc = .seenOpen →
      WStep checks s { s with pc := .seenRoom, roomSeen := s.v.room }
  /-- `libvchan_data_ready` chooses the timeout -/
  | enters (s : WLoop) : s.pc = .seenRoom →
      WStep checks s { s with pc := .polls (!s.pend && decide (s.v.avail > 0)) }
  /-- `ppoll` reports the vchan -/
  | wakes (s : WLoop) (z : Bool) : s.pc = .polls z → s.v.event = true →
      WStep checks s { s with pc := .clears }
  /-- `ppoll` returns without the vchan: the timeout is over, or another descriptor is ready -/
  | other (s : WLoop) (z : Bool) : s.pc = .polls z → s.v.event = false →
      WStep checks s { s with pc := .works }
  /-- a signal: `continue` (process_io.c:299-301; qrexec-agent.c:965; qrexec-daemon.c:1787) -/
  | signal (s : WLoop) (z : Bool) : s.pc = .polls z → WStep checks s { s with pc := .top }
  /-- `libvchan_wait` takes the event -/
  | takes (s : WLoop) : s.pc = .clears → s.v.event = true →
      WStep checks s { s with pc := .works, v := { s.v with event := false } }
  /-- reads from the vchan -/
  | readsOwn (s : WLoop) (n : Nat) : s.pc = .works → n ≤ s.v.avail →
      WStep checks s { s with v := { s.v with avail := s.v.avail - n } }
  /-- writes to the vchan; libvchan refuses if the peer has gone -/
  | writesOwn (s : WLoop) (n : Nat) : s.pc = .works → s.v.isOpen = true → n ≤ s.v.room →
      WStep checks s { s with v := { s.v with room := s.v.room - n } }
  /-- a blocking read or write waits inside the library -/
  | waitsInside (s : WLoop) : s.pc = .works → s.v.event = true →
      WStep checks s { s with v := { s.v with event := false } }
  /-- the local process takes data, or does not -/
  | buffers (s : WLoop) (b : Bool) : s.pc = .works → checks = true →
      WStep checks s { s with pend := b }
  /-- the end of the iteration -/
  | again (s : WLoop) : s.pc = .works → WStep checks s { s with pc := .top }

/-- A run of the loop and its peer. -/
inductive WRun (checks : Bool) : WLoop → WLoop → Prop
  | refl (s : WLoop) : WRun checks s s
  | step {a b c : WLoop} : WRun checks a b → WStep checks b c → WRun checks a c

end Qrexec
