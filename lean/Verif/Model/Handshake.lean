import Verif.Model.DataPath

/-!
Opening a connection: the HELLO messages with which the two ends of a connection tell each other the version of the
protocol they use (libqrexec/qrexec.h:123-125, 130-133, 165-167).

Five pieces of code do this: `handle_handshake` (agent/qrexec-agent-data.c:91-136: control and data connections in a
qube), `handle_agent_handshake` (daemon/qrexec-daemon-common.c:317-364: data connections in dom0), `handle_agent_hello`
(daemon/qrexec-daemon.c:235-285: control connection in dom0), `handle_daemon_handshake`
(daemon/qrexec-daemon-common.c:68-108) and `send_client_hello`/`handle_client_hello` (daemon/qrexec-daemon.c:459-476,
718-746) on the daemon's socket. Each is a short list of reads and writes; the lists are given here and run by one
interpreter. An end of the same protocol with another version number differs in that number only (`own`).

Simplified: sending does not fail and does not block (12 bytes fit in the buffer of a vchan or a socket).
-/
namespace Qrexec

/-- One read or write of a handshake. -/
inductive HsAct | sendHdr | sendBody | readHdr | readBody
deriving DecidableEq

/-- What an end is: the version it announces, the most it can speak, the least it accepts, and whether it repeats the
other end's version instead of its own. -/
structure HsEnd where
  own : Nat
  limit : Nat
  least : Nat
  echo : Bool := false

/-- qrexec.h:32 `QREXEC_PROTOCOL_VERSION`. -/
def protoVersion : Nat := 4

/-- agent-data.c:52, 128-134 and daemon-common.c:301, 339-346 (`QREXEC_DATA_MIN_VERSION`): an end of a data connection that
speaks version `v`. -/
def dataEnd (v : Nat) : HsEnd := { own := v, limit := v, least := 2 }

/-- daemon.c:44, 256-283: the daemon's end of the control connection. The assignment of the own version (daemon.c:271)
is commented out, so the daemon sends back the number it has received. -/
def controlEnd : HsEnd := { own := protoVersion, limit := protoVersion, least := 2, echo := true }

/-- daemon-common.c:87-97: the client's end on the daemon's socket (it answers with version 3). -/
def clientEnd : HsEnd := { own := 3, limit := 3, least := 3 }

/-- daemon.c:45, 466, 736-745: the daemon's end on its socket. -/
def socketEnd : HsEnd := { own := 3, limit := 3, least := 3 }

/-- agent-data.c:97-127 `handle_handshake`: sends, then receives. -/
def agentPlan : List HsAct := [.sendHdr, .sendBody, .readHdr, .readBody]

/-- daemon-common.c:322-362: `who` is 0, then 1; `(who+remote_send_first) & 1` means receive. -/
def dom0Plan (remoteSendFirst : Bool) : List HsAct :=
  [0, 1].flatMap fun who =>
    if (who + remoteSendFirst.toNat) % 2 = 1 then [.readHdr, .readBody] else [.sendHdr, .sendBody]

/-- daemon.c:241-282 `handle_agent_hello`: receives, then sends. -/
def controlPlan : List HsAct := [.readHdr, .readBody, .sendHdr, .sendBody]

/-- daemon-common.c:73-106 `handle_daemon_handshake`. -/
def clientPlan : List HsAct := [.readHdr, .readBody, .sendHdr, .sendBody]

/-- daemon.c:526 `send_client_hello` when the connection is accepted, daemon.c:718-746 `handle_client_hello` when the
client has sent something. -/
def socketPlan : List HsAct := [.sendHdr, .sendBody, .readHdr, .readBody]

/-- The state of one end: what is still to do, the version received, the version it will use (smaller of the received
one and `limit`), whether it has given up, and (for the statements) what it has sent after the handshake. -/
structure HsParty where
  todo : List HsAct
  ver : Nat := 0
  actual : Nat := 0
  failed : Bool := false
  later : Str := []

/-- An end at the start. -/
def hsInit (plan : List HsAct) : HsParty := { todo := plan }

/-- The next read or write of an end whose input is `inp`: new state, rest of the input, output; `none` if it has
nothing to do or waits for input. The header is refused unless its type is MSG_HELLO and its length that of a
`struct peer_info` (4); the version is compared as in agent-data.c:128-134 (`uint32_t`, so never negative). -/
def hsAct (e : HsEnd) (p : HsParty) (inp : Str) : Option (HsParty × Str × Str) :=
  match p.todo with
  | [] => none
  | .sendHdr :: t => some ({ p with todo := t }, inp, u32le 0x300 ++ u32le 4)
  | .sendBody :: t => some ({ p with todo := t }, inp, u32le (if e.echo then p.ver else e.own))
  | .readHdr :: t =>
    if inp.length < 8 then none
    else if u32of inp ≠ 0x300 ∨ u32of (inp.drop 4) ≠ 4 then
      some ({ p with todo := [], failed := true }, inp.drop 8, [])
    else some ({ p with todo := t }, inp.drop 8, [])
  | .readBody :: t =>
    if inp.length < 4 then none
    else
      let v := u32of inp
      let a := if v < e.limit then v else e.limit
      if a < e.least then some ({ p with todo := [], failed := true, ver := v }, inp.drop 4, [])
      else some ({ p with todo := t, ver := v, actual := a }, inp.drop 4, [])

/-- One end alone, with everything it will ever receive (`inp`); when it waits for more it gives up (the read of a
closed connection fails). Result: the end, what it has not read, what it has sent. -/
def hsAlone (e : HsEnd) : Nat → HsParty → Str → Str → HsParty × Str × Str
  | 0, p, inp, out => (p, inp, out)
  | n + 1, p, inp, out =>
    match p.todo with
    | [] => (p, inp, out)
    | _ :: _ =>
      match hsAct e p inp with
      | none => ({ p with todo := [], failed := true }, inp, out)
      | some (p', inp', o) => hsAlone e n p' inp' (out ++ o)

/-- The handshake of one end that receives the bytes `inp` and then the end of the connection. -/
def hsRun (e : HsEnd) (plan : List HsAct) (inp : Str) : HsParty × Str × Str :=
  hsAlone e plan.length (hsInit plan) inp []

/-- Both ends and the bytes under way. -/
structure HsSys where
  a : HsParty
  b : HsParty
  ab : Str := []
  ba : Str := []

/-- Steps of the two ends in any order. An end that has finished may send anything (the data of the connection). -/
inductive HsStep (ea eb : HsEnd) : HsSys → HsSys → Prop
  | left {s p inp out} : hsAct ea s.a s.ba = some (p, inp, out) →
      HsStep ea eb s { s with a := p, ba := inp, ab := s.ab ++ out }
  | right {s p inp out} : hsAct eb s.b s.ab = some (p, inp, out) →
      HsStep ea eb s { s with b := p, ab := inp, ba := s.ba ++ out }
  | dataLeft {s} (x : Str) : s.a.todo = [] → s.a.failed = false →
      HsStep ea eb s { s with a := { s.a with later := s.a.later ++ x }, ab := s.ab ++ x }
  | dataRight {s} (x : Str) : s.b.todo = [] → s.b.failed = false →
      HsStep ea eb s { s with b := { s.b with later := s.b.later ++ x }, ba := s.ba ++ x }

/-- Any number of steps. -/
inductive HsSteps (ea eb : HsEnd) : HsSys → HsSys → Prop
  | refl {s} : HsSteps ea eb s s
  | tail {s t u} : HsSteps ea eb s t → HsStep ea eb t u → HsSteps ea eb s u

end Qrexec
