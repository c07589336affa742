import Verif.Model.DataPath

/-!
# Both ends of a data connection (process_io.c:93-418, twice, and the vchan between them)

The client (qrexec-client, qrexec-client-vm) and the service (qrexec-agent, or qrexec-client for a service of dom0) run
`qrexec_process_io` on the two ends of one vchan. A step is an iteration of one of them; what it sends is on its way to the
other, and is what the other can receive. When an end dies in the middle of a message, what there is of it ends what the other
receives (`InItem.broken`). Simplifications: how much fits into it is left to the schedule (`OutStep.space`); no SIGUSR1; `ppoll` is
interrupted but does not fail.
-/
namespace Qrexec

/-- How an end is doing: in the loop, behind it (process_io.c:390), or dead. -/
inductive CnEnd where
  | running
  | left
  | failed
  deriving DecidableEq, Repr

/-- One end: its variables, and the messages on the way to it. -/
structure CnSide where
  st : IoSt
  fin : CnEnd := .running
  way : List InItem := []
  deriving DecidableEq, Repr

/-- The state behind an iteration, and whether there is another one. -/
def ioOutcome : IoStep → IoSt × CnEnd
  | .next s => (s, .running)
  | .leave s => (s, .left)
  | .exit1 s => (s, .failed)
  | .abort s => (s, .failed)

/-- An iteration (process_io.c:199-388) of the end `me`. -/
def cnTick (c : IoCfg) (t : Tick) (me other : CnSide) : CnSide × CnSide :=
  let r := ioOutcome (ioTick c t me.st)
  ({ st := r.1, fin := r.2, way := me.way.drop t.arrive.length },
   { other with way := other.way ++ (r.1.sent.drop me.st.sent.length).map fun m => .msg m.1 m.2 })

/-- What an iteration can meet: messages arrive in the order in which they were sent; while the other end runs the vchan is
open and accepts what it has room for; when the vchan is closed all messages have arrived (libvchan leaves them in the
ring). The status of a process is one byte (process_io.c:205-211). -/
structure CnOk (t : Tick) (me other : CnSide) : Prop where
  runs : me.fin = .running
  comes : t.arrive <+: me.way
  works : other.fin = .running → t.vchanOpen = true ∧ t.eofOk = true ∧ t.exitCodeOk = true ∧
    ∀ o ∈ t.out ++ t.err, o.hdrOk = true ∧ o.bodyOk = true
  drained : t.vchanOpen = false → t.arrive = me.way
  poll : t.poll ≠ .error
  usr1 : t.usr1 = false
  status : ∀ n, t.reaped = some n → n ≤ 255

/-- What is sent last by an end that is killed: a part of a message (remote.c:192-197: header and data are sent one after the
other; neither can be received in part, remote.c:64-65,72-73), or nothing. -/
def Torn (l : List InItem) : Prop := l = [] ∨ l = [.broken]

/-- A step of the connection (client, service): an iteration of one of them, or one of them is killed. `g`: what is assumed about
the iterations of the client. -/
inductive CnStep (ca cb : IoCfg) (g : Tick → Prop) : CnSide × CnSide → CnSide × CnSide → Prop where
  | client (t x) (h : CnOk t x.1 x.2) (hg : g t) : CnStep ca cb g x (cnTick ca t x.1 x.2)
  | service (t x) (h : CnOk t x.2 x.1) : CnStep ca cb g x (cnTick cb t x.2 x.1).swap
  | clientDies (x : CnSide × CnSide) (torn : List InItem) (h : x.1.fin = .running) (ht : Torn torn) :
      CnStep ca cb g x ({ x.1 with fin := .failed }, { x.2 with way := x.2.way ++ torn })
  | serviceDies (x : CnSide × CnSide) (torn : List InItem) (h : x.2.fin = .running) (ht : Torn torn) :
      CnStep ca cb g x ({ x.1 with way := x.1.way ++ torn }, { x.2 with fin := .failed })

/-- process_io.c:93-158, on both ends: the client has no stderr of its own to send; `bufA`, `bufB`: data that are there before
the connection; `pfxA`: the prefix data of the client (option -p of qrexec-client and qrexec-client-vm). -/
def cnStart (ca cb : IoCfg) (sockA sockB hasErr : Bool) (bufA bufB : Str) (pfxA : Str := []) : CnSide × CnSide :=
  ({ st := ioStart ca sockA false bufA pfxA, way := (ioStart cb sockB hasErr bufB []).sent.map fun m => .msg m.1 m.2 },
   { st := ioStart cb sockB hasErr bufB [] })

/-- The states that can be reached. -/
inductive CnReach (ca cb : IoCfg) (g : Tick → Prop) (x0 : CnSide × CnSide) : CnSide × CnSide → Prop where
  | start : CnReach ca cb g x0 x0
  | step {x y} (h : CnReach ca cb g x0 x) (k : CnStep ca cb g x y) : CnReach ca cb g x0 y

end Qrexec
