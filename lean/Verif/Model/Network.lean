import Verif.Model.ExecVm
import Verif.Model.EndToEnd

/-!
# The qubes, their daemons and the processes for their requests, together

Any number of qubes; each has a daemon in dom0 (Model/CDaemon) and an agent (Model/VmAgent). For a request the daemon forks a
process (a *call* below), which asks for the decision (Model/Trigger) and then contacts daemons (Model/ExecVm). One step is one
event in one of these programs; they happen in any order. What an agent sends to its daemon is arbitrary: qubes are not trusted.
The policy and the state of the system may change at any time: each decision has its own.
Simplifications: messages between a call and a daemon are handed over when the daemon reads them; a call whose next connection
fails goes on as if it had been told so (`skip`). Not modelled: services in dom0 (see Model/Start), the data connections.
-/
namespace Qrexec

/-- What does not change. `leads x b`: the socket "qrexec.`x`" is that of the daemon of the qube with the id `b` (Model/SockDir). -/
structure NConf where
  name : Nat → Str
  user : Nat → Str
  proto : Nat → Nat
  leads : Str → Nat → Bool
  load : Nat → RpcService → Option SvcConf

/-- The parameters of a daemon (qrexec-daemon.c:1750-1754). -/
def NConf.conf (N : NConf) (b : Nat) : DConf := ⟨b, N.user b⟩

/-- The process for a request (qrexec-daemon.c:1182-1265): the request, what is to be done, the answer of the target's daemon, and
the connection in use (qube and descriptor there). -/
structure NCall where
  owner : Nat
  rs : Option Str
  target : Str
  service : Str
  ident : Wire
  decided : Bool := false
  todo : List ExAct := []
  reply : Option (Nat × Nat) := none
  conn : Option (Nat × Nat) := none

/-- The whole. `peer b fd`: the call at the other end of a connection of a daemon, `none` for any other program.
`toAgent b`: messages on the vchan to the agent. -/
structure Net where
  dmn : Nat → DState := fun _ => DState.start
  agent : Nat → VaState := fun _ => VaState.start
  calls : Nat → Option NCall := fun _ => none
  peer : Nat → Nat → Option Nat := fun _ _ => none
  toAgent : Nat → List DOut := fun _ => []

/-- The steps. -/
inductive NLabel where
  /-- the agent of `a` sends a message to trigger a service and its daemon forks the call `k` -/
  | ask (a kind : Nat) (data : Wire) (pid k : Nat)
  /-- the call `k` is decided -/
  | decide (k : Nat) (sys : Option Info) (policy : Except Err (List Rule)) (agent : Agent) (w : ExWorld)
  /-- the call `k` connects to the daemon of `b` -/
  | conn (k b fd : Nat)
  /-- the message of the call `k` is handled -/
  | tell (k : Nat) (written : Bool)
  /-- anything else that is next for `k`: qubesd is asked, a connection fails, `k` waits -/
  | skip (k : Nat)
  /-- another program in dom0 connects to the daemon of `b` -/
  | otherConn (b fd : Nat)
  /-- its message is handled -/
  | otherMsg (b fd type domain port : Nat) (buf : Wire) (written : Bool)
  /-- another event of the daemon of `b` -/
  | dmn (b : Nat) (e : DEv)
  /-- the agent of `b` gets the next message of its daemon -/
  | deliver (b : Nat) (t : VaTry) (session : Option Nat)
  /-- another event of the agent of `b` -/
  | agent (b : Nat) (e : VaEv)
  /-- the agent of `b` is started again -/
  | restart (b : Nat)

/-- What was observed at a step: an event of a daemon or of an agent with what was done. -/
inductive NEff where
  | none
  | dmn (b : Nat) (e : DEv) (o : List DOut)
  | agent (b : Nat) (e : VaEv) (o : List VaOut)

/-- Is it a message to the agent? -/
def DOut.isMsg : DOut → Bool
  | .refused _ => true
  | .forward .. => true
  | _ => false

/-- An event of a daemon. -/
def Net.dmnStep (N : NConf) (n : Net) (b : Nat) (e : DEv) : Option (Net × List DOut) :=
  if e.possible (n.dmn b) then
    match dstep (N.conf b) (n.dmn b) e with
    | none => none
    | some (d, o) => some ({ n with dmn := put n.dmn b d, toAgent := put n.toAgent b (n.toAgent b ++ o.filter DOut.isMsg) }, o)
  else none

/-- An event of an agent. -/
def Net.agentStep (N : NConf) (n : Net) (b : Nat) (e : VaEv) : Option (Net × List VaOut) :=
  match vaStep (N.load b) (n.agent b) e with
  | none => none
  | some (a, o) => some ({ n with agent := put n.agent b a }, o)

/-- The event in which an agent gets a message. -/
def deliverEv (m : DOut) (t : VaTry) (session : Option Nat) : Option VaEv :=
  match m with
  | .forward type _ domain port text => some (.exec type domain port text t session)
  | .refused ident => some (.refused (identField ident))
  | _ => none

/-- What a call does after the decision (qrexec-daemon.c:1203-1264). -/
def NCall.actions (N : NConf) (c : NCall) (sys : Option Info) (policy : Except Err (List Rule)) (agent : Agent) (w : ExWorld) :
    List ExAct :=
  match agentCall sys policy agent (N.name c.owner) c.rs c.target c.service with
  | .runVm qube isUuid autostart cmd =>
    (executeVm qube autostart c.owner (cmd ++ ['\x00']) (cString c.ident) false false isUuid w).1
  | _ => []

/-- Does this action connect to the daemon of `b`? (qrexec-daemon-common.c:184-187, 213) -/
def ExAct.leads (N : NConf) (b : Nat) : ExAct → Bool
  | .connect x => N.leads x b
  | .connectSource d => d == b
  | _ => false

/-- The message that is sent with an action: type, domain, port, text (qrexec-daemon-common.c:18-52, 277-299). -/
def ExAct.message : ExAct → Option (Nat × Nat × Nat × Wire)
  | .command type domain cmd => some (type, domain, 0, cmd)
  | .serviceConnect domain port ident => some (msgConnect, domain, port, ident)
  | _ => none

/-- The answer of the daemon of `b` is what the call goes on with (qrexec-daemon.c:637-646, qrexec-daemon-common.c:40-51). -/
def replyFits (b fd : Nat) (o : List DOut) (reply : Option (Nat × Nat)) : Bool :=
  match reply with
  | none => true
  | some (domain, port) => domain == b && decide (DOut.portReply fd port ∈ o)

/-- One step; `none`: not possible. -/
def nstep (N : NConf) (n : Net) : NLabel → Option (Net × NEff)
  | .ask a kind data pid k =>
    match triggerMsg (N.proto a) kind data, n.calls k with
    | .request rs target service ident, none =>
      match n.dmnStep N a (.trigger (cString ident) pid) with
      | some (n', []) => some ({ n' with calls := put n'.calls k (some { owner := a, rs, target, service, ident }) },
          .dmn a (.trigger (cString ident) pid) [])
      | _ => none
    | _, _ => none
  | .decide k sys policy agent w =>
    match n.calls k with
    | some c => if c.decided then none else
        some ({ n with calls := put n.calls k (some { c with
          decided := true, todo := c.actions N sys policy agent w, reply := w.negotiate }) }, .none)
    | none => none
  | .conn k b fd =>
    match n.calls k with
    | some c => match c.todo with
      | x :: todo => if x.leads N b then
          match n.dmnStep N b (.newClient fd true) with
          | some (n', o) => some ({ n' with
              calls := put n'.calls k (some { c with todo, conn := some (b, fd) })
              peer := put n'.peer b (put (n'.peer b) fd (some k)) }, .dmn b (.newClient fd true) o)
          | none => none
        else none
      | [] => none
    | none => none
  | .tell k written =>
    match n.calls k with
    | some c => match c.todo, c.conn with
      | x :: todo, some (b, fd) => match x.message with
        | some (type, domain, port, buf) =>
          if n.peer b fd = some k then
            match n.dmnStep N b (.clientMsg fd type domain port buf written) with
            | some (n', o) =>
              if type == msgConnect || replyFits b fd o c.reply then
                some ({ n' with calls := put n'.calls k (some { c with todo, conn := none }) },
                  .dmn b (.clientMsg fd type domain port buf written) o)
              else none
            | none => none
          else none
        | none => none
      | _, _ => none
    | none => none
  | .skip k =>
    match n.calls k with
    | some c => match c.todo with
      | x :: todo => if x.message.isNone then
          some ({ n with calls := put n.calls k (some { c with todo, conn := none }) }, .none)
        else none
      | [] => none
    | none => none
  | .otherConn b fd =>
    match n.dmnStep N b (.newClient fd true) with
    | some (n', o) => some ({ n' with peer := put n'.peer b (put (n'.peer b) fd none) }, .dmn b (.newClient fd true) o)
    | none => none
  | .otherMsg b fd type domain port buf written =>
    if n.peer b fd = none then
      match n.dmnStep N b (.clientMsg fd type domain port buf written) with
      | some (n', o) => some (n', .dmn b (.clientMsg fd type domain port buf written) o)
      | none => none
    else none
  | .dmn b e =>
    match e with
    | .clientMsg .. => none
    | .trigger .. => none
    | .restart => none
    | .newClient _ true => none
    | e => match n.dmnStep N b e with
      | some (n', o) => some (n', .dmn b e o)
      | none => none
  | .deliver b t session =>
    match n.toAgent b with
    | m :: rest => match deliverEv m t session with
      | some e => match n.agentStep N b e with
        | some (n', o) => some ({ n' with toAgent := put n'.toAgent b rest }, .agent b e o)
        | none => none
      | none => none
    | [] => none
  | .agent b e =>
    match e with
    | .exec .. => none
    | .refused _ => none
    | e => match n.agentStep N b e with
      | some (n', o) => some (n', .agent b e o)
      | none => none
  | .restart b =>
    match n.dmnStep N b .restart with
    | some (n', o) => some ({ n' with agent := put n'.agent b VaState.start, toAgent := put n'.toAgent b [] }, .dmn b .restart o)
    | none => none

/-- Processes forked by an agent get numbers that no running child of it has. -/
def NEff.Possible (n : Net) : NEff → Prop
  | .agent b e _ => e.Possible (n.agent b)
  | _ => True

/-- A run: the steps with what was observed. -/
inductive NRun (N : NConf) : List (NLabel × NEff) → Net → Prop where
  | start : NRun N [] {}
  | step {tr : List (NLabel × NEff)} {n n' : Net} {l : NLabel} {x : NEff} :
      NRun N tr n → nstep N n l = some (n', x) → x.Possible n → NRun N (tr ++ [(l, x)]) n'

end Qrexec
