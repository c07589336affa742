import Verif.Model.CDaemon
import Verif.Model.VmAgent

/-!
# One round of the main loops

`Model/CDaemon` and `Model/VmAgent` handle one event at a time.  Here a whole round is modelled: which descriptors are given to
`ppoll`, and what is then done with its results, which were obtained before anything of the round was handled.
Not modelled: failures of `ppoll` other than EINTR (which begins a new round, `Model/LoopSig`), SIGTERM.
-/
namespace Qrexec

/-! ## The daemon -/

/-- What can be read from a client: whether its HELLO is acceptable (and could be read), and its message, if it could be
read. -/
structure ClientReads where
  hello : Bool
  msg : Option (Nat × Nat × Nat × Wire × Bool)

/-- qrexec-daemon.c:748-774 `handle_message_from_client`: what is done is determined by the state the client is in when its
turn comes. -/
def clientEvent (st : ClientState) (fd : Nat) (r : ClientReads) : Option DEv :=
  match st with
  | .invalid => none
  | .hello => some (.clientHello fd r.hello)
  | .cmdline => some (match r.msg with
    | none => .clientGone fd
    | some (type, domain, port, buf, written) => .clientMsg fd type domain port buf written)
  | .running => some (.clientGone fd)

/-- What happens in a round: children that `waitpid` returns, whether the vchan has room, the connection that is accepted
(its descriptor, and whether the HELLO could be sent), the messages of the agent, the clients that `ppoll` reports, and what
can be read from them. -/
structure DRoundIn where
  dead : List (Nat × Option Nat)
  space : Bool
  accept : Option (Nat × Bool)
  agent : List DEv
  ready : Nat → Bool
  reads : Nat → ClientReads

/-- qrexec-daemon.c:1773-1783: the descriptors of clients that are given to `ppoll`; `top` is `max_client_fd + 1`. -/
def dCollect (space : Bool) (top : Nat) (s : DState) : List Nat :=
  if space then (List.range top).filter fun fd => s.clients fd != .invalid else []

/-- Events that are handled one after the other; `none`: the daemon exits. -/
def runEvs (c : DConf) : List DEv → DState → Option (DState × List (DEv × List DOut))
  | [], s => some (s, [])
  | e :: es, s =>
    match dstep c s e with
    | none => none
    | some (s', o) =>
      match runEvs c es s' with
      | none => none
      | some (s'', tr) => some (s'', (e, o) :: tr)

/-- qrexec-daemon.c:1808-1811: the clients that were reported. -/
def handleReady (c : DConf) (inp : DRoundIn) : List Nat → DState → Option (DState × List (DEv × List DOut))
  | [], s => some (s, [])
  | fd :: fds, s =>
    if inp.ready fd then
      match clientEvent (s.clients fd) fd (inp.reads fd) with
      | none => handleReady c inp fds s
      | some e =>
        match dstep c s e with
        | none => none
        | some (s', o) =>
          match handleReady c inp fds s' with
          | none => none
          | some (s'', tr) => some (s'', (e, o) :: tr)
    else handleReady c inp fds s

/-- qrexec-daemon.c:1765-1812: a round with an agent that is connected.  qrexec-daemon.c:518-535: `max_client_fd` grows with a new
client. -/
def daemonRound (c : DConf) (top : Nat) (s : DState) (inp : DRoundIn) :
    Option (Nat × DState × List (DEv × List DOut)) :=
  match runEvs c (inp.dead.map fun d => .childExit d.1 d.2) s with
  | none => none
  | some (s0, t0) =>
    let fds := dCollect inp.space top s0
    let acc := if inp.space then inp.accept else none
    match runEvs c (acc.toList.map fun a => .newClient a.1 a.2) s0 with
    | none => none
    | some (s1, t1) =>
      match runEvs c inp.agent s1 with
      | none => none
      | some (s2, t2) =>
        match handleReady c inp fds s2 with
        | none => none
        | some (s3, t3) =>
          some ((match acc with | some (fd, true) => max top (fd + 1) | _ => top), s3, t0 ++ t1 ++ t2 ++ t3)

/-- Messages of the agent. -/
def DEv.ofAgent : DEv → Bool
  | .badTrigger _ => true
  | .trigger _ pid => pid != 0
  | .terminated _ _ => true
  | _ => false

/-- What the system may do in a round that begins in this state: children have a number, `accept` returns a descriptor that is
not open. -/
def DRoundIn.Ok (inp : DRoundIn) (s : DState) : Prop :=
  (∀ d ∈ inp.dead, d.1 ≠ 0) ∧ (∀ a, inp.accept = some a → s.clients a.1 = .invalid) ∧ ∀ e ∈ inp.agent, e.ofAgent = true

/-- The main loop (qrexec-daemon.c:1765-1813): rounds, and the return of the agent (1793-1801). -/
inductive DLoop (c : DConf) : List (DEv × List DOut) → Nat → DState → Prop where
  | start : DLoop c [] 0 DState.start
  | round {tr tr' : List (DEv × List DOut)} {top top' : Nat} {s s' : DState} {inp : DRoundIn} : DLoop c tr top s → inp.Ok s →
      daemonRound c top s inp = some (top', s', tr') → DLoop c (tr ++ tr') top' s'
  | restart {tr : List (DEv × List DOut)} {top : Nat} {s : DState} : DLoop c tr top s →
      DLoop c (tr ++ [(.restart, (agentRestart s).2)]) top (agentRestart s).1

/-! ## The agent -/

/-- qrexec-agent.c:958, 986: the slot is in use, and its end is seen by a descriptor. -/
def vaPolled (s : VaState) (i : Nat) : Bool := (s.conns i).pid != 0 && (s.conns i).fd != -1

/-- qrexec-agent.c:953-961: the descriptors of connections that are given to `ppoll`. -/
def vaCollect (space : Bool) (s : VaState) : List Int :=
  if space then ((List.range maxClients).filter (vaPolled s)).map fun i => (s.conns i).fd else []

/-- qrexec-agent.c:985-996: the slots are walked again, with the results for the descriptors. `none`: one of the three
checks fails, and the agent aborts. -/
def vaWalk : List Nat → List (Int × Bool) → VaState → Option (VaState × List VaOut)
  | [], [], s => some (s, [])
  | [], _ :: _, _ => none
  | i :: is, results, s =>
    if vaPolled s i then
      match results with
      | [] => none
      | (fd, event) :: rest =>
        if fd ≠ (s.conns i).fd then none
        else if event then
          match vaWalk is rest (vaRelease s i).1 with
          | none => none
          | some (s', o) => some (s', .closed fd :: (vaRelease s i).2 ++ o)
        else vaWalk is rest s
    else vaWalk is results s

/-- qrexec-agent.c:972-998: only if there were such descriptors. -/
def vaPollRound (results : List (Int × Bool)) (s : VaState) : Option (VaState × List VaOut) :=
  if results.isEmpty then some (s, []) else vaWalk (List.range maxClients) results s

/-- Events handled one after the other. -/
inductive VaSteps (load : RpcService → Option SvcConf) : VaState → List (VaEv × List VaOut) → VaState → Prop where
  | refl {s : VaState} : VaSteps load s [] s
  | step {s s' s'' : VaState} {tr : List (VaEv × List VaOut)} {e : VaEv} {o : List VaOut} : VaSteps load s tr s' →
      e.Possible s' → vaStep load s' e = some (s'', o) → VaSteps load s (tr ++ [(e, o)]) s''

/-- Messages of the daemon. -/
def VaEv.ofDaemon : VaEv → Bool
  | .exec .. => true
  | .refused _ => true
  | .unknown => true
  | _ => false

/-- qrexec-agent.c:944-1003: a round. `event` is what `ppoll` says about a descriptor (0 without room in the vchan, when
it is not asked), the third list the events of the connection that is accepted. -/
inductive VaRound (load : RpcService → Option SvcConf) : VaState → List (VaEv × List VaOut) → VaState → Prop where
  | mk {s s1 s2 s3 s4 : VaState} {t1 t3 t4 : List (VaEv × List VaOut)} {o : List VaOut} (space : Bool) (event : Int → Bool) :
      VaSteps load s t1 s1 → (∀ x ∈ t1, ∃ pid tries, x.1 = .childExit pid tries) →
      vaPollRound ((vaCollect space s1).map fun fd => (fd, event fd)) s1 = some (s2, o) →
      VaSteps load s2 t3 s3 → (∀ x ∈ t3, x.1.ofDaemon = true) →
      VaSteps load s3 t4 s4 → (t4 = [] ∨ space = true ∧ ∃ fd hdr body o, t4 = [(.trigger fd hdr body, o)]) →
      VaRound load s (t1 ++ [(.poll ((vaCollect space s1).filter event), o)] ++ t3 ++ t4) s4

/-- The main loop of the agent. -/
inductive VaLoop (load : RpcService → Option SvcConf) : List (VaEv × List VaOut) → VaState → Prop where
  | start : VaLoop load [] VaState.start
  | round {tr tr' : List (VaEv × List VaOut)} {s s' : VaState} : VaLoop load tr s → VaRound load s tr' s' → VaLoop load (tr ++ tr') s'

end Qrexec
