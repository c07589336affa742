import Verif.Model.Trigger

/-!
# The state of qrexec-daemon (daemon/qrexec-daemon.c): clients, vchan ports, pending requests

One step of the model is the handling of one event of the main loop.  Messages are given by their
fields: a header whose length does not agree with what can be read, an unreadable socket and the
like are the event `clientGone`.  Which system calls succeed is part of the event.
Not modelled: failures of `libvchan_send` (the daemon exits or restarts the connection),
`max_client_fd` (see Model/Rounds), the message texts of the log.
-/
namespace Qrexec

/-- qrexec.h:34 `MAX_FDS`, qrexec-daemon.c:96 `MAX_CLIENTS`. -/
def maxClients : Nat := 256

/-- qrexec-daemon.c:89 `VCHAN_BASE_DATA_PORT`. -/
def baseDataPort : Nat := 513

/-- qrexec-daemon.c:60-65 `enum client_state`. -/
inductive ClientState where
  | invalid | hello | cmdline | running
  deriving DecidableEq, Repr

/-- qrexec-daemon.c:76-81 `enum policy_response` (without the value never stored). -/
inductive Sent where
  | pending | allow | deny
  deriving DecidableEq, Repr

/-- qrexec-daemon.c:83-87 `struct _policy_pending`; `ident` is the C string of the identifier, which
was validated to be followed by NULs only. -/
structure Pending where
  pid : Nat
  ident : Str
  sent : Sent
  deriving DecidableEq, Repr

/-- The static variables (qrexec-daemon.c:97-112).  `pendCount` is `policy_pending_max + 1`. -/
structure DState where
  clients : Nat → ClientState
  ports : Nat → Int
  notify : Nat → Int
  pend : Nat → Pending
  pendCount : Nat

/-- After `init` (qrexec-daemon.c:325-440). -/
def DState.start : DState where
  clients _ := .invalid
  ports _ := -1
  notify _ := -1
  pend _ := ⟨0, [], .pending⟩
  pendCount := 0

/-- An `uint32_t` assigned to an `int`. -/
def asInt (n : Nat) : Int := if n < 2 ^ 31 then n else (n : Int) - 2 ^ 32

/-- `f[i] = x`. -/
def put {α : Type} (f : Nat → α) (i : Nat) (x : α) : Nat → α := fun j => if j = i then x else f j

/-- What the daemon does. -/
inductive DOut where
  /-- `MSG_SERVICE_REFUSED` to the agent, with this request identifier -/
  | refused (ident : Str)
  /-- a message of a client passed on to the agent: header type and length, `connect_domain`,
  `connect_port`, and the rest -/
  | forward (type len domain port : Nat) (text : Wire)
  /-- the port is told to the client -/
  | portReply (fd port : Nat)
  /-- the connection of a client is closed -/
  | closed (fd : Nat)
  deriving DecidableEq, Repr

/-- The loop of `allocate_vchan_port` (qrexec-daemon.c:509-514). -/
def scanPorts (ports : Nat → Int) (step : Nat) : Nat → Nat → Option Nat
  | 0, _ => none
  | fuel + 1, i =>
    if i < maxClients then
      if ports i = -1 then some i else scanPorts ports step fuel (i + step)
    else none

/-- qrexec-daemon.c:479-516 `allocate_vchan_port`: the index of the port. -/
def allocatePort (remoteId : Int) (ports : Nat → Int) (domain : Int) : Option Nat :=
  if domain = 0 then scanPorts ports 1 maxClients 0
  else scanPorts ports 2 maxClients (if domain > remoteId then 1 else 0)

/-- qrexec-daemon.c:537-547 `terminate_client`. -/
def terminateClient (s : DState) (fd : Nat) : DState × List DOut :=
  ({ s with
      clients := put s.clients fd .invalid
      notify := fun p => if s.notify p = (fd : Int) then -1 else s.notify p },
    [.closed fd])

/-- qrexec-daemon.c:549-558 `release_vchan_port`, for the port with index `i`. -/
def releasePort (s : DState) (i : Nat) (domain : Int) : DState × List DOut :=
  if s.ports i = domain then
    let s := { s with ports := put s.ports i (-1) }
    if s.notify i ≠ -1 then terminateClient s (s.notify i).toNat else (s, [])
  else (s, [])

/-- The search of `handle_cmdline_body_from_client` (qrexec-daemon.c:606-612). -/
def findPending (s : DState) (ident : Str) : Option Nat :=
  (List.range s.pendCount).find? fun i =>
    (s.pend i).pid != 0 && (s.pend i).sent == .pending && (s.pend i).ident == ident

/-- A buffer as a C string. -/
def cString (buf : Wire) : Str := buf.takeWhile (· != '\x00')

/-- qrexec.h:106-119 `MSG_EXEC_CMDLINE`, `MSG_JUST_EXEC`, `MSG_SERVICE_CONNECT`. -/
def msgExec : Nat := 0x200
def msgJustExec : Nat := 0x201
def msgConnect : Nat := 0x202

/-- The parameters of the daemon. -/
structure DConf where
  remoteId : Int
  defaultUser : Str

/-- The end of `handle_cmdline_body_from_client` (qrexec-daemon.c:665-690): the message is passed on,
with `DEFAULT:` replaced by the default user. -/
def forwardMsg (c : DConf) (type domain port : Nat) (buf : Wire) : DOut :=
  let len := 8 + buf.length
  if type != msgConnect && startsWith c!"DEFAULT:" buf then
    .forward type (len - 7 + c.defaultUser.length) domain port (c.defaultUser ++ buf.drop 7)
  else .forward type len domain port buf

/-- qrexec-daemon.c:696-720 `handle_cmdline_message_from_client` and 560-694
`handle_cmdline_body_from_client`, when header and body could be read; `written`: the answer to the
client could be written. -/
def cmdline (c : DConf) (s : DState) (fd type domain port : Nat) (buf : Wire) (written : Bool) :
    DState × List DOut :=
  if type != msgExec && type != msgJustExec && type != msgConnect then terminateClient s fd
  else if buf.isEmpty || 8 + buf.length > 65535 then terminateClient s fd
  else if buf.getLast? != some '\x00' then terminateClient s fd
  else
    let found := findPending s (cString buf)
    if type == msgConnect && found.isNone then terminateClient s fd
    else
      let s := match found with
        | some i => if type == msgConnect then
            { s with pend := put s.pend i { s.pend i with sent := .allow } } else s
        | none => s
      if port = 0 then
        match allocatePort c.remoteId s.ports (asInt domain) with
        | none => terminateClient s fd
        | some i =>
          let s := { s with ports := put s.ports i (asInt domain), notify := put s.notify i fd }
          if written then
            ({ s with clients := put s.clients fd .running },
              [.portReply fd (baseDataPort + i), forwardMsg c type domain (baseDataPort + i) buf])
          else
            let (s, o) := terminateClient s fd
            let (s, o') := releasePort s i (asInt domain)
            (s, o ++ o')
      else if baseDataPort ≤ port && port < baseDataPort + maxClients then
        ({ s with clients := put s.clients fd .running }, [forwardMsg c type domain port buf])
      else terminateClient s fd

/-- qrexec-daemon.c:849-858 `find_policy_pending_slot`. -/
def findSlot (s : DState) : Option Nat :=
  (List.range maxClients).find? fun i => (s.pend i).pid == 0

/-- qrexec-daemon.c:1283-1320 `handle_execute_service`; `pid` is the result of `fork`. -/
def executeService (s : DState) (ident : Str) (pid : Nat) : DState × List DOut :=
  match findSlot s with
  | none => (s, [.refused ident])
  | some i =>
    ({ s with pend := put s.pend i ⟨pid, ident, .pending⟩, pendCount := max s.pendCount (i + 1) }, [])

/-- `while (policy_pending_max > 0 && ...) policy_pending_max--` (qrexec-daemon.c:838-840). -/
def shrink (pend : Nat → Pending) : Nat → Nat
  | 0 => 0
  | 1 => 1
  | n + 2 => if (pend (n + 1)).pid = 0 then shrink pend (n + 1) else n + 2

/-- The body of the loop of `reap_children` (qrexec-daemon.c:816-845); `status` is the exit status,
`none` if the child was killed by a signal. -/
def reap (s : DState) (pid : Nat) (status : Option Nat) : DState × List DOut :=
  match (List.range s.pendCount).find? fun i => (s.pend i).pid == pid with
  | none => (s, [])
  | some i =>
    match status with
    | none => (s, [])
    | some code =>
      let p := s.pend i
      let (sent, out) : Sent × List DOut :=
        if code != 0 then
          if p.sent != .pending then (p.sent, []) else (.deny, [.refused p.ident])
        else (.allow, [])
      let pend := put s.pend i ⟨0, p.ident, sent⟩
      ({ s with pend, pendCount := shrink pend s.pendCount }, out)

/-- The clients disconnected by `handle_agent_restart` (qrexec-daemon.c:1628-1631). -/
def terminateAll (s : DState) : Nat → DState × List DOut
  | 0 => (s, [])
  | n + 1 =>
    let (s, o) := terminateAll s n
    if s.clients n != .invalid then
      let (s, o') := terminateClient s n
      (s, o ++ o')
    else (s, o)

/-- qrexec-daemon.c:1603-1680 `handle_agent_restart`, when the agent comes back. -/
def agentRestart (s : DState) : DState × List DOut :=
  let (s, o) := terminateAll s maxClients
  ({ s with
      pend := fun i => if i < maxClients then { s.pend i with pid := 0 } else s.pend i
      pendCount := 0 }, o)

/-- Events of the main loop (qrexec-daemon.c:1765-1840). -/
inductive DEv where
  /-- a connection is accepted; the hello could be sent -/
  | newClient (fd : Nat) (hello : Bool)
  /-- the client's hello was read and is (not) acceptable -/
  | clientHello (fd : Nat) (ok : Bool)
  /-- the client's message was read -/
  | clientMsg (fd type domain port : Nat) (buf : Wire) (written : Bool)
  /-- reading from the client failed, or it closed the connection -/
  | clientGone (fd : Nat)
  /-- a trigger message that is refused without evaluating the policy (`C53`) -/
  | badTrigger (ident : Str)
  /-- a trigger message of the agent; `fork` returned `pid` -/
  | trigger (ident : Str) (pid : Nat)
  /-- `waitpid` returned this child -/
  | childExit (pid : Nat) (status : Option Nat)
  /-- `MSG_CONNECTION_TERMINATED` of the agent -/
  | terminated (domain port : Nat)
  /-- the agent was restarted -/
  | restart
  deriving DecidableEq, Repr

/-- The handling of an event; `none`: the daemon exits. -/
def dstep (c : DConf) (s : DState) : DEv → Option (DState × List DOut)
  -- qrexec-daemon.c:518-535 `handle_new_client`
  | .newClient fd hello =>
    if fd ≥ maxClients then none
    else if hello then some ({ s with clients := put s.clients fd .hello }, [])
    else some ({ s with clients := put s.clients fd .invalid }, [.closed fd])
  -- qrexec-daemon.c:722-752 `handle_client_hello`
  | .clientHello fd ok =>
    if ok then some ({ s with clients := put s.clients fd .cmdline }, [])
    else some (terminateClient s fd)
  | .clientMsg fd type domain port buf written => some (cmdline c s fd type domain port buf written)
  | .clientGone fd => some (terminateClient s fd)
  | .badTrigger ident => some (s, [.refused ident])
  | .trigger ident pid => some (executeService s ident pid)
  | .childExit pid status => some (reap s pid status)
  -- qrexec-daemon.c:1323-1344 `handle_connection_terminated`
  | .terminated domain port =>
    if port < baseDataPort || port ≥ baseDataPort + maxClients then none
    else some (releasePort s (port - baseDataPort) (asInt domain))
  | .restart => some (agentRestart s)

/-- When an event can happen: file descriptors of accepted connections are not in use, messages
come from connected clients in the state for it (755-790 `handle_message_from_client`), and `fork` in
the parent returns no zero. -/
def DEv.possible (s : DState) : DEv → Bool
  | .newClient fd _ => s.clients fd == .invalid
  | .clientHello fd _ => s.clients fd == .hello
  | .clientMsg fd _ _ _ _ _ => s.clients fd == .cmdline
  | .clientGone fd => s.clients fd != .invalid
  | .trigger _ pid => pid != 0
  | .childExit pid _ => pid != 0
  | _ => true

/-- A run of the daemon: the events with what was done for each. -/
inductive DRun (c : DConf) : List (DEv × List DOut) → DState → Prop where
  | start : DRun c [] DState.start
  | step {tr : List (DEv × List DOut)} {s s' : DState} {e : DEv} {o : List DOut} :
      DRun c tr s → e.possible s = true → dstep c s e = some (s', o) → DRun c (tr ++ [(e, o)]) s'

end Qrexec
