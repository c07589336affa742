import Verif.Model.Toml
import Verif.Model.CDaemon

/-!
# The agent in a qube (agent/qrexec-agent.c)

One step is the handling of one event of the main loop.  Which system calls succeed is part of the event.
Not modelled: failures of `libvchan_send`/`libvchan_recv` and `malloc` (the agent exits, or closes the client),
the log (`wake_meminfo_writer` and notifications to systemd are in `Ready`).
-/
namespace Qrexec

/-- A parsed command with its configuration. -/
abbrev VaCmd := RpcCmd × SvcConf

/-- A request of the daemon: `struct exec_params` (qrexec.h:136-140) with the type from the header, and the parsed
command (`none`: it could not be parsed, or its configuration is broken). -/
structure VaJob where
  type : Nat
  domain : Nat
  port : Nat
  cmdline : Str
  cmd : Option VaCmd
  deriving DecidableEq, Repr

/-- qrexec-agent.c:49-54 `struct connection_info`; a slot with `pid` 0 is free. -/
structure VaConn where
  pid : Int := 0
  fd : Int := 0
  domain : Nat := 0
  port : Nat := 0
  deriving DecidableEq, Repr

/-- The static variables (qrexec-agent.c:65-72).  `session` is `wait_for_session_pid`, `none` for -1. -/
structure VaState where
  conns : Nat → VaConn
  waiting : Nat → Option VaJob
  session : Option Nat

/-- After `init`. -/
def VaState.start : VaState := ⟨fun _ => {}, fun _ => none, none⟩

/-- What system calls do while a request is started: the fork server accepts the connection on this descriptor, `fork`
returns this pid (`none`: it fails), the descriptor of the client is not open (a negative one never is). -/
structure VaTry where
  server : Option Nat := none
  fork : Option Nat := none
  badFd : Bool := false
  deriving DecidableEq, Repr

/-- What the agent does. -/
inductive VaOut where
  /-- a process for the request is forked (`handle_new_process`) -/
  | child (pid : Option Nat) (job : VaJob)
  /-- the request is passed to the fork server of `user`: type, domain, port and the command with its NUL -/
  | forkServer (fd : Nat) (user : Str) (type domain port : Nat) (text : Wire) (job : VaJob)
  /-- domain and port are written to a client -/
  | toClient (fd : Int) (domain port : Nat)
  /-- the process that waits for the session of the user is started -/
  | session (pid : Nat) (user source : Str)
  /-- `MSG_CONNECTION_TERMINATED` to the daemon -/
  | terminated (domain port : Nat)
  /-- a descriptor is closed -/
  | closed (fd : Int)
  /-- the descriptor in an uninitialised variable is closed -/
  | closedGarbage
  /-- a message of a client is passed to the daemon: type, length and body -/
  | forward (type len : Nat) (body : Wire)
  deriving DecidableEq, Repr

/-! ## Identifiers of requests -/

/-- `%d` of a number, least significant digit last; `fuel` is at least the number of digits. -/
def decimalAux : Nat → Nat → Str
  | 0, _ => []
  | fuel + 1, n => if n < 10 then [Char.ofNat (48 + n)] else decimalAux fuel (n / 10) ++ [Char.ofNat (48 + n % 10)]

/-- `printf("%d")` of a number that is not negative. -/
def printDec (n : Nat) : Str := decimalAux (n + 1) n

/-- The result of `sscanf(s, "SOCKET%d", &fd)`: 1, 0 and EOF. -/
inductive ScanRes where
  | fd (n : Int)
  | noMatch
  | eof
  deriving DecidableEq, Repr

/-- White space of the C locale. -/
def cSpace (c : Char) : Bool := c == ' ' || (decide (9 ≤ c.toNat) && decide (c.toNat ≤ 13))

/-- A `long` (the result saturates), converted to `int`. -/
def longToInt (neg : Bool) (n : Nat) : Int :=
  let v : Int := if neg then (if n > 2 ^ 63 then -(2 ^ 63) else -(n : Int)) else (if n ≥ 2 ^ 63 then 2 ^ 63 - 1 else (n : Int))
  asInt (v % 2 ^ 32).toNat

/-- `%d` of `sscanf`. -/
def scanInt (s : Str) : ScanRes :=
  match s.dropWhile cSpace with
  | [] => .eof
  | c :: cs =>
    let neg := c == '-'
    let body := if neg || c == '+' then cs else c :: cs
    let ds := body.takeWhile tomlDigit
    if ds.isEmpty then .noMatch else .fd (longToInt neg (tomlNat ds))

/-- The literal part of the format; the input may end within it. -/
def scanLit : Str → Str → ScanRes
  | [], s => scanInt s
  | _ :: _, [] => .eof
  | p :: ps, c :: cs => if p = c then scanLit ps cs else .noMatch

/-- `sscanf(s, "SOCKET%d", &fd)`. -/
def scanSocket (s : Str) : ScanRes := scanLit c!"SOCKET" s

/-! ## Requests of the daemon -/

/-- qrexec-agent.c:591-622: the command is parsed, its configuration is loaded and may set the user. -/
def vaParse (load : RpcService → Option SvcConf) (cmdline : Str) : Option VaCmd :=
  match parseRpcCommand true cmdline with
  | none => none
  | some c => match c.service with
    | none => some (c, {})
    | some sv => match load sv with
      | none => none
      | some conf => some ({ c with username := match conf.user with | some u => some u | none => c.username }, conf)

/-- The request in a message; the last byte of the message is overwritten (qrexec-agent.c:584-592). -/
def vaJob (load : RpcService → Option SvcConf) (type domain port : Nat) (body : Wire) : VaJob :=
  let cmdline := cString (ensureNul body)
  { type, domain, port, cmdline, cmd := if type = msgConnect then none else vaParse load cmdline }

/-- qrexec-agent.c:499-515 `register_vchan_connection`: the first free slot. -/
def vaRegister (s : VaState) (pid fd : Int) (domain port : Nat) : VaState :=
  match (List.range maxClients).find? fun i => (s.conns i).pid == 0 with
  | some i => { s with conns := put s.conns i ⟨pid, fd, domain, port⟩ }
  | none => s

/-- exec.c:477-482 `qrexec_cmd_use_fork_server`. -/
def useForkServer (cmd : Option VaCmd) : Bool :=
  match cmd with
  | none => false
  | some (c, conf) => !c.nogui && conf.sendDescriptor && !conf.exitOnClientEof && !conf.exitOnServiceEof

/-- qrexec-agent.c:442-497 `try_fork_server`, 671-683: the descriptor, and what is sent (the text behind the first colon, with
its NUL). -/
def tryForkServer (j : VaJob) (t : VaTry) : Option (Nat × Str × Wire) :=
  if useForkServer j.cmd then
    if j.cmdline.length + 1 > 65535 then none
    else match splitOnce ':' j.cmdline, t.server, j.cmd with
      | some (_, text), some fd, some (c, _) => some (fd, c.username.getD [], text ++ ['\x00'])
      | _, _, _ => none
  else none

/-- qrexec-agent.c:639-698 `handle_server_exec_request_do`. -/
def vaDo (s : VaState) (j : VaJob) (t : VaTry) : VaState × List VaOut :=
  if j.type = msgConnect then
    match scanSocket j.cmdline with
    | .fd n => if t.badFd || decide (n < 0) then (s, []) else (vaRegister s (-1) n j.domain j.port, [.toClient n j.domain j.port])
    | _ => (s, [])
  else match tryForkServer j t with
    | some (fd, user, text) =>
      (vaRegister s (-1) fd j.domain j.port, [.forkServer fd user j.type j.domain j.port text j])
    | none =>
      (vaRegister s (match t.fork with | some p => (p : Int) | none => -1) (-1) j.domain j.port, [.child t.fork j])

/-- qrexec-agent.c:610-611: must the session be waited for? -/
def wantsSession (j : VaJob) : Bool :=
  match j.cmd with
  | some (c, conf) => c.service.isSome && !c.nogui && conf.waitForSession
  | none => false

/-- qrexec-agent.c:525-574 `wait_for_session_maybe`; `fork`: the result of `pipe` and `fork`. -/
def waitForSession (s : VaState) (j : VaJob) (fork : Option Nat) : Bool × VaState × List VaOut :=
  match s.session with
  | some _ => (true, s, [])
  | none => match fork with
    | none => (false, s, [])
    | some pid => (true, { s with session := some pid },
        match j.cmd with
        | some (c, _) => [.session pid (c.username.getD []) ((c.service.map RpcService.source).getD [])]
        | none => [])

/-- The first free slot for a postponed request (qrexec-agent.c:613-616). -/
def waitSlot (s : VaState) : Option Nat := (List.range maxClients).find? fun i => (s.waiting i).isNone

/-- qrexec-agent.c:577-637 `handle_server_exec_request_init`. -/
def vaInit (load : RpcService → Option SvcConf) (s : VaState) (type domain port : Nat) (body : Wire)
    (t : VaTry) (session : Option Nat) : VaState × List VaOut :=
  let j := vaJob load type domain port body
  if wantsSession j then
    match waitForSession s j session with
    | (true, s, o) => match waitSlot s with
      | some i => ({ s with waiting := put s.waiting i (some j) }, o)
      | none => let r := vaDo s j t; (r.1, o ++ r.2)
    | (false, s, o) => let r := vaDo s j t; (r.1, o ++ r.2)
  else vaDo s j t

/-- qrexec-agent.c:797-810: the postponed requests are started. -/
def vaFlush (tries : Nat → VaTry) : List Nat → VaState → VaState × List VaOut
  | [], s => (s, [])
  | i :: is, s => match s.waiting i with
    | none => vaFlush tries is s
    | some j =>
      let r := vaDo s j (tries i)
      let r' := vaFlush tries is { r.1 with waiting := put r.1.waiting i none }
      (r'.1, r.2 ++ r'.2)

/-- qrexec-agent.c:764-768 `release_connection`. -/
def vaRelease (s : VaState) (i : Nat) : VaState × List VaOut :=
  ({ s with conns := put s.conns i { s.conns i with pid := 0 } }, [.terminated (s.conns i).domain (s.conns i).port])

/-- The body of the loop of `reap_children` (qrexec-agent.c:790-820). -/
def vaReap (s : VaState) (pid : Nat) (tries : Nat → VaTry) : VaState × List VaOut :=
  if s.session = some pid then
    let r := vaFlush tries (List.range maxClients) s
    ({ r.1 with session := none }, r.2)
  else match (List.range maxClients).find? fun i => (s.conns i).pid == (pid : Int) with
    | none => (s, [])
    | some i => vaRelease s i

/-- qrexec-agent.c:866-875 `handle_terminated_fork_client` for each ready descriptor (the loop at 982-995). -/
def vaPoll (ready : List Int) : List Nat → VaState → VaState × List VaOut
  | [], s => (s, [])
  | i :: is, s =>
    if (s.conns i).pid ≠ 0 ∧ (s.conns i).fd ≠ -1 ∧ (s.conns i).fd ∈ ready then
      let r := vaRelease s i
      let r' := vaPoll ready is r.1
      (r'.1, .closed (s.conns i).fd :: r.2 ++ r'.2)
    else vaPoll ready is s

/-- `snprintf(params->request_id.ident, 32, "SOCKET%d", fd)` (qrexec-agent.c:845-847): what is behind the terminator is not
changed. -/
def putIdent (fd : Nat) (body : Wire) : Wire :=
  let text := c!"SOCKET" ++ printDec fd ++ ['\x00']
  body.take 128 ++ text ++ body.drop (128 + text.length)

/-- qrexec-agent.c:822-864 `handle_trigger_io`: `hdr` and `body` as far as they could be read. -/
def vaTrigger (fd : Nat) (hdr : Option (Nat × Nat)) (body : Option Wire) : List VaOut :=
  match hdr with
  | none => [.closed fd]
  | some (type, len) =>
    if type ≠ 0x213 ∨ len ≤ 160 ∨ len > 160 + 65000 then [.closed fd]
    else match body with
      | none => [.closed fd]
      | some b => [.forward type len (putIdent fd b)]

/-- qrexec-agent.c:700-718 `handle_service_refused`.  `sscanf` returns -1 at the end of the input, which is not 0. -/
def vaRefused (ident : Wire) : List VaOut :=
  match scanSocket (cString ident) with
  | .fd n => [.closed n]
  | .eof => [.closedGarbage]
  | .noMatch => []

/-- Events of the main loop (qrexec-agent.c:945-1004). -/
inductive VaEv where
  /-- `MSG_EXEC_CMDLINE`, `MSG_JUST_EXEC` or `MSG_SERVICE_CONNECT` of the daemon -/
  | exec (type domain port : Nat) (body : Wire) (t : VaTry) (session : Option Nat)
  /-- `MSG_SERVICE_REFUSED` -/
  | refused (ident : Wire)
  /-- any other message of the daemon -/
  | unknown
  /-- `waitpid` returns this child -/
  | childExit (pid : Nat) (tries : Nat → VaTry)
  /-- `ppoll` reports these descriptors of connections -/
  | poll (ready : List Int)
  /-- a client connects -/
  | trigger (fd : Nat) (hdr : Option (Nat × Nat)) (body : Option Wire)

/-- The handling of an event; `none`: the agent exits. -/
def vaStep (load : RpcService → Option SvcConf) (s : VaState) : VaEv → Option (VaState × List VaOut)
  | .exec type domain port body t session =>
    if type ≠ msgExec ∧ type ≠ msgJustExec ∧ type ≠ msgConnect then none
    else if body.isEmpty then none
    else some (vaInit load s type domain port body t session)
  | .refused ident => some (s, vaRefused ident)
  | .unknown => none
  | .childExit pid tries => some (vaReap s pid tries)
  | .poll ready => some (vaPoll ready (List.range maxClients) s)
  | .trigger fd hdr body => some (s, vaTrigger fd hdr body)

/-- `fork` returns the number of no running child of the agent. -/
def VaState.FreshPid (s : VaState) (fork : Option Nat) : Prop :=
  ∀ p, fork = some p → p ≠ 0 ∧ ∀ i, i < maxClients → (s.conns i).pid ≠ (p : Int)

/-- When an event can happen: processes that are forked get numbers that no running child has. -/
def VaEv.Possible (s : VaState) : VaEv → Prop
  | .exec _ _ _ _ t session => s.FreshPid t.fork ∧ s.FreshPid session ∧
      ∀ p, t.fork = some p → session ≠ some p ∧ s.session ≠ some p
  | .childExit pid tries => pid ≠ 0 ∧ (∀ i, s.FreshPid (tries i).fork) ∧
      ∀ i j p, i ≠ j → (tries i).fork = some p → (tries j).fork ≠ some p
  | _ => True

/-- A run of the agent: the events with what was done for each. -/
inductive VaRun (load : RpcService → Option SvcConf) : List (VaEv × List VaOut) → VaState → Prop where
  | start : VaRun load [] VaState.start
  | step {tr : List (VaEv × List VaOut)} {s s' : VaState} {e : VaEv} {o : List VaOut} :
      VaRun load tr s → e.Possible s → vaStep load s e = some (s', o) → VaRun load (tr ++ [(e, o)]) s'

end Qrexec
