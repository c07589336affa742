import Verif.Model.VmAgent

/-!
# What the agent tells others about itself (agent/qrexec-agent.c)

systemd is told when the agent is ready (353-391, 393-414), and the program that reports the
memory use of the qube (`meminfo-writer`) is woken when a command comes (416-446, 719-735).

Simplifications: texts from the environment have no NUL (the kernel sees to that); the system
calls of `my_sd_notify` behind `socket` fail or not as one.
-/
namespace Qrexec

/-- The name of a socket as the kernel sees it. -/
inductive UnixName where
  | path (p : Str)
  /-- a name in the abstract namespace: all its bytes count -/
  | abstract (name : Str)
  deriving DecidableEq, Repr

/-- qrexec-agent.c:358-375: `strncpy` into 108 bytes, the last of them NUL, a leading `@` replaced,
and `connect` with the whole structure; so the abstract name has the 107 bytes behind the first. -/
def notifyTarget (env : Str) : UnixName :=
  match env.take 107 with
  | [] => .abstract (List.replicate 107 '\x00')
  | '@' :: name => .abstract (name ++ List.replicate (107 - name.length) '\x00')
  | p => .path p

/-- What happens when the agent starts. -/
inductive ReadyOp where
  /-- `libvchan_server_init` -/
  | vchan
  /-- `handle_handshake` -/
  | hello
  /-- `get_server_socket(agent_trigger_path)` -/
  | listen
  /-- `libvchan_wait` until `libvchan_is_open` -/
  | waitOpen
  /-- `if (getenv("NOTIFY_SOCKET")) my_sd_notify(1, "READY=1")`; `sent`: nothing failed -/
  | notify (sent : Bool)
  /-- a command of the daemon is carried out: a program is started with the environment -/
  | run
  deriving DecidableEq, Repr

/-- The agent while it starts. -/
structure ReadyState where
  /-- `NOTIFY_SOCKET` in its environment -/
  env : Option Str
  vchan : Bool := false
  greeted : Bool := false
  listening : Bool := false
  isOpen : Bool := false
  /-- the messages that were sent, and where -/
  told : List (UnixName × Str) := []
  /-- `NOTIFY_SOCKET` as the programs see it -/
  seen : List (Option Str) := []
  deriving DecidableEq, Repr

/-- One operation.  (`my_sd_notify` removes the variable before it sends anything,
qrexec-agent.c:368-369.) -/
def ReadyState.step (s : ReadyState) : ReadyOp → ReadyState
  | .vchan => { s with vchan := true }
  | .hello => { s with greeted := true }
  | .listen => { s with listening := true }
  | .waitOpen => { s with isOpen := true }
  | .notify sent => match s.env with
    | none => s
    | some e => { s with
        env := none
        told := if sent then s.told ++ [(notifyTarget e, c!"READY=1")] else s.told }
  | .run => { s with seen := s.seen ++ [s.env] }

/-- qrexec-agent.c:393-414 `init` and the main loop with `n` programs; the agent may end behind
any of them (a failure of `libvchan_server_init`, of the handshake, a signal). -/
def readyOps (sent : Bool) (n : Nat) : List ReadyOp :=
  [.vchan, .hello, .listen, .waitOpen, .notify sent] ++ List.replicate n .run

/-- The state behind these operations. -/
def ReadyState.doAll (s : ReadyState) (ops : List ReadyOp) : ReadyState := ops.foldl .step s

/-- qrexec-agent.c:416-446 `wake_meminfo_writer`: the new `meminfo_write_started`, and the process
that is sent SIGUSR1.  `file` is the text in the PID file (`none`: it cannot be opened); `alive` is
whether `kill` succeeds. -/
def wakeMeminfo (started : Bool) (file : Option Str) (alive : Int → Bool) : Bool × Option Int :=
  if started then (true, none)
  else match file with
    | none => (false, none)
    | some text => match scanInt text with
      | .fd pid =>
        if pid ≤ 1 ∨ pid > 0xffff then (false, none)
        else if alive pid then (true, some pid) else (false, some pid)
      | _ => (false, none)

/-- A message of the daemon (qrexec-agent.c:719-745 `handle_server_cmd`): the three commands
(0x200, 0x201, 0x202) wake it, others do not.  -/
def wakeOnMessage (started : Bool) (type : Nat) (file : Option Str) (alive : Int → Bool) :
    Bool × Option Int :=
  if type = 0x200 ∨ type = 0x201 ∨ type = 0x202 then wakeMeminfo started file alive
  else (started, none)

/-- A sequence of messages: what is signalled for each. -/
def wakeAll (started : Bool) : List (Nat × Option Str × (Int → Bool)) → List (Option Int)
  | [] => []
  | (type, file, alive) :: rest =>
    (wakeOnMessage started type file alive).2 ::
      wakeAll (wakeOnMessage started type file alive).1 rest

end Qrexec
