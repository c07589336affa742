import Verif.Model.Start

/-!
What the new process of a service or a command does before it becomes the program (`do_exec`): in a qube as root with PAM,
as another user, in the fork server of a user, and in dom0.

Simplified: signals and `setsid`; a `getpwnam` entry without password field and failing allocations (they end in
QREXEC_EXIT_PROBLEM like an unknown user); the questions PAM modules ask (they get empty answers); the texts that are logged.
The build without PAM (`su`) is not modelled.
-/
namespace Qrexec

/-- An entry of the user database (`struct passwd`). -/
structure Passwd where
  name : Str
  dir : Str
  shell : Str
  uid : Nat
  gid : Nat
  deriving DecidableEq, Repr

/-- Whom a process acts for. -/
structure Creds where
  uid : Nat
  gid : Nat
  groups : List Nat
  deriving DecidableEq, Repr

/-- A program, whom it acts for, and its working directory (`none`: that of the agent). -/
structure RunProg where
  call : ExecCall
  creds : Creds
  dir : Option Str
  deriving DecidableEq, Repr

/-- What is visible of the process that holds the PAM session. -/
inductive DeEvent where
  /-- `pam_authenticate` for this user succeeded -/
  | authenticated (user : Str)
  /-- `pam_setcred(PAM_ESTABLISH_CRED)` succeeded -/
  | established
  /-- `pam_open_session` succeeded -/
  | opened
  /-- the child has become this program -/
  | started (s : RunProg)
  /-- stdin, stdout and stderr are closed -/
  | closedStd
  /-- `waitpid` returned -/
  | waited
  /-- session closed and credentials deleted -/
  | ended
  deriving DecidableEq, Repr

/-- How a process ended. -/
inductive WaitStatus where
  | exited (code : Nat)
  | signaled (signal : Nat)
  deriving DecidableEq, Repr

/-- Result of `execve`. -/
inductive ExecTry where
  | ok
  | enoent
  | otherError
  deriving DecidableEq, Repr

/-- The system as the process sees it. `pamEnv`: the environment PAM modules have set up when the session is open. `runs`: how
a program that is started ends. -/
structure DeWorld where
  creds : Creds
  environ : List Str
  getpwuid : Nat → Option Passwd
  getpwnam : Str → Option Passwd
  pamStart : Str → Bool
  pamAuth : Str → Bool
  initgroups : Str → Nat → Option (List Nat)
  pamCred : Str → Bool
  pamSession : Str → Bool
  pamEnv : List Str
  putenv : Str → Bool
  ppid : Nat
  fork : Bool
  setgid : Nat → Bool
  setuid : Nat → Bool
  chdir : Str → Bool
  exec : ExecCall → ExecTry
  runs : RunProg → WaitStatus
  wait : Bool
  pamEnd : Bool

/-- The end of `do_exec` in a process. -/
inductive DeEnd where
  | exits (status : Nat)
  | becomes (s : RunProg)
  deriving DecidableEq, Repr

/-- Text after the last slash (`basename` of glibc). -/
def baseName (s : Str) : Str :=
  match splitLast '/' s with
  | some (_, b) => b
  | none => s

/-- exec.c:163-168, 215-218: `execve`, and the exit status if it fails. -/
def execOr (w : DeWorld) (creds : Creds) (dir : Option Str) (call : ExecCall) (noent other : Nat) : DeEnd :=
  match w.exec call with
  | .ok => .becomes ⟨call, creds, dir⟩
  | .enoent => .exits noent
  | .otherError => .exits other

/-- exec.c:63-220 `exec_qubes_rpc2`, which never returns. -/
def rpcExec (w : DeWorld) (creds : Creds) (dir : Option Str) (prog cmd : Str) (env : List Str) (useShell : Bool) : DeEnd :=
  match execQubesRpc2 prog cmd env useShell with
  | none => .exits 125
  | some call => if useShell then execOr w creds dir call 125 125 else execOr w creds dir call 127 125

/-- pam_putenv(3) with a text `NAME=value`. Simplified: the order of the variables. -/
def pamPut (env : List Str) (s : Str) : List Str :=
  env.filter (fun e => !(s.takeWhile (· != '=') ++ c!"=").isPrefixOf e) ++ [s]

/-- qrexec-agent.c:247-275: `snprintf` to a buffer of 64 bytes and `pam_putenv`, for each of the variables. -/
def pamPutAll (w : DeWorld) (env : List Str) : List Str → Option (List Str)
  | [] => some env
  | s :: rest =>
    if s.length ≥ 64 then none
    else if !w.putenv s then none
    else pamPutAll w (pamPut env s) rest

/-- qrexec-agent.c:247-275: the variables. -/
def loginVars (w : DeWorld) (pw : Passwd) : List Str :=
  [c!"QREXEC_AGENT_PID=" ++ printDec w.ppid, c!"HOME=" ++ pw.dir, c!"SHELL=" ++ pw.shell, c!"USER=" ++ pw.name,
    c!"LOGNAME=" ++ pw.name]

/-- setgid(2) of a process; only root can. -/
def doSetgid (w : DeWorld) (c : Creds) (g : Nat) : Option Creds :=
  if c.uid = 0 ∧ w.setgid g = true then some { c with gid := g } else none

/-- setuid(2) of a process; only root can. -/
def doSetuid (w : DeWorld) (c : Creds) (u : Nat) : Option Creds :=
  if c.uid = 0 ∧ w.setuid u = true then some { c with uid := u } else none

/-- qrexec-agent.c:283-313: the child. -/
def deChild (w : DeWorld) (pw : Passwd) (creds : Creds) (env : List Str) (prog : Option Str) (cmd : Str) : DeEnd :=
  match doSetgid w creds pw.gid with
  | none => .exits 125
  | some c1 => match doSetuid w c1 pw.uid with
    | none => .exits 125
    | some c2 =>
      let dir := if w.chdir pw.dir then some pw.dir else none
      match prog with
      | some p => rpcExec w c2 dir p cmd env true
      | none => execOr w c2 dir ⟨pw.shell, [c!"-" ++ baseName pw.shell, c!"-c", cmd], env⟩ 125 125

/-- qrexec-agent.c:314-342: the parent, once it has forked. -/
def deParent (w : DeWorld) (child : DeEnd) : List DeEvent × DeEnd :=
  let begun := match child with
    | .becomes s => [DeEvent.started s]
    | .exits _ => []
  let status : WaitStatus := match child with
    | .becomes s => w.runs s
    | .exits n => .exited n
  let code := if !w.wait then 1
    else match status with
      | .signaled n => n + 128
      | .exited n => n
  (begun ++ [.closedStd, .waited, .ended], .exits (if w.pamEnd then code else 125))

/-- qrexec-agent.c:218-345: as root, with the entry of the user. -/
def dePam (w : DeWorld) (pw : Passwd) (prog : Option Str) (cmd user : Str) : List DeEvent × DeEnd :=
  if !w.pamStart user then ([], .exits 125)
  else if !w.pamAuth user then ([], .exits 125)
  else match w.initgroups pw.name pw.gid with
    | none => ([.authenticated user], .exits 125)
    | some gs =>
      if !w.pamCred user then ([.authenticated user], .exits 125)
      else if !w.pamSession user then ([.authenticated user, .established], .exits 125)
      else match pamPutAll w w.pamEnv (loginVars w pw) with
        | none => ([.authenticated user, .established, .opened], .exits 125)
        | some env =>
          if !w.fork then ([.authenticated user, .established, .opened], .exits 125)
          else
            let r := deParent w (deChild w pw { w.creds with groups := gs } env prog cmd)
            ([.authenticated user, .established, .opened] ++ r.1, r.2)

/-- qrexec-agent.c:141-362 `do_exec` of the agent. -/
def agentDoExec (w : DeWorld) (prog : Option Str) (cmd user : Str) : List DeEvent × DeEnd :=
  if w.creds.uid ≠ 0 then
    match w.getpwuid w.creds.uid with
    | none => ([], .exits 125)
    | some pw =>
      if pw.name ≠ user then ([], .exits 125)
      else match prog with
        | some p => ([], rpcExec w w.creds none p cmd w.environ false)
        | none => ([], execOr w w.creds none ⟨c!"/bin/sh", [c!"sh", c!"-c", cmd], w.environ⟩ 125 125)
  else
    match w.getpwnam user with
    | none => ([], .exits 125)
    | some pw =>
      if pw.name = [] ∨ pw.dir = [] then ([], .exits 125)
      else dePam w pw prog cmd user

/-- fork-server.c:40-61 `do_exec` of the fork server. -/
def forkDoExec (w : DeWorld) (prog : Option Str) (cmd : Str) : DeEnd :=
  match prog with
  | some p => rpcExec w w.creds none p cmd w.environ false
  | none =>
    let shell := ((w.environ.find? fun e => (c!"SHELL=").isPrefixOf e).map fun e => e.drop 6).getD c!"/bin/sh"
    execOr w w.creds none ⟨shell, [baseName shell, c!"-c", cmd], w.environ⟩ 1 1

/-- qrexec-client.c:65-78 and qrexec-daemon.c:1167-1180 `do_exec` in dom0; `failure` is the status if there is no bash: 1
for the client, QREXEC_EXIT_PROBLEM for the daemon. -/
def dom0DoExec (w : DeWorld) (failure : Nat) (prog : Option Str) (cmd : Str) : DeEnd :=
  match prog with
  | some p => rpcExec w w.creds none p cmd w.environ false
  | none => execOr w w.creds none ⟨c!"/bin/bash", [c!"bash", c!"-c", cmd], w.environ⟩ failure failure

/-- exec.c:677-703 `execute_parsed_qubes_rpc_command`, for a call that needs a process: which file, if it is a service.
Otherwise (connections, failures) there is no process. -/
def procOf (w : StartWorld) (cmd : RpcCmd) (sendDesc : Bool) : Option (Option Str) :=
  if !w.forks then none
  else match cmd.service with
    | none => some none
    | some s => match findService w.fs w.bufSize w.pathList true sendDesc w.connects cmd.command s with
      | .exec p => some (some p)
      | _ => none

/-- The process an agent makes for the text of a request: `parse_qubes_rpc_command`, `execute_parsed_qubes_rpc_command` and
`do_exec`. `none`: no process. -/
def agentProcess (w : DeWorld) (sw : StartWorld) (sendDesc : Bool) (line : Str) : Option (List DeEvent × DeEnd) :=
  match parseRpcCommand true line with
  | none => none
  | some c => match procOf sw c sendDesc with
    | none => none
    | some prog => some (agentDoExec w prog c.command (c.username.getD []))

end Qrexec
