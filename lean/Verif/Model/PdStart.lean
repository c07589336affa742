import Verif.Model.PolicyDaemon

/-!
# The start of the policy daemon, and its sockets

qrexec_policy_daemon.py:312-378 (`start_serving`, `main`), and the socket of the policy agent
(server.py:47-52).

Simplifications: nobody else changes these paths while the daemon starts; the file system fails
only for the reasons given; directories do not pass on their group; `stat` follows one symbolic
link, to something that is not one; the user is root or has the group already.
-/
namespace Qrexec

/-- What a socket is served by: the handler given to `start_unix_server`. -/
inductive PdService where
  /-- `handle_client_connection` -/
  | requests
  /-- `handle_qrexec_connection(check_gui, service_name)` -/
  | eval (checkGui : Bool) (name : Str)
  deriving DecidableEq, Repr

/-- What a path is. -/
inductive NodeKind where
  /-- a socket; `some s`: this process listens on it -/
  | socket (served : Option PdService)
  | file
  | dir
  | link (target : Str)
  deriving DecidableEq, Repr

/-- An entry of the file system, with its permissions and group. -/
structure FsNode where
  kind : NodeKind
  mode : Nat
  group : Nat
  deriving DecidableEq, Repr

/-- The daemon while it starts. -/
structure PdProc where
  fs : Str → Option FsNode
  umask : Nat
  gid : Nat
  loaded : Bool := false
  watching : Bool := false

/-- What it does. -/
inductive PdOp where
  | umask (m : Nat)
  | setgid (g : Nat)
  /-- `os.unlink`, with `except FileNotFoundError: pass` -/
  | unlink (p : Str)
  /-- `PolicyCache(...)` (utils.py:28-40) -/
  | load
  /-- `initialize_watcher()` (utils.py:53-92) -/
  | watch
  /-- `asyncio.start_unix_server` -/
  | bind (p : Str) (s : PdService)
  /-- `os.chmod` -/
  | chmod (p : Str) (mode : Nat)
  deriving DecidableEq, Repr

/-- `p` becomes `n`. -/
def PdProc.put (s : PdProc) (p : Str) (n : Option FsNode) : PdProc :=
  { s with fs := fun x => if x = p then n else s.fs x }

/-- `stat.S_ISSOCK(os.stat(path).st_mode)`. -/
def statIsSocket (fs : Str → Option FsNode) (p : Str) : Bool :=
  match (fs p).map FsNode.kind with
  | some (.socket _) => true
  | some (.link t) => match (fs t).map FsNode.kind with
    | some (.socket _) => true
    | _ => false
  | _ => false

/-- `os.path.exists`. -/
def pathExists (fs : Str → Option FsNode) (p : Str) : Bool :=
  match (fs p).map FsNode.kind with
  | some (.link t) => (fs t).isSome
  | some _ => true
  | none => false

/-- `asyncio.start_unix_server(handler, path=p)`: removes a socket that is there (asyncio's
`create_unix_server`), then binds, which fails if there is anything else, and listens. -/
def PdProc.bind (s : PdProc) (p : Str) (svc : PdService) : Option PdProc :=
  let s' := if statIsSocket s.fs p then s.put p none else s
  match s'.fs p with
  | some _ => none
  | none => some (s'.put p (some ⟨.socket (some svc), 0o777 - (s.umask &&& 0o777), s.gid⟩))

/-- One operation; `none` is an exception, which ends the daemon.  `ok`: the policy loads. -/
def PdProc.step (ok : Bool) (s : PdProc) : PdOp → Option PdProc
  | .umask m => some { s with umask := m }
  | .setgid g => some { s with gid := g }
  | .unlink p => match s.fs p with
    | none => some s
    | some n => if n.kind = .dir then none else some (s.put p none)
  | .load => if ok then some { s with loaded := true } else none
  | .watch => some { s with watching := true }
  | .bind p svc => s.bind p svc
  | .chmod p m => match s.fs p with
    | none => none
    | some n => some (s.put p (some { n with mode := m }))

/-- qrexec_policy_daemon.py:312-378: `main` and `start_serving` up to `serve_forever`, for the
paths of the three sockets; `qubes` is the number of the group `qubes`. -/
def pdStartOps (root : Bool) (qubes : Nat) (policy eval gui : Str) : List PdOp :=
  [.umask 0o007] ++ (if root then [.setgid qubes] else []) ++
  [.unlink eval, .unlink gui, .unlink policy, .load, .watch,
   .bind policy .requests,
   .bind eval (.eval false c!"policy.EvalSimple"),
   .bind gui (.eval true c!"policy.EvalGUI"),
   .chmod eval 0o660, .chmod gui 0o660, .chmod policy 0o660]

/-- Doing the operations: the state in the end (`none`: an exception), and all states on the
way, the first included. -/
def PdProc.doAll (ok : Bool) : PdProc → List PdOp → List PdProc × Option PdProc
  | s, [] => ([s], some s)
  | s, op :: ops => match s.step ok op with
    | none => ([s], none)
    | some s' => (s :: (s'.doAll ok ops).1, (s'.doAll ok ops).2)

/-- server.py:47-52 `SocketService.start`: the policy agent's socket. -/
def agentStart (s : PdProc) (p : Str) : Option PdProc :=
  let unlinked : Option PdProc :=
    if pathExists s.fs p then
      match s.fs p with
      | some n => if n.kind = .dir then none else some (s.put p none)
      | none => none
    else some s
  unlinked.bind fun s => s.bind p .requests

end Qrexec
