import Verif.Model.Str

/-!
# Who can connect to the sockets, and the umask of the programs

Each program that makes sockets is a sequence of operations on its umask, its group and the files; it may end behind any
of them.  Only the permissions of files are modelled (for the names and their contents see `Model/SockDir`).

Simplified: nobody else changes these files; no ACLs; failures other than of `bind` do not occur.
-/
namespace Qrexec

/-- A file: its permissions, its group, and whether this process has made it. -/
structure ModeFile where
  mode : Nat
  group : Nat
  mine : Bool
  deriving DecidableEq, Repr

/-- Operations. -/
inductive ModeOp where
  | umask (m : Nat)
  | setgid (g : Nat)
  | unlink (path : Str)
  /-- socket, bind and listen -/
  | bind (path : Str)
  | chmod (path : Str) (m : Nat)
  /-- open with O_CREAT -/
  | create (path : Str) (m : Nat)
  /-- a program is started -/
  | run
  deriving DecidableEq, Repr

/-- A process: its umask, its group, the files, the umask of each program it has started, and whether it has ended
because `bind` failed. -/
structure ModeState where
  mask : Nat
  group : Nat
  files : Str → Option ModeFile
  started : List Nat
  failed : Bool

/-- What the kernel makes of the permissions that are asked for. -/
def maskedMode (req mask : Nat) : Nat := req &&& ((mask &&& 0o777) ^^^ 0o777)

/-- Replace a file. -/
def ModeState.setFile (s : ModeState) (path : Str) (f : Option ModeFile) : ModeState :=
  { s with files := fun p => if p = path then f else s.files p }

/-- One operation. `bind` asks for 0777; a new file belongs to the group of the process; `open` leaves the permissions of a file
that exists. -/
def ModeState.op (s : ModeState) (o : ModeOp) : ModeState :=
  if s.failed then s
  else match o with
    | .umask m => { s with mask := m &&& 0o777 }
    | .setgid g => { s with group := g }
    | .unlink path => s.setFile path none
    | .bind path =>
      match s.files path with
      | none => s.setFile path (some ⟨maskedMode 0o777 s.mask, s.group, true⟩)
      | some _ => { s with failed := true }
    | .chmod path m =>
      match s.files path with
      | none => s
      | some f => s.setFile path (some { f with mode := m })
    | .create path m =>
      match s.files path with
      | none => s.setFile path (some ⟨maskedMode m s.mask, s.group, true⟩)
      | some _ => s
    | .run => { s with started := s.started ++ [s.mask] }

/-- Several. -/
def ModeState.ops (s : ModeState) (os : List ModeOp) : ModeState := os.foldl ModeState.op s

/-- A process that has just been started. -/
def ModeState.init (mask group : Nat) (files : Str → Option ModeFile) : ModeState :=
  ⟨mask &&& 0o777, group, fun p => (files p).map fun f => { f with mine := false }, [], false⟩

/-- The three sockets of the policy daemon (qrexec/__init__.py, qrexec_policy_daemon.py: `argparser`). -/
structure PolicyPaths where
  eval : Str
  gui : Str
  main : Str

/-- qrexec_policy_daemon.py:366-375 `main`, 312-357 `start_serving`. -/
def policyDaemonModes (root : Bool) (qubes : Nat) (p : PolicyPaths) : List ModeOp :=
  [.umask 0o007] ++ (if root then [.setgid qubes] else []) ++
  [.unlink p.eval, .unlink p.gui, .unlink p.main] ++
  [.bind p.main, .bind p.eval, .bind p.gui] ++
  [.chmod p.eval 0o660, .chmod p.gui 0o660, .chmod p.main 0o660]

/-- qrexec-daemon.c:188-208 `create_qrexec_socket` with unix-server.c:32-60 `get_server_socket`. -/
def daemonSocketModes (sock : Str) : List ModeOp :=
  [.umask 0, .unlink sock, .bind sock, .umask 0o077]

/-- qrexec-daemon.c:364-391, 440-441: `init`. -/
def daemonInitModes (direct : Bool) (log sock : Str) : List ModeOp :=
  (if direct then [] else [.umask 0o007, .create log 0o660]) ++ daemonSocketModes sock

/-- What a daemon that runs does. -/
inductive DaemonLife where
  /-- a program is started for a call (1281-1318) -/
  | serve
  /-- qrexec-daemon.c:1601-1670 `handle_agent_restart`: the sockets are removed and made again -/
  | restart
  deriving DecidableEq, Repr

/-- qrexec-daemon.c:1281-1318, 1601-1670. -/
def DaemonLife.ops (sock : Str) : DaemonLife → List ModeOp
  | .serve => [.run]
  | .restart => .unlink sock :: daemonSocketModes sock

/-- The operations of a daemon: `life` is what happens behind `init`. -/
def daemonModes (direct : Bool) (log sock : Str) (life : List DaemonLife) : List ModeOp :=
  daemonInitModes direct log sock ++ life.flatMap (DaemonLife.ops sock)

/-- qrexec-agent.c:393-406 `init`, then the programs it starts. -/
def agentModes (mask : Nat) (sock : Str) (programs : Nat) : List ModeOp :=
  [.umask 0, .unlink sock, .bind sock, .umask mask] ++ List.replicate programs .run

/-- qrexec-fork-server.c:129-145, then the programs it starts. -/
def forkServerModes (sock : Str) (programs : Nat) : List ModeOp :=
  [.unlink sock, .bind sock] ++ List.replicate programs .run

end Qrexec
