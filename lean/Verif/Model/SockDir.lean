import Verif.Model.VmAgent

/-!
# The sockets of the daemons in dom0 (daemon/qrexec-daemon.c, libqrexec/unix-server.c)

All daemons share one directory (`socket_dir`).  Each operation on it is a step of its own, and the steps of the daemons
interleave in any way.

Simplified: the directory can be written, `symlink` and `bind` fail only if the name is in use and `unlink` only if it is
not; `bind` and `listen` are one step.  Signals other than the one that ends the process at once are part of `exit`.
-/
namespace Qrexec

/-- What a daemon is started for (qrexec-daemon.c:1745-1758: `domainid`, `domain-name`, `--uuid`). -/
structure DaemonFor where
  domid : Nat
  name : Str
  uuid : Str
  deriving DecidableEq, Repr

/-- An entry of the directory: the socket with this number, or a symbolic link. -/
inductive SockEntry where
  | socket (serial : Nat)
  | link (target : Str)
  deriving DecidableEq, Repr

/-- qrexec-daemon.c:194, 176 -/
def sockName (domid : Nat) : Str := c!"qrexec." ++ printDec domid
/-- qrexec-daemon.c:198, 171 -/
def sockByName (name : Str) : Str := c!"qrexec." ++ name
/-- qrexec-daemon.c:198, 171 -/
def sockByUuid (uuid : Str) : Str := c!"qrexec.uuid:" ++ uuid

/-- Operations on the directory. -/
inductive SockOp where
  | unlink (path : Str)
  | symlink (target path : Str)
  /-- `get_server_socket` behind its `unlink`: socket, bind, listen -/
  | bind (path : Str)
  /-- the listening socket is closed -/
  | close
  deriving DecidableEq, Repr

/-- qrexec-daemon.c:188-208 `create_qrexec_socket` with libqrexec/unix-server.c:31-62 `get_server_socket`.  `main` has
checked that there is a UUID (1750-1753). -/
def createOps (d : DaemonFor) : List SockOp :=
  [.unlink (sockByUuid d.uuid), .symlink (sockName d.domid) (sockByUuid d.uuid),
   .unlink (sockByName d.name), .symlink (sockName d.domid) (sockByName d.name),
   .unlink (sockName d.domid), .bind (sockName d.domid)]

/-- qrexec-daemon.c:165-180 `unlink_qrexec_socket`. -/
def unlinkOps (d : DaemonFor) : List SockOp :=
  [.unlink (sockByName d.name), .unlink (sockByUuid d.uuid), .unlink (sockName d.domid)]

/-- Where a process is. -/
inductive DaemonPhase where
  /-- `libvchan_client_init` and the HELLO of the agent; whether `atexit` has been called -/
  | connecting (registered : Bool)
  | creating (ops : List SockOp)
  /-- the main loop -/
  | serving
  /-- `handle_agent_restart` -/
  | closing (ops : List SockOp)
  /-- `exit`: the function given to `atexit` runs -/
  | exiting (ops : List SockOp)
  | ended
  deriving DecidableEq, Repr

/-- A process. -/
structure DaemonProc where
  ident : DaemonFor
  phase : DaemonPhase
  deriving DecidableEq, Repr

/-- The directory, the processes that listen, by the number of the socket, the number of the next socket, the processes. -/
structure SockState where
  dir : Str → Option SockEntry
  listener : Nat → Option Nat
  next : Nat
  procs : Nat → Option DaemonProc

/-- Nothing there: the directory is on a file system that is empty after booting. -/
def SockState.empty : SockState := ⟨fun _ => none, fun _ => none, 0, fun _ => none⟩

/-- Replace one value. -/
def upd {α β : Type} [DecidableEq α] (f : α → β) (a : α) (b : β) : α → β := fun x => if x = a then b else f x

/-- The process gets to another phase. -/
def SockState.goto (s : SockState) (p : Nat) (d : DaemonFor) (ph : DaemonPhase) : SockState :=
  { s with procs := upd s.procs p (some ⟨d, ph⟩) }

/-- The kernel closes what the process listened on. -/
def SockState.mute (s : SockState) (p : Nat) : SockState :=
  { s with listener := fun k => if s.listener k = some p then none else s.listener k }

/-- An operation of the process `p`; `false`: `bind` fails. -/
def SockState.op (s : SockState) (p : Nat) : SockOp → SockState × Bool
  | .unlink path => ({ s with dir := upd s.dir path none }, true)
  | .symlink target path =>
    -- qrexec-daemon.c:200-202: a failure is only logged
    ((match s.dir path with | none => { s with dir := upd s.dir path (some (.link target)) } | some _ => s), true)
  | .bind path =>
    match s.dir path with
    | none => ({ s with dir := upd s.dir path (some (.socket s.next)), listener := upd s.listener s.next (some p),
                        next := s.next + 1 }, true)
    | some _ => (s, false)
  | .close => (s.mute p, true)

/-- A step of the process `p`. -/
inductive SockStep (s : SockState) : Nat → SockState → Prop
  /-- qrexec-daemon.c:289 `init` in a new process (which checks that the number is positive, 299-302) -/
  | start (p d) (h : s.procs p = none) (h0 : 0 < d.domid) : SockStep s p (s.goto p d (.connecting false))
  /-- the agent has sent its HELLO (qrexec-daemon.c:413-440, 1648-1670) -/
  | connected (p d r) (h : s.procs p = some ⟨d, .connecting r⟩) : SockStep s p (s.goto p d (.creating (createOps d)))
  | create (p d o os) (h : s.procs p = some ⟨d, .creating (o :: os)⟩) (hb : (s.op p o).2 = true) :
      SockStep s p ((s.op p o).1.goto p d (.creating os))
  /-- unix-server.c:49-53: `exit(1)` -/
  | createFails (p d o os) (h : s.procs p = some ⟨d, .creating (o :: os)⟩) (hb : (s.op p o).2 = false) :
      SockStep s p ((s.op p o).1.goto p d (.exiting (unlinkOps d)))
  | created (p d) (h : s.procs p = some ⟨d, .creating []⟩) : SockStep s p (s.goto p d .serving)
  /-- qrexec-daemon.c:1792-1800, 1601-1607: the agent has disconnected -/
  | restart (p d) (h : s.procs p = some ⟨d, .serving⟩) :
      SockStep s p (s.goto p d (.closing (unlinkOps d ++ [.close])))
  | closeOp (p d o os) (h : s.procs p = some ⟨d, .closing (o :: os)⟩) :
      SockStep s p ((s.op p o).1.goto p d (.closing os))
  /-- qrexec-daemon.c:1645 -/
  | closed (p d) (h : s.procs p = some ⟨d, .closing []⟩) : SockStep s p (s.goto p d (.connecting true))
  /-- `exit`, a return from `main`, or an error of a system call -/
  | exit (p d) (h : s.procs p = some ⟨d, .serving⟩) : SockStep s p (s.goto p d (.exiting (unlinkOps d)))
  /-- no connection to the agent, or a bad HELLO: qrexec-daemon.c:1646-1656, 1794-1797 -/
  | giveUp (p d) (h : s.procs p = some ⟨d, .connecting true⟩) : SockStep s p (s.goto p d (.exiting (unlinkOps d)))
  /-- the same before `atexit` (qrexec-daemon.c:391-416) -/
  | giveUpEarly (p d) (h : s.procs p = some ⟨d, .connecting false⟩) : SockStep s p (s.goto p d .ended)
  | exitOp (p d o os) (h : s.procs p = some ⟨d, .exiting (o :: os)⟩) :
      SockStep s p ((s.op p o).1.goto p d (.exiting os))
  | exited (p d) (h : s.procs p = some ⟨d, .exiting []⟩) : SockStep s p ((s.mute p).goto p d .ended)
  /-- the process is killed -/
  | killed (p d ph) (h : s.procs p = some ⟨d, ph⟩) : SockStep s p ((s.mute p).goto p d .ended)
  /-- A process `c` that serves a call of a dom0 service for the daemon `p` (`handle_execute_service_child`, the process is
  not replaced by another program) calls `exit` because of an error on its data connection
  (libqrexec/process_io.c:37-41): the function given to `atexit` by its parent runs. -/
  | childExits (p d c) (h : s.procs p = some ⟨d, .serving⟩) (hc : s.procs c = none) :
      SockStep s c (s.goto c d (.exiting (unlinkOps d)))

/-- `connect` (daemon-common.c:239-268, relative to the directory): which process accepts; symbolic links are followed at
most 40 times (Linux). -/
def sockConnect (s : SockState) : Nat → Str → Option Nat
  | 0, _ => none
  | n + 1, path =>
    match s.dir path with
    | none => none
    | some (.socket k) => s.listener k
    | some (.link t) => sockConnect s n t

/-- qrexec-daemon-common.c:244-264 -/
def SockState.connect (s : SockState) (path : Str) : Option Nat := sockConnect s 41 path

end Qrexec
