import Verif.Model.ServiceCmd
import Verif.Model.SockDir

/-!
# libqrexec: connecting to the socket of a service (exec.c:302-341, 723-774, 807-833, 887-896)

What the kernel, `mkdtemp` and `getaddrinfo` do is a parameter. The file system holds what this code makes there.
-/
namespace Qrexec

/-- An entry of the file system. -/
inductive TmpNode where
  | dir
  | link (target : Str)
  | other
  deriving DecidableEq, Repr

/-- What is at a path. -/
abbrev TmpFs := Str → Option TmpNode

/-- A result of `connect`: success, `EINTR`/`EWOULDBLOCK`/`EAGAIN`, another error. -/
inductive ConnCall where
  | ok
  | again
  | failed
  deriving DecidableEq, Repr

/-- `tmp`: the six characters `mkdtemp` chooses, `none` if it fails. `linkOk`: `symlink` succeeds. `calls`: what the calls of
`connect` give. -/
structure ConnEnv where
  tmp : Option Str
  linkOk : Bool := true
  calls : List ConnCall
  deriving Repr

/-- What was done: the calls of `connect`, each with the address and the file system at that time, the file system afterwards,
and the result; `none`: the schedule is used up within the loop. -/
structure ConnRun where
  tried : List (Str × TmpFs) := []
  fs : TmpFs
  res : Option Bool

/-- `sizeof(((struct sockaddr_un *)0)->sun_path)` on Linux. -/
def sunPathSize : Nat := 108

/-- exec.c:328-330: the loop around `connect`; how often it is called, and the result. -/
def connectLoop : List ConnCall → Nat × Option Bool
  | [] => (0, none)
  | .ok :: _ => (1, some true)
  | .failed :: _ => (1, some false)
  | .again :: cs => let r := connectLoop cs; (r.1 + 1, r.2)

/-- exec.c:304-305, 315-317: the directory and the link in it. -/
def tmpDir (x : Str) : Str := c!"/tmp/qrexec-" ++ x
def tmpLink (x : Str) : Str := tmpDir x ++ c!"/qrexec-socket"

/-- exec.c:333-337: `unlink` and `rmdir`. -/
def tmpClean (x : Str) (fs : TmpFs) : TmpFs := upd (upd fs (tmpLink x) none) (tmpDir x) none

/-- exec.c:302-341 `qubes_connect`. -/
def qubesConnect (e : ConnEnv) (fs : TmpFs) (path : Str) : ConnRun :=
  if sunPathSize ≤ path.length then
    match e.tmp with
    | none => { fs := fs, res := some false }
    | some x =>
      let fs1 := upd fs (tmpDir x) (some .dir)
      if !e.linkOk then { fs := tmpClean x fs1, res := some false }
      else
        let fs2 := upd fs1 (tmpLink x) (some (.link path))
        let r := connectLoop e.calls
        { tried := List.replicate r.1 (tmpLink x, fs2), fs := tmpClean x fs2, res := r.2 }
  else
    let r := connectLoop e.calls
    { tried := List.replicate r.1 (path, fs), fs := fs, res := r.2 }

/-- What is done with descriptors and addresses. -/
inductive NetEv where
  /-- `getaddrinfo`: host, port, must it be IPv6, are host and port numbers (`AI_NUMERICHOST`, `AI_NUMERICSERV`) -/
  | lookup (host port : Str) (v6 numericHost numericServ : Bool)
  | opened (fd : Nat)
  | closed (fd : Nat)
  | connect (fd : Nat) (addr : Str)
  deriving DecidableEq, Repr

/-- exec.c:812-822, the connection of a socket service: `sock`: what `socket` gives. -/
def unixService (sock : Option Nat) (e : ConnEnv) (fs : TmpFs) (path : Str) : Option Nat × List NetEv × ConnRun :=
  match sock with
  | none => (none, [], { fs := fs, res := some false })
  | some fd =>
    let r := qubesConnect e fs path
    match r.res with
    | some true => (some fd, .opened fd :: r.tried.map (fun t => .connect fd t.1), r)
    | some false => (none, .opened fd :: r.tried.map (fun t => .connect fd t.1) ++ [.closed fd], r)
    | none => (none, .opened fd :: r.tried.map (fun t => .connect fd t.1), r)

/-- What `getaddrinfo`, `socket` and `connect` do for a TCP service. -/
structure TcpEnv where
  lookup : Str → Str → Bool → Option Str
  sock : Option Nat
  connects : Bool

/-- exec.c:723-774 `qubes_tcp_connect`. -/
def tcpConnect (e : TcpEnv) (host port : Str) : Option Nat × List NetEv :=
  if !validatePort port then (none, [])
  else
    let v6 := host.contains ':' || host.contains '%'
    match e.lookup host port v6 with
    | none => (none, [.lookup host port v6 true true])
    | some addr => match e.sock with
      | none => (none, [.lookup host port v6 true true])
      | some fd =>
        if e.connects then (some fd, [.lookup host port v6 true true, .opened fd, .connect fd addr])
        else (none, [.lookup host port v6 true true, .opened fd, .connect fd addr, .closed fd])

end Qrexec
