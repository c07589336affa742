import Verif.Model.Start

/-!
# The program that waits for the session (qubes-rpc-base/qubes.WaitForSession)

The shell script, statement by statement. Every command of it is carried out at a moment of its own, and what other programs do in between is
arbitrary: a history is the list of these moments.
-/
namespace Qrexec

/-- What the commands of the script find at a moment. -/
structure WsNow where
  /-- `command -v qrexec-client` -/
  hasClient : Bool
  /-- output of `qubesdb-read --default=True /qubes-gui-enabled`, without newlines at its end; nothing if it fails -/
  gui : Str
  /-- output of `qubesdb-read /default-user`; `none`: it fails (and writes nothing) -/
  defaultUser : Option Str
  /-- `test -e` -/
  isThere : Str → Bool
  /-- `systemctl --user --wait is-system-running` with this address of the bus: its status when it ends now; `none`: it goes on waiting -/
  running : Str → Option Nat
  /-- status of `systemctl --user --failed` -/
  listing : Nat
  /-- `id -u` -/
  uid : Str

/-- The variables of the environment that the script looks at. -/
structure WsEnv where
  argument : Option Str
  runtimeDir : Option Str
  bus : Option Str
  deriving DecidableEq, Repr

/-- Where the script is. -/
inductive WsPos where
  /-- lines 29-38 -/
  | begins
  /-- line 9 -/
  | readsUser
  /-- lines 10-12 -/
  | looks (user : Str)
  /-- lines 15-19 -/
  | asks
  /-- lines 20-22 -/
  | lists (rc : Nat)
  | ended (status : Nat)
  deriving DecidableEq, Repr

/-- Line 10. -/
def wsSocket (user : Str) : Str := c!"/var/run/qubes/qrexec-server." ++ user ++ c!".sock"

/-- Line 15-16: `${VAR:=default}` replaces an empty value too. -/
def wsBus (env : WsEnv) (n : WsNow) : Str :=
  let dir := match env.runtimeDir with
    | some (c :: d) => c :: d
    | _ => c!"/run/user/" ++ n.uid
  match env.bus with
  | some (c :: b) => c :: b
  | _ => c!"unix:path=" ++ dir ++ c!"/bus"

/-- One command of the script. -/
def wsStep (env : WsEnv) (n : WsNow) : WsPos → WsPos
  | .begins =>
    -- lines 28-40
    if env.argument.getD [] != [] then .ended 0
    -- lines 6-7
    else if !n.hasClient && n.gui == c!"True" then .readsUser
    else .asks
  | .readsUser => .looks (n.defaultUser.getD c!"user")
  | .looks u => if n.isThere (wsSocket u) then .asks else .looks u
  | .asks => match n.running (wsBus env n) with
    | none => .asks
    | some rc => if rc > 0 then .lists rc else .ended rc
  -- line 2: set -e
  | .lists rc => if n.listing != 0 then .ended n.listing else .ended rc
  | .ended st => .ended st

/-- The script after these moments. -/
def wsRun (env : WsEnv) : List WsNow → WsPos → WsPos
  | [], p => p
  | n :: ns, p => wsRun env ns (wsStep env n p)

/-- exec.c:931-948 `exec_wait_for_session`: the environment of the program is that of the process that starts it, but for one variable. -/
def waiterEnv (parent : Str → Option Str) (source : Str) (v : Str) : Option Str :=
  if v = c!"QREXEC_REMOTE_DOMAIN" then some source else parent v

/-- The variables of an environment. -/
def wsEnv (env : Str → Option Str) : WsEnv :=
  ⟨env c!"QREXEC_SERVICE_ARGUMENT", env c!"XDG_RUNTIME_DIR", env c!"DBUS_SESSION_BUS_ADDRESS"⟩

end Qrexec
