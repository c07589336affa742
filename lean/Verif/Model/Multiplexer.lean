import Verif.Model.ServiceCmd

/-!
# The old way to start a service (lib/qubes-rpc-multiplexer)

The script is installed for programs that still use it; the programs of this package do not (exec.c:178). The copying of the error stream
(lines 8-23) is left out, and failures of `export` (readonly variables).
-/
namespace Qrexec

/-- How the script ends: it complains about the words, or it becomes the program. -/
inductive MuxEnd where
  | usage
  | exec (path : Str) (argv : List Str) (env : Str → Option Str)

/-- `export VAR=value`, or an assignment to a variable of the environment. -/
def muxSet (env : Str → Option Str) (v : Str) (x : Option Str) : Str → Option Str := fun u => if u = v then x else env u

/-- An assignment without `export`: it changes the environment only if the variable is there. -/
def muxAssign (env : Str → Option Str) (v x : Str) : Str → Option Str := fun u => if u = v then (env v).map fun _ => x else env u

/-- `for DIR in $QREXEC_SERVICE_PATH` with `IFS=:` and `set -f` (POSIX 2.6.5: a separator ends a field). -/
def muxDirs (path : Str) : List Str :=
  let fields := splitOn ':' path
  if fields.getLast? = some [] then fields.dropLast else fields

/-- Lines 53-62, from the variable's value before. -/
def muxFind (nonempty : Str → Bool) (full name : Str) : List Str → Str → Str
  | [], cfg => cfg
  | dir :: dirs, _ =>
    if nonempty (dir ++ c!"/" ++ full) then dir ++ c!"/" ++ full
    else if nonempty (dir ++ c!"/" ++ name) then dir ++ c!"/" ++ name
    else muxFind nonempty full name dirs (dir ++ c!"/" ++ name)

/-- The part of a call in front of the first plus (`${1%%+*}`), and the one behind it (`${…#*+}`). -/
def muxName (full : Str) : Str := match splitOnce '+' full with | some (n, _) => n | none => full
def muxArg (full : Str) : Option Str := (splitOnce '+' full).map Prod.snd

/-- Lines 30-43: the environment. -/
def muxEnv (env : Str → Option Str) (full remote type target : Str) : Str → Option Str :=
  let env := muxSet (muxSet (muxSet env c!"QREXEC_REQUESTED_TARGET" none) c!"QREXEC_REQUESTED_TARGET_KEYWORD" none)
    c!"QREXEC_SERVICE_ARGUMENT" none
  let env := muxSet env c!"QREXEC_REQUESTED_TARGET_TYPE" (some type)
  let env := if type = c!"name" then muxSet env c!"QREXEC_REQUESTED_TARGET" (some target)
    else if type = c!"keyword" then muxSet env c!"QREXEC_REQUESTED_TARGET_KEYWORD" (some target) else env
  let env := muxSet env c!"QREXEC_REMOTE_DOMAIN" (some remote)
  let env := muxSet env c!"QREXEC_SERVICE_FULL_NAME" (some full)
  let env := muxAssign env c!"SERVICE_WITHOUT_ARGUMENT" (muxName full)
  match muxArg full with
  | some a => muxSet env c!"QREXEC_SERVICE_ARGUMENT" (some a)
  | none => env

/-- Line 65: `${QREXEC_SERVICE_ARGUMENT:+"$QREXEC_SERVICE_ARGUMENT"}`. -/
def muxWords (arg : Option Str) : List Str := match arg with | some (c :: a) => [c :: a] | _ => []

/-- Lines 5-8, 30-65. `env`: the environment as the login files leave it; `nonempty`: `test -s`. -/
def muxExec (env : Str → Option Str) (nonempty : Str → Bool) (full remote type target : Str) : MuxEnd :=
  let path := (env c!"QREXEC_SERVICE_PATH").getD c!"/usr/local/etc/qubes-rpc:/etc/qubes-rpc"
  let cfg := muxFind nonempty (if (muxArg full).isSome then full else full ++ c!"+") (muxName full) (muxDirs path)
    ((env c!"CFG_FILE").getD [])
  .exec cfg (cfg :: muxWords (muxArg full))
    (muxAssign (muxEnv env full remote type target) c!"CFG_FILE" cfg)

/-- Lines 25-28: two or four words. -/
def muxRun (env : Str → Option Str) (nonempty : Str → Bool) (words : List Str) : MuxEnd :=
  match words with
  | [full, remote] => muxExec env nonempty full remote [] []
  | [full, remote, type, target] => muxExec env nonempty full remote type target
  | _ => .usage

end Qrexec
