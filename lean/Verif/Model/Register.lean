import Verif.Model.AdminConc

/-!
# `policy.RegisterArgument` (qubes-rpc-dom0/policy.RegisterArgument)

The service takes the same lock on the policy directory as the admin API, loads the policy and
appends one line to a file.
-/
namespace Qrexec

/-- What a call of the service sees: its environment (RegisterArgument:97-99) and its standard
input. `none` is a missing variable; libqrexec/exec.c:131-150 sets the requested target only when
it is a name, not a keyword. -/
structure RegCall where
  /-- `QREXEC_REMOTE_DOMAIN` -/
  backend : Option Str
  /-- `QREXEC_REQUESTED_TARGET` -/
  frontend : Option Str
  /-- `QREXEC_SERVICE_ARGUMENT` -/
  rpcname : Option Str
  input : Bytes

/-- `RUNTIME_POLICY_PATH`, `POLICYPATH` (qrexec/__init__.py), the legacy directory, and the nesting
the interpreter allows. -/
structure RegConf where
  runtime : Path
  policy : Path
  legacy : Path
  depth : Nat

/-- `POLICY_FILE.name` (RegisterArgument:63). -/
def regFileName : Str := c!"60-registered-arguments.policy"

/-- `VALID_CHARS` (RegisterArgument:70). -/
def regChar (c : Char) : Bool :=
  ('a' ≤ c && c ≤ 'z') || ('A' ≤ c && c ≤ 'Z') || ('0' ≤ c && c ≤ '9') || c == '-' || c == '.' ||
    c == '_'

/-- `POLICY_RULE.format(...)` (RegisterArgument:64, 138-142). -/
def regRule (rpcname argument frontend backend : Str) : Str :=
  rpcname ++ c!" +" ++ argument ++ c!" " ++ frontend ++ c!" " ++ backend ++ c!" allow\n"

/-- `main` (RegisterArgument:90-147) up to the first write.  The text is written by one `write(2)`
when the file is closed; it is ASCII, so its bytes are its characters.  (Simplifications: the
argument is read before the lock is taken, which does not touch the file system; `open(.., 'a')`
follows symbolic links.) -/
def registerPlan (h : Host) (c : RegConf) (call : RegCall) : Prog := fun d =>
  match call.backend, call.frontend, call.rpcname with
  | some backend, some frontend, some rpcname =>
    if 64 < call.input.length then .error .died
    else if call.input.isEmpty then .error .died
    else if !call.input.all regChar then .error .died
    else if (d.entries (d.resolve c.policy)).isNone then .error (.internal .osError)
    else match filePolicy (d.fs h) c.legacy [c.runtime, c.policy] c.depth with
      | .error e => .error (.internal e)
      | .ok rules =>
        if rules.any fun r => r.service == some rpcname && r.argument == some ('+' :: call.input)
        then .error .died
        else
          let file := d.resolve (c.policy ++ [regFileName])
          .ok (none, [.touch file, .appendText file (regRule rpcname call.input frontend backend)])
  | _, _, _ => .error (.internal .keyError)

end Qrexec
