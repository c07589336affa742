import Verif.Model.Admin
import Verif.Model.Client

/-!
# The client of the policy admin API

qrexec/tools/qubes_policy_admin.py (the service), qrexec/client.py (the call) and qrexec/policy/admin_client.py
(`PolicyClient`).
-/
namespace Qrexec

/-- How a process ended and what it wrote. -/
structure ProcEnd where
  status : Nat
  stdout : Bytes
  stderr : Bytes
  deriving DecidableEq, Repr

/-- `exc.__class__.__name__` for the subclasses of `PolicyAdminException` (admin.py:34-76); `none` for any other
exception. -/
def adminErrName : AdminErr → Option Str
  | .token => some c!"PolicyAdminTokenException"
  | .notFound => some c!"PolicyAdminFileNotFoundException"
  | .protocol => some c!"PolicyAdminProtocolException"
  | .syntax => some c!"PolicyAdminSyntaxException"
  | .fileName => some c!"PolicyAdminInvalidFileNameException"
  | .filePath => some c!"PolicyAdminInvalidFilePathException"
  | .died => none
  | .internal _ => none

/-- qubes_policy_admin.py:36-79 `main`. `enc` is `str.encode`, `msg` the text of the exception, `log` the `repr` of the
name of the log file. (Not modelled: the log, the failure of the final writes.) -/
def adminMain (h : Host) (enc : Str → Bytes) (msg : AdminErr → Str) (log : Str) (c : AdminConf) (d : Disk)
    (fullName : Str) (payload : Bytes) : Disk × ProcEnd :=
  let q := (splitOnce '+' fullName).getD (fullName, [])
  match handleAdmin h c d q.1 q.2 payload with
  | (d', .ok r) => (d', ⟨0, r.getD [], []⟩)
  | (d', .error e) =>
    match adminErrName e with
    | some cls => (d', ⟨1, [], enc (cls ++ ' ' :: msg e)⟩)
    | none => (d', ⟨2, [], enc (c!"Internal error. See " ++ log ++ c!" in dom0 for details.")⟩)

/-- The exceptions a caller of `PolicyClient` sees. -/
inductive ClientErr where
  /-- an `assert` of `make_command` -/
  | assertion
  /-- `NotImplementedError("qrexec not available")` -/
  | noQrexec
  /-- `ValueError("embedded null byte")` of `subprocess` -/
  | nul
  /-- `UnicodeDecodeError` -/
  | decode
  /-- `ValueError` of an unpacking -/
  | unpack
  /-- `TypeError` of `issubclass` -/
  | typeError
  /-- a subclass of `PolicyAdminException`, with its message -/
  | admin (cls msg : Str)
  /-- `CalledProcessError` -/
  | failed (status : Nat) (stderr : Bytes)
  deriving DecidableEq, Repr

/-- client.py:84-88: `rpcname` or `rpcname+arg`. -/
def fullService (rpc : Str) (arg : Option Str) : Str :=
  match arg with
  | some a => rpc ++ '+' :: a
  | none => rpc

/-- client.py:83-101 `make_command`. `inDom0` is `IN_DOM0` (lines 31-34). -/
def makeCommand (inDom0 : Option Bool) (dest rpc : Str) (arg : Option Str) : Except ClientErr (List Str) :=
  if rpc.contains '+' || rpc.contains ' ' || (arg.getD []).contains ' ' then .error .assertion
  else match inDom0 with
    | some true => .ok [c!"/usr/bin/qrexec-client", c!"-d", dest, c!"DEFAULT:QUBESRPC " ++ fullService rpc arg ++ c!" dom0"]
    | some false => .ok [c!"/usr/bin/qrexec-client-vm", c!"--", dest, fullService rpc arg]
    | none => .error .noQrexec

/-- client.py:37-56 `call` for an input of type `str` (utils.py:184-200: given on standard input; the standard error is
kept). `run` executes a command. -/
def qrexecCall {σ : Type} (h : Host) (enc : Str → Bytes) (inDom0 : Option Bool) (run : σ → List Str → Bytes → σ × ProcEnd)
    (st : σ) (dest rpc : Str) (arg : Option Str) (input : Str) : σ × Except ClientErr Str :=
  match makeCommand inDom0 dest rpc arg with
  | .error e => (st, .error e)
  | .ok cmd =>
    if cmd.any fun w => w.contains '\x00' then (st, .error .nul)
    else
      let r := run st cmd (enc input)
      if r.2.status != 0 then (r.1, .error (.failed r.2.status r.2.stderr))
      else match h.decode r.2.stdout with
        | some s => (r.1, .ok s)
        | none => (r.1, .error .decode)

/-- The names in the module that are subclasses of `PolicyAdminException` (admin_client.py:45-53). -/
def adminClasses : List Str := [c!"PolicyAdminException", c!"PolicyAdminTokenException", c!"PolicyAdminFileNotFoundException",
  c!"PolicyAdminProtocolException", c!"PolicyAdminSyntaxException", c!"PolicyAdminInvalidFileNameException",
  c!"PolicyAdminInvalidFilePathException"]

/-- The other names in the module that are not classes (admin_client.py:37-41 and those every module has). -/
def otherGlobals : List Str := [c!"List", c!"Tuple", c!"warn", c!"call", c!"__name__", c!"__doc__", c!"__package__",
  c!"__loader__", c!"__spec__", c!"__file__", c!"__cached__", c!"__builtins__"]

/-- admin_client.py:144-151: what is raised for a `CalledProcessError`. -/
def clientRaise (h : Host) (status : Nat) (stderr : Bytes) : ClientErr :=
  match h.decode stderr with
  | none => .decode
  | some text =>
    let cls := text.takeWhile (· != ' ')
    if adminClasses.contains cls then .admin cls (text.drop (cls.length + 1))
    else if otherGlobals.contains cls then .typeError
    else .failed status stderr

/-- admin_client.py:132-152 `PolicyClient.call`. -/
def adminCall {σ : Type} (h : Host) (enc : Str → Bytes) (inDom0 : Option Bool) (run : σ → List Str → Bytes → σ × ProcEnd)
    (st : σ) (service : Str) (arg : Option Str) (payload : Str) (isInclude : Bool) : σ × Except ClientErr Str :=
  let name := c!"policy." ++ (if isInclude then c!"include." ++ service else service)
  match qrexecCall h enc inDom0 run st c!"dom0" name arg payload with
  | (st', .error (.failed status stderr)) => (st', .error (clientRaise h status stderr))
  | r => r

/-- `s.rstrip("\n")`. -/
def rstripNl (s : Str) : Str := (s.reverse.dropWhile (· == '\n')).reverse

/-- admin_client.py:57-59 `policy_list`. -/
def policyList {σ : Type} (h : Host) (enc : Str → Bytes) (inDom0 : Option Bool) (run : σ → List Str → Bytes → σ × ProcEnd)
    (st : σ) (isInclude : Bool) : σ × Except ClientErr (List Str) :=
  match adminCall h enc inDom0 run st c!"List" none [] isInclude with
  | (st', .ok s) => (st', .ok (splitOn '\n' (rstripNl s)))
  | (st', .error e) => (st', .error e)

/-- admin_client.py:69-76 `policy_get`: content and token. -/
def policyGet {σ : Type} (h : Host) (enc : Str → Bytes) (inDom0 : Option Bool) (run : σ → List Str → Bytes → σ × ProcEnd)
    (st : σ) (name : Str) (isInclude : Bool) : σ × Except ClientErr (Str × Str) :=
  match adminCall h enc inDom0 run st c!"Get" (some name) [] isInclude with
  | (st', .ok s) =>
    match splitOnce '\n' s with
    | some (token, content) => (st', .ok (content, token))
    | none => (st', .error .unpack)
  | (st', .error e) => (st', .error e)

/-- admin_client.py:86-99 `policy_replace`. -/
def policyReplace {σ : Type} (h : Host) (enc : Str → Bytes) (inDom0 : Option Bool) (run : σ → List Str → Bytes → σ × ProcEnd)
    (st : σ) (name content token : Str) (isInclude : Bool) : σ × Except ClientErr Unit :=
  match adminCall h enc inDom0 run st c!"Replace" (some name) (token ++ c!"\n" ++ content) isInclude with
  | (st', .ok _) => (st', .ok ())
  | (st', .error e) => (st', .error e)

/-- admin_client.py:111-117 `policy_remove`. -/
def policyRemove {σ : Type} (h : Host) (enc : Str → Bytes) (inDom0 : Option Bool) (run : σ → List Str → Bytes → σ × ProcEnd)
    (st : σ) (name token : Str) (isInclude : Bool) : σ × Except ClientErr Unit :=
  match adminCall h enc inDom0 run st c!"Remove" (some name) token isInclude with
  | (st', .ok _) => (st', .ok ())
  | (st', .error e) => (st', .error e)

/-- admin_client.py:127-130 `policy_get_files`. -/
def policyGetFiles {σ : Type} (h : Host) (enc : Str → Bytes) (inDom0 : Option Bool) (run : σ → List Str → Bytes → σ × ProcEnd)
    (st : σ) (service : Str) : σ × Except ClientErr (List Str) :=
  match adminCall h enc inDom0 run st c!"GetFiles" (some service) [] false with
  | (st', .ok s) => (st', .ok (if s == [] then [] else splitOn '\n' (rstripNl s)))
  | (st', .error e) => (st', .error e)

/-! ## The way to the service in dom0 -/

/-- The value `getenv` finds (libc). -/
def envValue (env : List Str) (var : Str) : Option Str :=
  (env.find? fun e => (var ++ c!"=").isPrefixOf e).map fun e => e.drop (var.length + 1)

/-- Executing the command of `makeCommand` in dom0: qrexec-client (`qcMain`, daemon/qrexec-client.c) becomes the program
of the service with the environment of `exec_qubes_rpc2`. If that program is qubes-policy-admin (`isAdmin`), it serves the
request; what any other program does is `other`. -/
def dom0Run (w : QcWorld) (envp : List Str) (isAdmin : Str → Bool) (server : Disk → Str → Bytes → Disk × ProcEnd)
    (other : Disk → List Str → Bytes → Disk × ProcEnd) (d : Disk) (argv : List Str) (input : Bytes) : Disk × ProcEnd :=
  match argv with
  | [_, _, dest, cmdline] =>
    match (qcMain w [.domain dest] [cmdline]).2.1 with
    | .becomes p command =>
      match execQubesRpc2 p command envp false with
      | some e =>
        if isAdmin e.path then
          match envValue e.env c!"QREXEC_SERVICE_FULL_NAME" with
          | some name => server d name input
          | none => (d, ⟨1, [], []⟩)
        else other d argv input
      | none => (d, ⟨125, [], []⟩)
    | .exit st => (d, ⟨st, [], []⟩)
    | _ => other d argv input
  | _ => other d argv input

end Qrexec
