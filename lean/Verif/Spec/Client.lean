import Verif.Model.Client
import Verif.Spec.ClientVm
import Verif.Spec.ServiceCmd

/-!
# Specification of the command line of qrexec-client
-/
namespace Qrexec.Spec
open Qrexec

/-- The values given with an option, in order. -/
def domainsOf (os : List QcOpt) : List Str := os.filterMap fun o => match o with | .domain s => some s | _ => none
def localsOf (os : List QcOpt) : List Str := os.filterMap fun o => match o with | .localProg s => some s | _ => none
def connectsOf (os : List QcOpt) : List Str := os.filterMap fun o => match o with | .connect s => some s | _ => none
def pfxsOf (os : List QcOpt) : List Str := os.filterMap fun o => match o with | .prefixData s => some s | _ => none
def dirsOf (os : List QcOpt) : List Str := os.filterMap fun o => match o with | .socketDir s => some s | _ => none

/-- The names of dom0. -/
def dom0Names : List Str := [c!"@adminvm", c!"dom0", c!"uuid:00000000-0000-0000-0000-000000000000"]

/-- `request_id,name,number`. -/
def ConnectText (s id name : Str) (n : Nat) : Prop :=
  ∃ t, s = id ++ c!"," ++ name ++ c!"," ++ t ∧ ',' ∉ id ∧ ',' ∉ name ∧ id.length ≤ 31 ∧ CInteger t n ∧ n ≤ 2147483647

/-- The options make sense one by one. -/
def QcOptionsOk (stdinStream : Bool) (os : List QcOpt) : Prop :=
  .help ∉ os ∧ (∀ s, .connect s ∈ os → ∃ id name n, ConnectText s id name n ∧ name ∉ dom0Names ∧ n ≠ 0) ∧
  (∀ s, .timeout s ∈ os → ∃ n, CInteger s n ∧ n ≤ 2147483647) ∧
  (connectsOf os).length ≤ 1 ∧ (pfxsOf os).length ≤ 1 ∧ os.count .useStdinSocket ≤ 1 ∧
  (.useStdinSocket ∈ os → stdinStream = true)

/-- The command line makes sense: also there is a domain and a command, at most one of `-e`, `-l` and `-c`, not `-l` together
with `--use-stdin-socket`, and no empty request for dom0. -/
def QcOk (stdinStream : Bool) (os : List QcOpt) (args : List Str) : Prop :=
  QcOptionsOk stdinStream os ∧ args ≠ [] ∧ domainsOf os ≠ [] ∧
  ¬ (.justExec ∈ os ∧ connectsOf os ≠ []) ∧ ¬ (.justExec ∈ os ∧ localsOf os ≠ []) ∧ ¬ (connectsOf os ≠ [] ∧ localsOf os ≠ []) ∧
  ¬ (localsOf os ≠ [] ∧ .useStdinSocket ∈ os) ∧
  (∀ d s, (domainsOf os).getLast? = some d → d ∈ dom0Names → s ∈ connectsOf os → s.head? ≠ some ',')

/-- What is sent to daemons, the sockets connected to, the commands started, the qubes killed, and the values of
`QREXEC_REMOTE_DOMAIN`. -/
def sentBy (as : List QcAct) : List (Nat × Nat × Wire) := as.filterMap fun a => match a with | .send t d b => some (t, d, b) | _ => none
def socketsBy (as : List QcAct) : List Str := as.filterMap fun a => match a with | .connect p => some p | _ => none
def startedBy (as : List QcAct) : List (RpcCmd × ExecRes) := as.filterMap fun a => match a with | .startLocal c r => some (c, r) | _ => none
def killedBy (as : List QcAct) : List Str := as.filterMap fun a => match a with | .kill n => some n | _ => none
def remotesBy (as : List QcAct) : List Str := as.filterMap fun a => match a with | .remoteDomain n => some n | _ => none
def exBy (as : List QcAct) : List ExAct := as.filterMap fun a => match a with | .ex x => some x | _ => none

/-- The directory of the sockets. -/
def socketDir (os : List QcOpt) : Str := (dirsOf os).getLast?.getD c!"/var/run/qubes"

/-- What is done for a request in a qube: the daemon of the qube gets the command, that of the source learns who answers. -/
def connectActs (w : ExWorld) (target : Str) (n : Nat) (cmd : Wire) (ident : Str) (wait : Bool) : List ExAct :=
  .connect target ::
    if w.connect1 = .ok then
      .command 0x200 n cmd :: match w.negotiate with
        | none => []
        | some (domain, port) => .connectSource n :: ((if w.source = true then [.serviceConnect domain port (identField ident)] else []) ++
            if wait = true then [.waitEnd] else [])
    else []

/-- How data is exchanged for dom0: filtered as the options say; `hasPid`: a local process is waited for. -/
def qubeIo (os : List QcOpt) (version : Nat) (hasPid : Bool) : IoCfg :=
  { isService := false, hasPid, replaceOut := decide (.filterOut ∈ os), replaceErr := decide (.filterErr ∈ os),
    exitOnStdinEof := false, exitOnStdoutEof := false, maxChunk := if version < 3 then 4096 else 65536 }

end Qrexec.Spec
