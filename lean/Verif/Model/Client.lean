import Verif.Model.ClientVm
import Verif.Model.ExecVm
import Verif.Model.CResponse
import Verif.Model.Start

/-!
# qrexec-client (daemon/qrexec-client.c)

`Verif.Model.Getopt` has how the command line is taken apart. Not modelled: memory running out, what happens in the child between fork and
exec, the wait for a session (a failure of its fork is a failure of `load`).
-/
namespace Qrexec

/-- qrexec-client.c:115-131 `parse_int`: the number, or `exit(1)`. Values that `strtol` cannot represent are above
`INT_MAX`. -/
def parseInt (s : Str) : Option Nat :=
  match s with
  | [] => none
  | c :: _ =>
    if decide (c.toNat < 48) || decide (c.toNat > 57) then none
    else
      let r := strtolBase0 s
      if r.2 ≠ [] then none
      else if r.1 > 2147483647 then none
      else some r.1

/-- qrexec-client.c:133-157 `parse_connect`: request, name and number of the source, or `exit(1)`. -/
def parseConnect (s : Str) : Option (Str × Str × Nat) :=
  match splitOnce ',' s with
  | none => none
  | some (id, r) =>
    if id.length ≥ 32 then none
    else match splitOnce ',' r with
      | none => none
      | some (name, n) => match parseInt n with
        | none => none
        | some n => some (id, name, n)

/-- An option (qrexec-client.c:186-262). `help`: also anything unknown. -/
inductive QcOpt where
  | domain (s : Str)
  | localProg (s : Str)
  | justExec
  | noExitCode
  | connect (s : Str)
  | prefixData (s : Str)
  | filterOut
  | filterErr
  | timeout (s : Str)
  | waitEnd
  | socketDir (s : Str)
  | useStdinSocket
  | kill
  | help
  deriving DecidableEq, Repr

/-- The variables that options set (qrexec-client.c:160-183). -/
structure QcVars where
  domain : Option Str := none
  localProg : Option Str := none
  justExec : Bool := false
  exitWithCode : Bool := true
  request : Option (Str × Str × Nat) := none
  pfx : Option Str := none
  filterOut : Bool := false
  filterErr : Bool := false
  timeout : Nat := 10
  waitEnd : Bool := false
  dir : Str := c!"/var/run/qubes"
  stdinSocket : Bool := false
  kill : Bool := false
  deriving DecidableEq, Repr

/-- One option; `error st`: `exit(st)`. -/
def qcOption (stdinStream : Bool) (v : QcVars) : QcOpt → Except Nat QcVars
  | .domain s => .ok { v with domain := some s }
  | .localProg s => .ok { v with localProg := some s }
  | .justExec => .ok { v with justExec := true }
  | .noExitCode => .ok { v with exitWithCode := false }
  | .connect s =>
    if v.request.isSome then .error 1
    else match parseConnect s with
      | none => .error 1
      | some r => if refersToDom0 r.2.1 || decide (r.2.2 = 0) then .error 1 else .ok { v with request := some r }
  | .prefixData s => if v.pfx.isSome then .error 2 else .ok { v with pfx := some s }
  | .filterOut => .ok { v with filterOut := true }
  | .filterErr => .ok { v with filterErr := true }
  | .timeout s => match parseInt s with
    | none => .error 1
    | some n => .ok { v with timeout := n }
  | .waitEnd => .ok { v with waitEnd := true }
  | .socketDir s => .ok { v with dir := s }
  | .useStdinSocket => if v.stdinSocket then .error 2 else if stdinStream then .ok { v with stdinSocket := true } else .error 2
  | .kill => .ok { v with kill := true }
  | .help => .error 0

/-- qrexec-client.c:186-262, the loop. -/
def qcOptions (stdinStream : Bool) : QcVars → List QcOpt → Except Nat QcVars
  | v, [] => .ok v
  | v, o :: os => match qcOption stdinStream v o with
    | .ok v => qcOptions stdinStream v os
    | .error st => .error st

/-- What the system does. `ex`: what `qrexec_execute_vm` meets. `connect`, `negotiate`: the connection to a daemon and its
answer. `vchan`: the data connection is there within the timeout. `handshake`: its version. -/
structure QcWorld where
  stdinStream : Bool := false
  start : StartWorld
  load : RpcService → Option SvcConf
  ex : ExWorld
  connect : Bool := true
  negotiate : Option (Nat × Nat) := none
  vchan : Bool := true
  handshake : Option Nat := some 3

/-- What is done. -/
inductive QcAct where
  /-- an action of `qrexec_execute_vm` -/
  | ex (a : ExAct)
  /-- a connection to the socket of a daemon -/
  | connect (path : Str)
  /-- a message to it: type, domain and body -/
  | send (type domain : Nat) (body : Wire)
  /-- the environment variable `QREXEC_REMOTE_DOMAIN` -/
  | remoteDomain (name : Str)
  /-- a local command is started, with this result -/
  | startLocal (cmd : RpcCmd) (r : ExecRes)
  /-- `admin.vm.Kill` -/
  | kill (name : Str)
  deriving DecidableEq

/-- How it ends. `io`: `qrexec_process_io`, its result is the exit status unless `-E` was given. `becomes`: the program at
the path is run in place of it, for this call. -/
inductive QcEnd where
  | exit (st : Nat)
  | io (c : IoCfg) (socket : Bool) (buf pfx : Str) (exitWithCode : Bool)
  | becomes (path command : Str)
  | crash

/-- daemon-common.c:248-256: the path of the socket. -/
def daemonSocket (dir name : Str) : Str := dir ++ c!"/qrexec." ++ name

/-- qrexec-client.c:303-351: a service of dom0 for dom0. The lookup neither supports sockets nor TCP. A user set by the
configuration ends the program (the assertion in line 342). -/
def qcDom0 (w : QcWorld) (v : QcVars) (cmdline : Str) : QcEnd :=
  if v.localProg.isSome then .exit 125
  else if !startsWith c!"DEFAULT:" cmdline then .exit 125
  else match parseRpcCommand false (cmdline.drop 8) with
    | none => .exit 125
    | some c => match c.service with
      | none => .exit 125
      | some s => match dom0Conf w.load c with
        | none => .exit 125
        | some conf =>
          match findService w.start.fs w.start.bufSize w.start.pathList false conf.sendDescriptor w.start.connects c.command s with
          | .failed => .exit 125
          | .notFound => .exit 127
          | .exec p => if conf.user.isSome then .crash else .becomes p c.command
          | .unix _ _ => .exit 125
          | .tcp _ _ _ => .exit 125

/-- daemon-common.c:522-535: the local command of a call to dom0, if it is started. -/
def qcStart (w : QcWorld) (cmdline : Str) : List QcAct :=
  match parseRpcCommand false cmdline with
  | none => []
  | some c => if (dom0Conf w.load c).isSome then [.startLocal c (prepareLocal w.start w.load (some c)).1] else []

/-- daemon-common.c:536-564, 566-590: the rest of a call to dom0. -/
def qcServe (w : QcWorld) (v : QcVars) (cmdline : Str) : QcEnd :=
  if !w.vchan then .exit 125
  else match w.handshake with
    | none => .exit 125
    | some version => match dom0Serve w.start w.load (parseRpcCommand false cmdline) version with
      | .crash => .crash
      | .atOnce _ st => .exit (exitStatus st)
      | .io c socket _ buf => .io c socket buf (v.pfx.getD []) v.exitWithCode

/-- daemon-common.c:499-564 `run_qrexec_to_dom0` and 566-590 `handshake_and_go`, for the request `r`. -/
def qcToDom0 (w : QcWorld) (v : QcVars) (r : Str × Str × Nat) (cmdline : Str) : List QcAct × QcEnd :=
  let a := [.remoteDomain r.2.1, .connect (daemonSocket v.dir (printDec r.2.2))]
  if !w.connect then (a, .exit 125)
  else
    let a := a ++ [.send msgConnect 0 (identField r.1)]
    match w.negotiate with
    | none => (a, .exit 125)
    | some _ => (a ++ qcStart w cmdline, qcServe w v cmdline)

/-- qrexec-client.c:381-393: the local command of `-l`. -/
def qcLocal (w : QcWorld) (v : QcVars) : ExecRes × List QcAct :=
  match v.localProg with
  | none => (.process, [])
  | some l => match parseRpcCommand false l with
    | none => (.fails 125, [])
    | some c => (executeParsed w.start c true, [.startLocal c (executeParsed w.start c true)])

/-- qrexec-client.c:395-420 and `handshake_and_go`, with the result of the local command. -/
def qcGo (w : QcWorld) (v : QcVars) (r : ExecRes) : QcEnd :=
  if !w.vchan then .exit 125
  else match w.handshake with
    | none => .exit 125
    | some version => match r with
      | .fails _ => .crash
      | .process =>
        .io { isService := false, hasPid := v.localProg.isSome, replaceOut := v.filterOut, replaceErr := v.filterErr,
              maxChunk := maxDataChunk version } v.stdinSocket [] (v.pfx.getD []) v.exitWithCode
      | .socket first =>
        .io { isService := false, hasPid := false, replaceOut := v.filterOut, replaceErr := v.filterErr,
              maxChunk := maxDataChunk version } true first (v.pfx.getD []) v.exitWithCode

/-- qrexec-client.c:362-425: a command in a qube, for dom0. The result does not show the kill. -/
def qcToVm (w : QcWorld) (v : QcVars) (domain cmdline : Str) : List QcAct × QcEnd :=
  let a := [.connect (daemonSocket v.dir domain)]
  if !w.connect then (a, .exit 125)
  else
    let a := a ++ [.send (if v.justExec then msgJustExec else msgExec) 0 (cmdline ++ ['\x00'])]
    match w.negotiate with
    | none => (a, .exit 125)
    | some _ => (a ++ [.remoteDomain domain] ++ (qcLocal w v).2, qcGo w v (qcLocal w v).1)

/-- qrexec-client.c:419-424: with `-k`, unless it has died. -/
def qcKill (kill : Bool) (domain : Str) (e : QcEnd) : List QcAct :=
  match e with
  | .crash => []
  | _ => if kill then [.kill domain] else []

/-- qrexec-client.c:159-430 `main`: what it does, how it goes on, and what it does then, before it exits. -/
def qcMain (w : QcWorld) (opts : List QcOpt) (args : List Str) : List QcAct × QcEnd × List QcAct :=
  match qcOptions w.stdinStream {} opts with
  | .error st => ([], .exit st, [])
  | .ok v => match args, v.domain with
    | cmdline :: _, some domain =>
      if v.justExec.toNat + v.request.isSome.toNat + v.localProg.isSome.toNat > 1 then ([], .exit 1, [])
      else if v.localProg.isSome && v.stdinSocket then ([], .exit 1, [])
      else if refersToDom0 domain then
        match v.request with
        | some r =>
          if r.1.isEmpty then ([], .exit 1, [])
          else let x := qcToDom0 w v r cmdline; (x.1, x.2, [])
        | none => ([], qcDom0 w v cmdline, [])
      else match v.request with
        | some r =>
          let x := executeVm domain false r.2.2 (cmdline ++ ['\x00']) r.1 v.justExec v.waitEnd (startsWith c!"uuid:" domain) w.ex
          (x.1.map .ex, .exit (if x.2 then 0 else 137), [])
        | none =>
          let x := qcToVm w v domain cmdline
          (x.1, x.2, qcKill v.kill domain x.2)
    | _, _ => ([], .exit 1, [])

end Qrexec
