import Verif.Model.Client

/-!
# The command qrexec-policy-exec (qrexec/tools/qrexec_policy_exec.py:246-341)

`Verif.Model.CResponse` has its use by the daemon of a qube (`policyExec`); this is the whole command line.
Not modelled: how `argparse` takes the command line apart, the log. `Verif.Model.Getopt` has how qrexec-client does. An exception that is
not caught ends the interpreter with status 1, a bad command line with 2.
-/
namespace Qrexec

/-- The parsed command line (qrexec_policy_exec.py:194-243): `--just-evaluate`, `--assume-yes-for-ask`, how often `--path` was given,
and the positional arguments. -/
structure PeArgs where
  justEvaluate : Bool := false
  assumeYes : Bool := false
  paths : Nat := 0
  args : List Str
  deriving DecidableEq, Repr

/-- What it does besides asking and notifying. -/
inductive PeAct where
  /-- `utils.qubesd_call(dest, method, payload=payload)` -/
  | qubesd (dest method : Str) (payload : Wire)
  /-- qrexec-client with these options and arguments -/
  | client (opts : List QcOpt) (args : List Str)
  deriving DecidableEq, Repr

structure PeOut where
  events : List Event := []
  acts : List PeAct := []
  stdout : Wire := []
  status : Nat
  deriving DecidableEq, Repr

/-- What qubesd answers (`none`: it cannot be reached), and the status of qrexec-client. -/
structure PeWorld where
  qubesd : Str → Str → Wire → Option Wire
  client : List QcOpt → List Str → Nat

/-- qrexec/utils.py:88-119 `qubesd_call`, without an argument: the value, or `none` for any exception (the names contain ASCII
characters only). -/
def qubesdValue (answer : Option Wire) : Option Wire :=
  match answer with
  | none => none
  | some b => if startsWith c!"0\x00" b then some (b.drop 2) else none

/-- qrexec_policy_exec.py:289-294: the dict of the answer, `none` if an assertion fails. -/
def peDict : List Str → List (Str × Str) → Option (List (Str × Str))
  | [], d => some d
  | l :: ls, d => match splitOnce '=' l with
    | none => none
    | some (k, v) => if d.any fun p => p.1 = k then none else peDict ls (d ++ [(k, v)])

/-- `result[key]`. -/
def peGet (d : List (Str × Str)) (key : Str) : Option Str := (d.find? fun p => p.1 = key).map Prod.snd

/-- qrexec_policy_exec.py:315-327: the client is run. -/
def peClient (w : PeWorld) (evs : List Event) (acts : List PeAct) (disp : Bool) (target conn cmd : Str) : PeOut :=
  let opts := (if disp then [.noExitCode, .waitEnd, .kill, .domain target] else [.noExitCode, .domain target]) ++ [.connect conn]
  { events := evs, acts := acts ++ [.client opts [cmd]], status := w.client opts [cmd] }

/-- qrexec_policy_exec.py:306-314, 315-327: a call in a qube. `dest` is `result["target_uuid"]`, `user` is `result["user"]`. -/
def peVm (w : PeWorld) (evs : List Event) (disp : Bool) (dest user conn cmd : Str) : PeOut :=
  let cmd := (if user.isEmpty then c!"DEFAULT" else user) ++ ':' :: cmd
  if disp then
    let a := [.qubesd dest c!"admin.vm.CreateDisposable" c!"uuid"]
    match qubesdValue (w.qubesd dest c!"admin.vm.CreateDisposable" c!"uuid") with
    | none => { events := evs, acts := a, status := 1 }
    | some name =>
      if !name.all fun c => c.toNat < 128 then { events := evs, acts := a, status := 1 }
      else
        let a := a ++ [.qubesd name c!"admin.vm.Start" []]
        match qubesdValue (w.qubesd name c!"admin.vm.Start" []) with
        | none => { events := evs, acts := a, status := 1 }
        | some _ => peClient w evs a true name conn cmd
  else
    let a := [.qubesd dest c!"admin.vm.Start" []]
    match qubesdValue (w.qubesd dest c!"admin.vm.Start" []) with
    | none => { events := evs, acts := a, status := 1 }
    | some _ => peClient w evs a false dest conn cmd

/-- qrexec_policy_exec.py:288-327: what follows the decision; `run` is the source's id and the request, `none` with three positional
arguments (then `--just-evaluate` is given). -/
def peFollow (w : PeWorld) (evs : List Event) (just : Bool) (run : Option (Str × Str)) (source target sa answer : Str) : PeOut :=
  match peDict (splitOn '\n' answer) [] with
  | none => { events := evs, status := 1 }
  | some d => match peGet d c!"result" with
    | none => { events := evs, status := 1 }
    | some r =>
      if r ≠ c!"allow" then { events := evs, status := 1 }
      else if just then { events := evs, status := 0 }
      else match run, peGet d c!"target" with
        | some (id, ident), some t =>
          let conn := ident ++ c!"," ++ source ++ c!"," ++ id
          let cmd := c!"QUBESRPC " ++ sa ++ c!" " ++ source
          if t = c!"dom0" ∨ t = c!"@adminvm" then
            match target with
            | [] => { events := evs, status := 1 }
            | c :: cs =>
              let kind := if c = '@' then c!" keyword " ++ cs else c!" name " ++ c :: cs
              peClient w evs [] (startsWith c!"@dispvm:" t) t conn (cmd ++ kind)
          else match peGet d c!"target_uuid", peGet d c!"user" with
            | some dest, some user => peVm w evs (startsWith c!"@dispvm:" t) dest user conn cmd
            | _, _ => { events := evs, status := 1 }
        | _, _ => { events := evs, status := 1 }

/-- qrexec_policy_exec.py:246-341 `get_result` and `main`. With `--path`, `args.path` is an attribute of a list or of None
(line 249). -/
def peMain (w : PeWorld) (sys : Option Info) (policy : Except Err (List Rule)) (agent : Agent) (a : PeArgs) : PeOut :=
  if a.paths > 0 then { status := 1 }
  else
    let mode : Mode := { justEvaluate := a.justEvaluate, assumeYes := a.assumeYes }
    match a.args with
    | [source, target, sa] =>
      match handleRequest sys policy agent mode source target sa [] with
      | (evs, .error _) => { events := evs, status := 1 }
      | (evs, .ok s) =>
        if a.justEvaluate then peFollow w evs true none source target sa s
        else { events := evs, stdout := s ++ c!"\n",
               status := if containsStr c!"\nresult=allow\n" s || s == c!"result=allow" then 0 else 1 }
    | [id, source, target, sa, ident] =>
      match handleRequest sys policy agent mode source target sa [] with
      | (evs, .error _) => { events := evs, status := 1 }
      | (evs, .ok s) => peFollow w evs a.justEvaluate (some (id, ident)) source target sa s
    | _ => { status := 2 }

end Qrexec
