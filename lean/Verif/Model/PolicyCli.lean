import Verif.Model.AdminClient

/-!
# qubes-policy (qrexec/tools/qubes_policy.py)

Simplified: `argparse` itself; the method and the name are what it has found.
-/
namespace Qrexec

/-- The options `-l`, `-g`, `-r`, `-d`. -/
inductive CliMethod where
  | list | get | replace | remove
  deriving DecidableEq, Repr

/-- How the program ends. -/
inductive CliEnd where
  /-- status 0, with this output -/
  | ok (out : Str)
  /-- `parser.error`: status 2 -/
  | usage
  /-- a `CalledProcessError`, reported: status 1 -/
  | failed
  /-- a `PolicyAdminException`, reported by its message: status 1 -/
  | refused (msg : Str)
  /-- another exception -/
  | raised
  deriving DecidableEq, Repr

/-- `s.rstrip()`. -/
def rstripAll (s : Str) : Str := (lstrip s.reverse).reverse

/-- qubes_policy.py:134-143: what an exception of the client becomes. The standard output of the failed command is decoded
there (the server writes none if it fails). -/
def cliError : ClientErr → CliEnd
  | .failed _ _ => .failed
  | .admin _ msg => .refused msg
  | _ => .raised

/-- qubes_policy.py:83-98 `run_method`; `stdin` is what can be read. -/
def cliRun {σ : Type} (h : Host) (enc : Str → Bytes) (inDom0 : Option Bool) (run : σ → List Str → Bytes → σ × ProcEnd)
    (st : σ) (method : CliMethod) (name : Str) (isInclude : Bool) (stdin : Bytes) : σ × CliEnd :=
  match method with
  | .list => match policyList h enc inDom0 run st isInclude with
    | (st', .ok names) => (st', .ok (joinWith '\n' names ++ c!"\n"))
    | (st', .error e) => (st', cliError e)
  | .get => match policyGet h enc inDom0 run st name isInclude with
    | (st', .ok (content, _)) => (st', .ok (rstripAll content ++ c!"\n"))
    | (st', .error e) => (st', cliError e)
  | .replace => match h.decode stdin with
    | none => (st, .raised)
    | some text => match policyReplace h enc inDom0 run st name (universalNewlines text) c!"any" isInclude with
      | (st', .ok ()) => (st', .ok [])
      | (st', .error e) => (st', cliError e)
  | .remove => match policyRemove h enc inDom0 run st name c!"any" isInclude with
    | (st', .ok ()) => (st', .ok [])
    | (st', .error e) => (st', cliError e)

/-- qubes_policy.py:101-143 `main`. -/
def cliMain {σ : Type} (h : Host) (enc : Str → Bytes) (inDom0 : Option Bool) (run : σ → List Str → Bytes → σ × ProcEnd)
    (st : σ) (method : CliMethod) (arg : Str) (stdin : Bytes) : σ × CliEnd :=
  let isInclude := arg == c!"include" || startsWith c!"include/" arg
  let name := if isInclude then arg.drop 8 else arg
  if !name.all rpcNameChar then (st, .usage)
  else if method == .list && !name.isEmpty then (st, .usage)
  else if method != .list && name.isEmpty then (st, .usage)
  else cliRun h enc inDom0 run st method name isInclude stdin

end Qrexec
