import Verif.Model.AdminClient
import Verif.Model.Lint

/-!
# qubes-policy-editor (qrexec/tools/qubes_policy_editor.py)
-/
namespace Qrexec

/-- qubes_policy_editor.py:190-198 with 42-60 `validate_name`: the name and whether it is in the include directory; `none`:
an invalid character, exit status 1. -/
def editorFile (file : Str) : Option (Str × Bool) :=
  let name := if startsWith c!"include/" file then file.drop 8 else file
  if !name.all rpcNameChar then none
  else some (if endsWith c!".policy" name then name.take (name.length - 7) else name, startsWith c!"include/" file)

/-- One run of the user's editor: its exit status and the temporary file afterwards (`none`: it is gone). -/
abbrev Edit := Bytes → Nat × Option Bytes

/-- What the user wants when the linter complains. -/
inductive Reply where
  | again (rest : List Str)
  | quit
  /-- end of the input: `EOFError` -/
  | eof
  deriving DecidableEq, Repr

/-- qubes_policy_editor.py:130-142 `get_reply`. (Simplification: the nesting of the calls is not limited.) -/
def getReply : List Str → Reply
  | [] => .eof
  | r :: rest => if r == c!"e" then .again rest else if r == c!"q" then .quit else getReply rest

/-- How `lint_policy` ends. -/
inductive LintStep where
  /-- it returns; the temporary file -/
  | clean (b : Bytes)
  /-- `sys.exit(1)`: the editor failed -/
  | failed
  /-- `sys.exit(0)`: the user does not want to save -/
  | quit
  /-- another exception -/
  | raised
  /-- the user is still in the editor -/
  | waiting
  deriving DecidableEq, Repr

/-- qubes_policy_editor.py:144-168 `lint_policy`: `edits` are the runs of the editor, `replies` what the user answers,
`n` the nesting the interpreter allows. -/
def editLint (h : Host) (incl : Bool) (n : Nat) : List Edit → List Str → Bytes → LintStep
  | [], _, _ => .waiting
  | ed :: eds, replies, tmp =>
    let r := ed tmp
    if r.1 != 0 then .failed
    else match r.2 with
      | none => .raised
      | some b =>
        match (lintMain incl n 0 [decodeText h b]).result with
        | .ok 0 => .clean b
        | .ok _ =>
          match getReply replies with
          | .again rest => editLint h incl n eds rest b
          | .quit => .quit
          | .eof => .raised
        | .error _ => .raised

/-- How the program ends. -/
inductive EditorEnd where
  /-- it returns from `main` -/
  | saved
  /-- exit status 0, the user does not want to save -/
  | quit
  /-- exit status 1 -/
  | failed
  /-- an uncaught exception -/
  | raised
  /-- the user is still in the editor -/
  | waiting
  deriving DecidableEq, Repr

/-- qubes_policy_editor.py:105-125: from the first editor run on. -/
def editorSave {σ : Type} (h : Host) (enc : Str → Bytes) (inDom0 : Option Bool) (run : σ → List Str → Bytes → σ × ProcEnd)
    (n : Nat) (edits : List Edit) (replies : List Str) (name : Str) (incl : Bool) (tmp : Bytes) (token : Str) (st : σ) :
    σ × EditorEnd :=
  match editLint h incl n edits replies tmp with
  | .failed => (st, .failed)
  | .quit => (st, .quit)
  | .raised => (st, .raised)
  | .waiting => (st, .waiting)
  | .clean b =>
    match h.decode b with
    | none => (st, .raised)
    | some text =>
      match policyReplace h enc inDom0 run st name (universalNewlines text) token incl with
      | (st', .ok ()) => (st', .saved)
      | (st', .error (.admin _ _)) => (st', .failed)
      | (st', .error _) => (st', .raised)

/-- qubes_policy_editor.py:70-128 `manage_policy`. `change` is what others do to the policy between Get and Replace. -/
def managePolicy {σ : Type} (h : Host) (enc : Str → Bytes) (inDom0 : Option Bool) (run : σ → List Str → Bytes → σ × ProcEnd)
    (n : Nat) (edits : List Edit) (replies : List Str) (change : σ → σ) (name : Str) (incl : Bool) (st : σ) :
    σ × EditorEnd :=
  match policyGet h enc inDom0 run st name incl with
  | (st', .ok (content, token)) => editorSave h enc inDom0 run n edits replies name incl (enc content) token (change st')
  | (st', .error (.admin cls _)) =>
    if cls == c!"PolicyAdminFileNotFoundException" then
      editorSave h enc inDom0 run n edits replies name incl [] c!"new" (change st')
    else (change st', .raised)
  | (st', .error (.failed _ _)) => (change st', .failed)
  | (st', .error _) => (change st', .raised)

/-- qubes_policy_editor.py:171-199 `main` for the file given on the command line (default `30-user`). -/
def editorMain {σ : Type} (h : Host) (enc : Str → Bytes) (inDom0 : Option Bool) (run : σ → List Str → Bytes → σ × ProcEnd)
    (n : Nat) (edits : List Edit) (replies : List Str) (change : σ → σ) (file : Option Str) (st : σ) : σ × EditorEnd :=
  match editorFile (file.getD c!"30-user") with
  | none => (st, .failed)
  | some (name, incl) => managePolicy h enc inDom0 run n edits replies change name incl st

end Qrexec
