import Verif.Model.PolicyEditor
import Verif.Spec.AdminClient
import Verif.Spec.Lint

/-!
# Specification: qubes-policy-editor
-/
namespace Qrexec.Spec
open Qrexec

/-- A line the linter accepts in a file of the area. -/
def AreaLine : Area → Str → Prop
  | .policy, line => LintAccepts line
  | .incl, line => LintAcceptsService line

/-- A file of text in which the linter finds nothing to report. -/
def LintClean (enc : Str → Bytes) (a : Area) (b : Bytes) : Prop :=
  ∃ text, enc text = b ∧ ∀ line ∈ fileLines text, AreaLine a line

/-- A file of text in which it finds something. -/
def LintDirty (enc : Str → Bytes) (a : Area) (b : Bytes) : Prop :=
  ∃ text, enc text = b ∧ ∃ line ∈ fileLines text, ¬ AreaLine a line

/-- The user types a line that is neither "e" nor "q". -/
def OtherReply (r : Str) : Prop := r ≠ c!"e" ∧ r ≠ c!"q"

/-- Runs of the editor, beginning with the file `tmp`, that end with a clean file `b`: each ends with status 0; as long as
there is something to report the user answers "e". -/
inductive Edited (enc : Str → Bytes) (a : Area) : List Edit → List Str → Bytes → Bytes → Prop
  | clean {ed eds replies tmp b} : ed tmp = (0, some b) → LintClean enc a b → Edited enc a (ed :: eds) replies tmp b
  | again {ed eds replies rest others tmp b b'} : ed tmp = (0, some b) → LintDirty enc a b →
      replies = others ++ c!"e" :: rest → (∀ r ∈ others, OtherReply r) → Edited enc a eds rest b b' →
      Edited enc a (ed :: eds) replies tmp b'

/-- The same, but they end with "q" for a file with something to report. -/
inductive GivenUp (enc : Str → Bytes) (a : Area) : List Edit → List Str → Bytes → Prop
  | quit {ed eds replies rest others tmp b} : ed tmp = (0, some b) → LintDirty enc a b →
      replies = others ++ c!"q" :: rest → (∀ r ∈ others, OtherReply r) → GivenUp enc a (ed :: eds) replies tmp
  | again {ed eds replies rest others tmp b} : ed tmp = (0, some b) → LintDirty enc a b →
      replies = others ++ c!"e" :: rest → (∀ r ∈ others, OtherReply r) → GivenUp enc a eds rest b →
      GivenUp enc a (ed :: eds) replies tmp

/-- The name on the command line: the area and the name of the file. -/
inductive EditorName : Str → Area → Str → Prop
  | policy {n} : (∀ ch ∈ n, NameChar ch) → ¬ c!".policy" <:+ n → EditorName n .policy n
  | suffix {n} : (∀ ch ∈ n, NameChar ch) → EditorName (n ++ c!".policy") .policy n
  | incl {n} : (∀ ch ∈ n, NameChar ch) → ¬ c!".policy" <:+ n → EditorName (c!"include/" ++ n) .incl n
  | inclSuffix {n} : (∀ ch ∈ n, NameChar ch) → EditorName (c!"include/" ++ (n ++ c!".policy")) .incl n

end Qrexec.Spec
