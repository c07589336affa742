import Verif.Spec.RuleLine
import Verif.Model.Loader

/-!
# Specification of the policy linter

Which lines of a policy file, and of a file for `!include-service`, the linter is to accept.
-/
namespace Qrexec.Spec
open Qrexec

/-- A path the linter accepts in an include: a file of the policy directory or of its `include` directory, written
plainly. -/
def PlainPath (p : Str) : Prop :=
  '/' ∉ p ∨ ∃ x, p = c!"include/" ++ x ∧ '/' ∉ x ∧ x ≠ [] ∧ x ≠ c!"."

/-- The service and argument columns of `!include-service`. -/
def IncludeColumns (service argument : Str) (s a : Option Str) : Prop :=
  ServiceText service s ∧ ArgumentText argument a ∧ (s = none → a = none)

/-- The lines of a policy file (doc/qrexec-policy.rst). -/
inductive PolicyLine : Str → Prop
  | blank {line} : Words line [] → PolicyLine line
  | comment {line c ws} : Words line (('#' :: c) :: ws) → PolicyLine line
  | rule {line ws path r} : Words line ws → RuleWords path ws r → PolicyLine line
  | includeFile {line p} : Words line [c!"!include", p] → PolicyLine line
  | includeDir {line p} : Words line [c!"!include-dir", p] → PolicyLine line
  | includeService {line s a p s' a'} : Words line [c!"!include-service", s, a, p] → IncludeColumns s a s' a' →
      PolicyLine line
  | compat {line} : Words line [c!"!compat-4.0"] → PolicyLine line

/-- The first word makes a line of a file for `!include-service` a directive. -/
def DirectiveWord (w : Str) : Prop := (∃ t, w = c!"!" ++ t) ∨ ∃ t, w = c!"$include:" ++ t

/-- The lines of a file for `!include-service`.  `compatSubst` are the substitutions for the old syntax: `$include:` is
`!include `, `$` is `@` and a comma is a space. -/
inductive ServiceFileLine : Str → Prop
  | blank {line} : Words line [] → ServiceFileLine line
  | comment {line c ws} : Words line (('#' :: c) :: ws) → ServiceFileLine line
  | rule {line w ws' ws path r} : Words line (w :: ws') → ¬ DirectiveWord w → w.head? ≠ some '#' →
      Words (compatSubst line) ws → RuleWords path (c!"*" :: c!"*" :: ws) r → ServiceFileLine line
  | includeFile {line w ws' p} : Words line (w :: ws') → DirectiveWord w →
      Words (compatSubst line) [c!"!include", p] → ServiceFileLine line

/-- An include whose path is written plainly. -/
def PlainIncludes (line : Str) : Prop :=
  (∀ p, Words line [c!"!include", p] → PlainPath p) ∧
  (∀ s a p, Words line [c!"!include-service", s, a, p] → PlainPath p)

/-- Every include is written with `!include` and a plain path, and none of the substitutions changes it. -/
def PlainServiceIncludes (line : Str) : Prop :=
  ∀ w ws p, Words line (w :: ws) → DirectiveWord w → Words (compatSubst line) [c!"!include", p] →
    Words line [c!"!include", p] ∧ PlainPath p

/-- The linter accepts a line of a policy file. -/
def LintAccepts (line : Str) : Prop :=
  (PolicyLine line ∧ PlainIncludes line) ∨ ∃ s a, Words line [c!"!include-service", s, a, c!"__main__"]

/-- The linter accepts a line of a file for `!include-service` (`-i`). -/
def LintAcceptsService (line : Str) : Prop :=
  (ServiceFileLine line ∧ PlainServiceIncludes line) ∨ (∃ p, Words line [c!"!include-dir", p]) ∨
  ∃ s a p, Words line [c!"!include-service", s, a, p] ∧ (p = c!"__main__" ∨ p = c!"inc")

end Qrexec.Spec
