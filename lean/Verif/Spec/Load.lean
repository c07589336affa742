import Verif.Spec.RuleLine
import Verif.Model.Loader

/-!
# Specification of policy loading
-/
namespace Qrexec.Spec
open Qrexec

/-- `Content lines c`: without blank lines and comments (lines whose first word begins with
`#`), and reading each line as a list of words, the lines say `c`. -/
inductive Content : List Str → List (List Str) → Prop
  | nil : Content [] []
  | blank {l ls c} : Words l [] → Content ls c → Content (l :: ls) c
  | comment {l w ws ls c} : Words l (('#' :: w) :: ws) → Content ls c → Content (l :: ls) c
  | line {l w ws ls c} : Words l (w :: ws) → w.head? ≠ some '#' → Content ls c →
      Content (l :: ls) ((w :: ws) :: c)

/-- The texts of two files differ at most in comments, blank lines and spacing. -/
def SameContent (a b : Except Err Str) : Prop :=
  a = b ∨ ∃ ta tb c, a = .ok ta ∧ b = .ok tb ∧ Content (fileLines ta) c ∧ Content (fileLines tb) c

/-- Two file systems that differ at most in comments, blank lines and spacing of files. -/
structure SameFiles (a b : FS) : Prop where
  resolve : a.resolve = b.resolve
  dir : a.dir = b.dir
  file : ∀ p, (a.file p = none ∧ b.file p = none) ∨
    ∃ x y, a.file p = some x ∧ b.file p = some y ∧ SameContent x y

/-- A file of the directory `d` that counts as policy: a regular file called `<stem>.policy`,
not a dotfile. -/
def PolicyFile (fs : FS) (d : Path) (name : Str) : Prop :=
  (∃ names, fs.dir d = some names ∧ name ∈ names) ∧ fs.file (d ++ [name]) ≠ none ∧
  (∃ stem, name = stem ++ c!".policy") ∧ name.head? ≠ some '.'

/-- A file that is loaded from the directories `dirs`: no earlier directory has a policy file
of that name. -/
def Chosen (fs : FS) (dirs : List Path) (f : Path × Str) : Prop :=
  ∃ pre post, dirs = pre ++ f.1 :: post ∧ PolicyFile fs f.1 f.2 ∧
    ∀ d ∈ pre, ¬ PolicyFile fs d f.2

/-- The files are in strict order of file name. -/
def NameSorted (files : List (Path × Str)) : Prop :=
  files.Pairwise fun a b => strLt a.2 b.2 = true

/-- A character that may occur in the name of a policy file. -/
def PolicyNameChar (c : Char) : Prop := c ∈ c!"0123456789abcdefghijklmnopqrstuvwxyz_.-"

/-- A directory never lists a name twice. -/
def DistinctNames (fs : FS) : Prop := ∀ d names, fs.dir d = some names → names.Nodup

/-- The same file system, its directories listed in another order. -/
structure Relisted (a b : FS) : Prop where
  resolve : a.resolve = b.resolve
  file : a.file = b.file
  dir : ∀ d, (a.dir d = none ∧ b.dir d = none) ∨
    ∃ x y, a.dir d = some x ∧ b.dir d = some y ∧ x.Perm y

/-- A name a policy directory ignores: a dotfile, or a suffix other than `.policy`. -/
def Ignored (name : Str) : Prop :=
  name.head? = some '.' ∨ ¬ ∃ stem, name = stem ++ c!".policy"

/-- The rule apart from where it was written. -/
def Rule.sameAs (a b : Rule) : Prop := { a with filepath := [] } = { b with filepath := [] }

end Qrexec.Spec
