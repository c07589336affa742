import Verif.Spec.Load
import Verif.Model.Watch

/-!
# Specification: which changes of the file system can change the policy
-/
namespace Qrexec.Spec
open Qrexec

/-- A line that asks for another file or directory: its first word is an include directive and its last word the name. In files read
for a single service, the line counts as it is after the substitutions for old files. -/
def AsksFor (line inc : Str) : Prop :=
  ∃ ws, (Words line ws ∨ Words (compatSubst line) ws) ∧
    (∃ d ∈ [c!"!include", c!"!include-dir", c!"!include-service"], ws.head? = some d) ∧ ws.getLast? = some inc

/-- The files that may be read for the policy directory `base` (or the legacy directory): its entries, and what lines of files read
ask for — a file, or the entries of a directory. -/
inductive MayRead (fs : FS) (base : Path) : Path → Prop
  | entry {names : List Str} {name : Str} : fs.dir base = some names → name ∈ names → MayRead fs base (base ++ [name])
  | linked {names : List Str} {name : Str} : fs.dir base = some names → name ∈ names → MayRead fs base (fs.resolve (base ++ [name]))
  | file {p : Path} {text line inc : Str} : MayRead fs base p → fs.file p = some (.ok text) → line ∈ fileLines text → AsksFor line inc →
      MayRead fs base (fs.resolve (joinPath base inc))
  | inDir {p : Path} {text line inc name : Str} {names : List Str} : MayRead fs base p → fs.file p = some (.ok text) → line ∈ fileLines text →
      AsksFor line inc → fs.dir (fs.resolve (joinPath base inc)) = some names → name ∈ names →
      MayRead fs base (fs.resolve (joinPath base inc) ++ [name])

/-- The path, and the file it stands for if it is a link, are below one of the directories. -/
def Inside (roots : List Path) (fs : FS) (p : Path) : Prop :=
  (∃ r ∈ roots, ∃ x rest, p = r ++ x :: rest) ∧ ∃ r ∈ roots, ∃ x rest, fs.resolve p = r ++ x :: rest

/-- Everything that may be read for this directory is inside the directories `roots`. -/
def Enclosed (roots : List Path) (fs : FS) (base : Path) : Prop := ∀ p, MayRead fs base p → Inside roots fs p

/-- `fs'` may be what the operation makes of `fs`: files change only at the paths named and below, or if they are links to such files;
listings of directories only above and below. No link is changed. -/
structure Makes (fs : FS) (op : FsOp) (fs' : FS) : Prop where
  links : fs'.resolve = fs.resolve
  files : ∀ p, (∀ x ∈ op.paths, ¬ x <+: p ∧ ¬ x <+: fs.resolve p) → fs'.file p = fs.file p
  dirs : ∀ p, (∀ x ∈ op.paths, ¬ x <+: p ∧ x.dropLast ≠ p) → fs'.dir p = fs.dir p

/-- The operation takes away or puts in place one of the directories itself, or a directory it is in. -/
def Uproots (roots : List Path) (op : FsOp) : Prop := ∃ x ∈ op.paths, ∃ r ∈ roots, x <+: r

end Qrexec.Spec
