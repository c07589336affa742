import Verif.Spec.Load
import Verif.Model.Admin

/-!
# Specification of the policy admin API
-/
namespace Qrexec.Spec
open Qrexec

/-- The two directories the API manages: `policy.*` and `policy.include.*`. -/
inductive Area where
  | policy
  | incl
  deriving DecidableEq

/-- The directory of an area. -/
def Area.dir (c : AdminConf) : Area → Path
  | .policy => c.policy
  | .incl => c.policy ++ [c!"include"]

/-- What is appended to a name to get the file name. -/
def Area.suffix : Area → Str
  | .policy => c!".policy"
  | .incl => []

/-- A request to the API. -/
inductive Call where
  | list (a : Area)
  | get (a : Area) (name : Str)
  | replace (a : Area) (name : Str) (token data : Bytes)
  | remove (a : Area) (name : Str) (token : Bytes)
  | getFiles (service : Str)

/-- The prefix of the service names of an area. -/
def Area.prefix : Area → Str
  | .policy => c!"policy."
  | .incl => c!"policy.include."

/-- The qrexec service called. -/
def Call.service : Call → Str
  | .list a => a.prefix ++ c!"List"
  | .get a _ => a.prefix ++ c!"Get"
  | .replace a _ _ _ => a.prefix ++ c!"Replace"
  | .remove a _ _ => a.prefix ++ c!"Remove"
  | .getFiles _ => c!"policy.GetFiles"

/-- Its argument. -/
def Call.arg : Call → Str
  | .list _ => []
  | .get _ n => n
  | .replace _ n _ _ => n
  | .remove _ n _ => n
  | .getFiles s => s

/-- What is sent on its standard input: for Replace the token line followed by the data. -/
def Call.payload : Call → Bytes
  | .replace _ _ t d => t ++ '\n' :: d
  | .remove _ _ t => t
  | _ => []

/-- Executing a request. -/
def Call.run (h : Host) (c : AdminConf) (d : Disk) (call : Call) :
    Disk × Except AdminErr (Option Bytes) :=
  handleAdmin h c d call.service call.arg call.payload

/-- The file the name `n` stands for, symbolic links resolved. -/
def fileOf (c : AdminConf) (d : Disk) (a : Area) (n : Str) : Path :=
  d.resolve (a.dir c ++ [n ++ a.suffix])

/-- The temporary file that Replace writes first. -/
def tempOf (p : Path) : Path := p.dropLast ++ ['!' :: p.getLast?.getD []]

/-- A name the API accepts: ASCII letters, digits, `_` and `-`. -/
def AdminName (n : Str) : Prop :=
  n ≠ [] ∧ ∀ ch ∈ n,
    ch ∈ c!"0123456789abcdefghijklmnopqrstuvwxyzABCDEFGHIJKLMNOPQRSTUVWXYZ_-"

/-- The token of some file content. -/
def tokenOf (h : Host) (data : Bytes) : Bytes := c!"sha256:" ++ h.hash data

/-- A list of requests executed one after the other: the final disk and the answers. -/
def runAll (h : Host) (c : AdminConf) : Disk → List Call → Disk × List (Except AdminErr (Option Bytes))
  | d, [] => (d, [])
  | d, q :: qs =>
    let r := q.run h c d
    let s := runAll h c r.1 qs
    (s.1, r.2 :: s.2)

end Qrexec.Spec

namespace Qrexec.Spec
open Qrexec

/-- A file system as the kernel maintains it: `resolve` gives real paths; the parents of a real
path are real; links of the parent are followed first; files and directories are found under real paths; the files of a directory are
listed in it, each once. -/
structure RealDisk (d : Disk) : Prop where
  idem : ∀ p, d.resolve (d.resolve p) = d.resolve p
  through : ∀ p n, d.resolve (d.resolve p ++ [n]) = d.resolve (p ++ [n])
  parent : ∀ p, d.resolve p = p → d.resolve p.dropLast = p.dropLast
  listed : ∀ p n b ns, d.content (p ++ [n]) = some b → d.entries p = some ns → n ∈ ns
  distinct : ∀ p ns, d.entries p = some ns → ns.Nodup

/-- The names of an area: those whose file exists and is listed in the directory. -/
def HasName (c : AdminConf) (d : Disk) (a : Area) (n : Str) : Prop :=
  (∃ ns, d.entries (d.resolve (a.dir c)) = some ns ∧ n ++ a.suffix ∈ ns) ∧
  d.content (fileOf c d a n) ≠ none

/-- The name is not a symbolic link to another file. -/
def NoLink (c : AdminConf) (d : Disk) (a : Area) (n : Str) : Prop :=
  fileOf c d a n = a.dir c ++ [n ++ a.suffix]

end Qrexec.Spec

namespace Qrexec.Spec
open Qrexec

/-- Every carriage return is directly followed by a line feed. -/
def CrLfOnly (text : Str) : Prop :=
  ∀ pre post, text = pre ++ '\r' :: post → post.head? = some '\n'

/-- No entry of a directory is a symbolic link. -/
def NoLinks (d : Disk) : Prop :=
  ∀ q n ns, d.entries q = some ns → n ∈ ns → d.resolve (q ++ [n]) = q ++ [n]

/-- The files that `!compat-4.0` reads: the legacy files, and what they include (after the
rewriting of the legacy syntax to the current one). -/
inductive LegacyReads (fs : FS) (legacy : Path) : Path → Prop
  | file {ns n} : fs.dir legacy = some ns → n ∈ ns →
      LegacyReads fs legacy (fs.resolve (legacy ++ [n]))
  | incl {p text line inc} : LegacyReads fs legacy p → fs.file p = some (.ok text) →
      line ∈ fileLines text → Words (compatSubst (strip line)) [c!"!include", inc] →
      LegacyReads fs legacy (fs.resolve (joinPath legacy inc))

end Qrexec.Spec

namespace Qrexec.Spec
open Qrexec

/-- The disk when the machine stops after `k` file system operations of a request. -/
def crashed (h : Host) (c : AdminConf) (d : Disk) (call : Call) (k : Nat) : Disk :=
  match adminPlan h c d call.service call.arg call.payload with
  | .ok plan => (runWrites d (plan.2.take k)).1
  | .error _ => d

end Qrexec.Spec
