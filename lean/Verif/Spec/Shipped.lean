import Verif.Spec.Load
import Verif.Spec.Admin
import Verif.Model.Shipped

/-!
# Specification: who the shipped policy lets read and change the policy
-/
namespace Qrexec.Spec
open Qrexec

/-- The services that read the policy. -/
def readers : List Str := [c!"policy.List", c!"policy.include.List", c!"policy.Get", c!"policy.include.Get", c!"policy.GetFiles"]

/-- The services that change the policy. -/
def writers : List Str := [c!"policy.Replace", c!"policy.include.Replace", c!"policy.Remove", c!"policy.include.Remove"]

/-- The file in which the shipped policy looks for those who may call a service. -/
inductive Keeper : Str → Str → Prop
  | reader {s : Str} : s ∈ readers → Keeper s c!"include/admin-policy-ro"
  | writer {s : Str} : s ∈ writers → Keeper s c!"include/admin-policy-rwx"

/-- The files reached from an included name: the file itself, and what its lines include (`$include:` is the older spelling). -/
inductive Reached (fs : FS) (base : Path) : Str → Path → Prop
  | here (inc : Str) : Reached fs base inc (fs.resolve (joinPath base inc))
  | next {inc inc' line text : Str} {q : Path} : fs.file (fs.resolve (joinPath base inc)) = some (.ok text) →
      line ∈ fileLines text → Words (compatSubst line) [c!"!include", inc'] → Reached fs base inc' q → Reached fs base inc q

/-- The rule is what a line of the file `p` says, for the service `svc` and any argument. -/
def SaidIn (fs : FS) (p : Path) (svc : Str) (r : Rule) : Prop :=
  r.filepath = p ∧ r.service = some svc ∧ r.argument = none ∧
  ∃ text line, fs.file p = some (.ok text) ∧ line ∈ fileLines text ∧
    ruleFromLineService (some svc) none (compatSubst (strip line)) p = .ok r

/-- The name of the shipped file. -/
def adminFile : Str := c!"90-admin-policy-default.policy"

/-- The directory has the shipped file, unchanged. -/
def HasShipped (fs : FS) (base : Path) : Prop := fs.file (base ++ [adminFile]) = some (.ok (joinLines shippedAdmin))

end Qrexec.Spec
