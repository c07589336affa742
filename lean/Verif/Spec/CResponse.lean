import Verif.Model.CResponse
import Verif.Spec.Answer

/-!
# Specification of the answers the C daemon accepts
-/
namespace Qrexec.Spec

/-- The keys the C daemon knows. -/
def knownKeys : List Str :=
  [c!"result", c!"user", c!"target", c!"target_uuid", c!"autostart", c!"requested_target",
   c!"service", c!"policy_source"]

/-- The value of the first field with this key. -/
def valueOf (fs : List (Str × Str)) (key : Str) : Option Str :=
  (fs.find? fun f => f.1 = key).map (·.2)

/-- The fields are those of an answer: no known key twice, `result` and `autostart` one of the two
words each may be. -/
structure Readable (fs : List (Str × Str)) : Prop where
  once : ∀ k ∈ knownKeys, (fs.filter fun f => f.1 = k).length ≤ 1
  result : ∀ v, valueOf fs c!"result" = some v → v = c!"allow" ∨ v = c!"deny"
  autostart : ∀ v, valueOf fs c!"autostart" = some v → v = c!"True" ∨ v = c!"False"

/-- The record `p` holds exactly what the fields say. -/
structure Holds (fs : List (Str × Str)) (p : PolicyAnswer) : Prop where
  result : p.result = (valueOf fs c!"result").map (· == c!"allow")
  user : p.user = valueOf fs c!"user"
  target : p.target = valueOf fs c!"target"
  targetUuid : p.targetUuid = valueOf fs c!"target_uuid"
  autostart : p.autostart = (valueOf fs c!"autostart").map (· == c!"True")
  requestedTarget : p.requestedTarget = valueOf fs c!"requested_target"
  service : p.service = valueOf fs c!"service"
  policySource : p.policySource = valueOf fs c!"policy_source"

/-- An answer that allows: `result=allow` and the mandatory fields. -/
def Allows (fs : List (Str × Str)) : Prop :=
  valueOf fs c!"result" = some c!"allow" ∧ (valueOf fs c!"user").isSome ∧
  (valueOf fs c!"target").isSome ∧ (valueOf fs c!"requested_target").isSome ∧
  (valueOf fs c!"autostart").isSome

/-- An answer that denies: `result=deny` and none of the fields an allow must have. -/
def Denies (fs : List (Str × Str)) : Prop :=
  valueOf fs c!"result" = some c!"deny" ∧ valueOf fs c!"user" = none ∧
  valueOf fs c!"target" = none ∧ valueOf fs c!"requested_target" = none ∧
  valueOf fs c!"autostart" = none

/-- `response` consists of the fields `fs`: one line each, the last newline optional. -/
def ResponseOf (response : Wire) (fs : List (Str × Str)) : Prop :=
  fs ≠ [] ∧ (∀ f ∈ fs, '=' ∉ f.1 ∧ '\n' ∉ f.1 ∧ '\n' ∉ f.2 ∧ '\x00' ∉ f.1 ∧ '\x00' ∉ f.2) ∧
  (response = answerText fs ∨ response = answerText fs ++ c!"\n")

end Qrexec.Spec
