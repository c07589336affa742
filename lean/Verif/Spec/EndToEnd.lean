import Verif.Spec.Answer

/-!
# A call from qube to qube: what is claimed
-/
namespace Qrexec.Spec

/-- The user that a rule means: the one it names, or else the default user of the target's daemon. -/
def accountOf (dflt : Str) (user : Option Str) : Str :=
  match user with
  | none => dflt
  | some u => if u = [] ∨ u = c!"DEFAULT" then dflt else u

/-- No space and no NUL. -/
def Word (s : Str) : Prop := ' ' ∉ s ∧ '\x00' ∉ s

/-- Names and transport services of the system state are words. -/
def WordNames (info : Info) : Prop :=
  ∀ k d, info.get? k = some d → Word k ∧ ∀ x ∈ d.transportRpc, Word x

/-- Which service runs where, for a call that was granted the target `out`: the called service in this qube, or in a new
disposable of this template; for a remote domain the transport service in its relay, with target and service as argument. -/
inductive RunsAs (info : Info) (req : Request) (out : Str) (user : Option Str) : Str → Str → Option Str → Prop
  | qube {d u} : info.get? out = some d → d.cls ≠ c!"RemoteVM" → d.uuid = some u →
      RunsAs info req out user (c!"uuid:" ++ u) (req.service ++ req.argument) user
  | disposable {t d u} : out = c!"@dispvm:" ++ t → info.get? t = some d → d.uuid = some u →
      RunsAs info req out user (c!"@dispvm:uuid:" ++ u) (req.service ++ req.argument) user
  | remote {d relay rd u transport} : info.get? out = some d → d.cls = c!"RemoteVM" → d.relayvm = some relay →
      info.get? relay = some rd → rd.uuid = some u → d.transportRpc = some transport →
      RunsAs info req out user (c!"uuid:" ++ u)
        (transport ++ c!"+" ++ req.target.str ++ c!"+" ++ req.service ++ req.argument) none

end Qrexec.Spec
