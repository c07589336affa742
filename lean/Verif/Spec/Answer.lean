import Verif.Model.Exec
import Verif.Spec.Outcome

/-!
# Specification of the answers of the policy frontend
-/
namespace Qrexec.Spec
open Qrexec

/-- The answer that refuses. -/
def denyAnswer : Str := c!"result=deny"

/-- Reading an answer: lines separated by newline, each `key=value` split at the first `=`;
`none` if some line has no `=`. -/
def readAnswer (s : Str) : Option (List (Str × Str)) :=
  (splitOn '\n' s).mapM (splitOnce '=')

/-- The question an ask puts to the GUI domain of the source. -/
def questionOf (a : AskRes) : AskParams :=
  { source := a.request.source, service := a.request.service, argument := a.request.argument,
    targets := a.targetsForAsk, defaultTarget := a.defaultTarget.getD [] }

/-- The GUI domain of a domain (an empty name counts as none). -/
def GuiOf (info : Info) (dom g : Str) : Prop :=
  ∃ d, info.get? dom = some d ∧ d.guivm = some g ∧ g ≠ []

/-- A target was granted to the request: by an allow rule that is the first match, or by an
ask rule that is the first match and whose question (about the offered targets) was answered
with `allow:` and one of the offered targets, or which assume-yes mode answered with the
requested target.  `user` and `autostart` are those of the rule. -/
inductive Granted (rules : List Rule) (req : Request) (mode : Mode) (agent : Agent) (r : Rule)
    (user : Option Str) (autostart : Bool) (out : Str) : Prop
  | byRule {pre post redirect n} : FirstMatch rules pre r post req →
      r.action = .allow redirect user n autostart → AllowedTarget req redirect out →
      (autostart = false → NoStartNeeded req.info out) →
      Granted rules req mode agent r user autostart out
  | byUser {pre post redirect dflt n a g} : FirstMatch rules pre r post req →
      r.action = .ask redirect dflt user n autostart → mode.assumeYes = false →
      evaluate rules req = .ok (.ask a) → out ∈ a.targetsForAsk → GuiOf req.info req.source g →
      agent g (questionOf a) = .ok (c!"allow:" ++ out) →
      Granted rules req mode agent r user autostart out
  | byMode {pre post redirect dflt n a} : FirstMatch rules pre r post req →
      r.action = .ask redirect dflt user n autostart → mode.assumeYes = true →
      evaluate rules req = .ok (.ask a) → out ∈ a.targetsForAsk → out = req.target.str →
      Granted rules req mode agent r user autostart out

/-- The fields of the answer for a granted target. -/
inductive AnswerFor (req : Request) (user : Option Str) (autostart : Bool) (out : Str) :
    List (Str × Str) → Prop
  | dom0 : Dom0 out → out ≠ req.source → AnswerFor req user autostart out
      [(c!"user", userText user), (c!"result", c!"allow"), (c!"target", c!"dom0"),
       (c!"autostart", pyBool autostart), (c!"requested_target", req.target.str)]
  | disposable {t d u} : out = c!"@dispvm:" ++ t → out ≠ req.source → req.info.get? t = some d →
      d.uuid = some u → AnswerFor req user autostart out
      ([(c!"user", userText user), (c!"result", c!"allow"), (c!"target", out),
        (c!"target_uuid", c!"@dispvm:uuid:" ++ u), (c!"autostart", pyBool autostart),
        (c!"requested_target", req.target.str)] ++
       if req.requestedSource = [] then [] else [(c!"policy_source", req.source)])
  | plain {d u} : ¬ Dom0 out → out ≠ req.source → req.info.get? out = some d →
      d.cls ≠ c!"RemoteVM" → d.uuid = some u → AnswerFor req user autostart out
      ([(c!"user", userText user), (c!"result", c!"allow"), (c!"target", out),
        (c!"target_uuid", c!"uuid:" ++ u), (c!"autostart", pyBool autostart),
        (c!"requested_target", req.target.str)] ++
       if req.requestedSource = [] then [] else [(c!"policy_source", req.source)])
  | remote {d relay rd u transport} : ¬ Dom0 out → out ≠ req.source → req.info.get? out = some d →
      d.cls = c!"RemoteVM" → d.relayvm = some relay → relay ≠ [] →
      d.transportRpc = some transport → transport ≠ [] →
      req.info.get? relay = some rd → rd.uuid = some u → AnswerFor req user autostart out
      ([(c!"user", c!"DEFAULT"), (c!"result", c!"allow"), (c!"target", relay),
        (c!"target_uuid", c!"uuid:" ++ u), (c!"autostart", pyBool autostart),
        (c!"requested_target", req.target.str),
        (c!"service", transport ++ c!"+" ++ req.target.str ++ c!"+" ++ req.service ++
          req.argument)] ++
       if req.requestedSource = [] then [] else [(c!"policy_source", req.source)])

/-- The lines of an answer with the given fields. -/
def answerText (fs : List (Str × Str)) : Str :=
  joinWith '\n' (fs.map fun f => f.1 ++ '=' :: f.2)

/-- No name, UUID, relay or transport service of the system state contains a newline. -/
def NoNewlines (info : Info) : Prop :=
  ∀ k d, info.get? k = some d → '\n' ∉ k ∧ (∀ u ∈ d.uuid, '\n' ∉ u) ∧
    (∀ x ∈ d.relayvm, '\n' ∉ x) ∧ (∀ x ∈ d.transportRpc, '\n' ∉ x) ∧
    ∀ x ∈ d.defaultDispvm, '\n' ∉ x

end Qrexec.Spec
