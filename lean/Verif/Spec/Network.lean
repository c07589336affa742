import Verif.Model.Network
import Verif.Spec.EndToEnd
import Verif.Spec.VmAgent

/-!
# All qubes together: what is claimed
-/
namespace Qrexec.Spec

/-- A history of the whole system. -/
abbrev NHistory := List (NLabel × NEff)

/-- The agent of the qube `a` sent a message with this request, and its daemon made the call `k` of it. -/
def Asked (N : NConf) (tr : NHistory) (k a : Nat) (rs : Option Str) (target service : Str) (ident : Wire) : Prop :=
  ∃ kind data pid x, (.ask a kind data pid k, x) ∈ tr ∧ triggerMsg (N.proto a) kind data = .request rs target service ident

/-- The call `k` was decided with this system state, policy and answers of the user. -/
def Decided (tr : NHistory) (k : Nat) (sys : Option Info) (policy : Except Err (List Rule)) (agent : Agent) (w : ExWorld) : Prop :=
  ∃ x, (.decide k sys policy agent w, x) ∈ tr

/-- A program in dom0 that is not the process of a request sent this to the daemon of `b`. -/
def OtherSent (tr : NHistory) (b type domain : Nat) (buf : Wire) : Prop :=
  ∃ fd port written x, (.otherMsg b fd type domain port buf written, x) ∈ tr

/-- Decisions are made as usual: the policy daemon answers, names and rules are what they can be. -/
def UsualDecisions (N : NConf) (tr : NHistory) : Prop :=
  ∀ k sys policy agent w a rs t s ident, Asked N tr k a rs t s ident → Decided tr k sys policy agent w →
    (∃ answer, (handleClient sys policy agent (requestText (N.name a) rs t s)).2 = some answer ∧ '\x00' ∉ answer) ∧
    (∀ info, sys = some info → OrdinaryNames info ∧ NoNewlines info ∧ WordNames info ∧
      ∀ n d, info.get? n = some d → ∀ relay ∈ d.relayvm, ¬ Dom0 relay) ∧
    (∀ rules, policy = .ok rules → ∀ r ∈ rules, IsRule r ∧
      ∀ u t d n b, (r.action = .allow t (some u) n b ∨ r.action = .ask t d (some u) n b) → '\n' ∉ u ∧ ':' ∉ u ∧ '\x00' ∉ u)

/-- Names of qubes and of their default users. -/
def UsualNames (N : NConf) : Prop :=
  ∀ a, (∀ c ∈ N.name a, c.toNat < 128) ∧ '\n' ∉ N.name a ∧ (N.name a).length ≤ 65000 ∧ Word (N.name a) ∧
    ':' ∉ N.user a ∧ '\x00' ∉ N.user a

/-- The qube that a decision names is the one with the id `b`: its socket is that of the daemon of `b`; for a new disposable,
the socket of the name that qubesd gave it. -/
def IsQube (N : NConf) (w : ExWorld) (qube : Str) (b : Nat) : Prop :=
  N.leads qube b = true ∨
    ∃ name, c!"@dispvm:" <+: qube ∧ w.create = some (c!"0\x00" ++ name) ∧ '\x00' ∉ name ∧ N.leads name b = true

end Qrexec.Spec
