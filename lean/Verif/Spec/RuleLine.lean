import Verif.Spec.Grammar
import Verif.Model.Rule

/-!
# Specification of a policy line (doc/qrexec-policy.rst, "Policy files")
-/
namespace Qrexec.Spec
open Qrexec

/-- `Words line ws`: the line consists of the words `ws` separated by (and possibly
surrounded by) whitespace. -/
inductive Words : Str → List Str → Prop
  | none {gap} : (∀ c ∈ gap, isSpace c = true) → Words gap []
  | word {gap w rest ws} : (∀ c ∈ gap, isSpace c = true) → w ≠ [] →
      (∀ c ∈ w, isSpace c = false) → (∀ c, rest.head? = some c → isSpace c = true) →
      Words rest ws → Words (gap ++ (w ++ rest)) (w :: ws)

/-- A character allowed in service and argument names. -/
def NameChar (c : Char) : Prop :=
  c ∈ c!"ABCDEFGHIJKLMNOPQRSTUVWXYZabcdefghijklmnopqrstuvwxyz0123456789+-._"

/-- The service column: `*`, or a name without `+`. -/
inductive ServiceText : Str → Option Str → Prop
  | any : ServiceText c!"*" none
  | name {s} : s ≠ c!"*" → (∀ c ∈ s, NameChar c ∧ c ≠ '+') → ServiceText s (some s)

/-- The argument column: `*`, or `+` followed by the argument. -/
inductive ArgumentText : Str → Option Str → Prop
  | any : ArgumentText c!"*" none
  | arg {a} : (∀ c ∈ a, NameChar c) → ArgumentText ('+' :: a) (some ('+' :: a))

/-- The parameters an action may have. -/
inductive KnownParam : Str → Str → Prop
  | deny : KnownParam c!"deny" c!"notify"
  | allow {p} : p = c!"target" ∨ p = c!"user" ∨ p = c!"notify" ∨ p = c!"autostart" →
      KnownParam c!"allow" p
  | ask {p} : p = c!"target" ∨ p = c!"default_target" ∨ p = c!"user" ∨ p = c!"notify" ∨
      p = c!"autostart" → KnownParam c!"ask" p

/-- The value of a `yes`/`no` parameter with a default. -/
def Flag (kvs : List (Str × Str)) (key : Str) (dflt b : Bool) : Prop :=
  ((∀ v, (key, v) ∉ kvs) ∧ b = dflt) ∨ ((key, c!"yes") ∈ kvs ∧ b = true) ∨
    ((key, c!"no") ∈ kvs ∧ b = false)

/-- The value of an optional text parameter. -/
def Text (kvs : List (Str × Str)) (key : Str) (o : Option Str) : Prop :=
  ((∀ v, (key, v) ∉ kvs) ∧ o = none) ∨ ∃ v, (key, v) ∈ kvs ∧ o = some v

/-- The value of an optional redirection parameter. -/
def RedirectParam (kvs : List (Str × Str)) (key : Str) (o : Option Token) : Prop :=
  ((∀ v, (key, v) ∉ kvs) ∧ o = none) ∨
    ∃ v t, (key, v) ∈ kvs ∧ TokenText .redirect v t ∧ o = some t

/-- The action the word `action` and the parameters stand for. -/
inductive ActionText (kvs : List (Str × Str)) : Str → Action → Prop
  | deny {n} : Flag kvs c!"notify" true n → ActionText kvs c!"deny" (.deny n)
  | allow {t u n a} : RedirectParam kvs c!"target" t → Text kvs c!"user" u →
      Flag kvs c!"notify" false n → Flag kvs c!"autostart" true a →
      ActionText kvs c!"allow" (.allow t u n a)
  | ask {t d u n a} : RedirectParam kvs c!"target" t → RedirectParam kvs c!"default_target" d →
      Text kvs c!"user" u → Flag kvs c!"notify" false n → Flag kvs c!"autostart" true a →
      ActionText kvs c!"ask" (.ask t d u n a)

/-- The words after the action: `key=value` each, the key being what precedes the first
`=`. -/
def ParamWords (params : List Str) (kvs : List (Str × Str)) : Prop :=
  params = kvs.map (fun kv => kv.1 ++ '=' :: kv.2) ∧ ∀ kv ∈ kvs, '=' ∉ kv.1

/-- `RuleWords ws r`: the words of a line say the rule `r`. -/
inductive RuleWords (path : List Str) : List Str → Rule → Prop
  | mk {service argument source target action params kvs s a src tgt act} :
      ServiceText service s → ArgumentText argument a →
      (s = none → a = none) →
      TokenText .source source src → TokenText .target target tgt →
      ParamWords params kvs → (kvs.map Prod.fst).Nodup →
      (∀ kv ∈ kvs, KnownParam action kv.1) →
      ActionText kvs action act →
      (tgt = .default → ∀ u n b, act ≠ .allow none u n b) →
      RuleWords path (service :: argument :: source :: target :: action :: params)
        ⟨s, a, src, tgt, act, path⟩

end Qrexec.Spec
