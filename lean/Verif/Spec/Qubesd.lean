import Verif.Model.Qubesd
import Verif.Spec.Json
import Mathlib.Data.List.Forall2

/-!
# Specification: the system information qubesd sends
-/
namespace Qrexec.Spec
open Qrexec

/-- The dict that pairs of a JSON object make: a later pair with the same key replaces the value. -/
inductive Dict : List (Str × Json) → List (Str × Json) → Prop
  | nil : Dict [] []
  | new {l d k v} : Dict l d → k ∉ d.map Prod.fst → Dict (l ++ [(k, v)]) (d ++ [(k, v)])
  | again {l a k u b v} : Dict l (a ++ (k, u) :: b) → Dict (l ++ [(k, v)]) (a ++ (k, v) :: b)

/-- A key that may be missing or null. -/
def Maybe (d : List (Str × Json)) (key : Str) : Option Str → Prop
  | some s => (key, .str s) ∈ d
  | none => ∀ v, (key, v) ∈ d → v = .null

/-- A key with a string or null. -/
def orNull : Option Str → Json
  | some s => .str s
  | none => .null

/-- The description of a domain. -/
structure Entry (d : List (Str × Json)) (dom : Dom) : Prop where
  tags : (c!"tags", .arr (dom.tags.map .str)) ∈ d
  cls : (c!"type", .str dom.cls) ∈ d
  templateForDispvms : (c!"template_for_dispvms", .bool dom.templateForDispvms) ∈ d
  defaultDispvm : (c!"default_dispvm", orNull dom.defaultDispvm) ∈ d
  powerState : (c!"power_state", .str dom.powerState) ∈ d
  guivm : (c!"guivm", orNull dom.guivm) ∈ d
  icon : (c!"icon", .str dom.icon) ∈ d
  uuid : (∀ u, dom.uuid = some u → (c!"uuid", .str u) ∈ d) ∧ (dom.uuid = none → c!"uuid" ∉ d.map Prod.fst)
  internal : (c!"internal", .bool dom.internal) ∈ d ∨ (c!"internal" ∉ d.map Prod.fst ∧ dom.internal = false)
  relayvm : Maybe d c!"relayvm" dom.relayvm
  transportRpc : Maybe d c!"transport_rpc" dom.transportRpc

/-- A domain in the answer: its name and its description. -/
def Described (p : Str × Json) (q : Str × Dom) : Prop :=
  q.1 = p.1 ∧ q.2.name = p.1 ∧ ∃ l d, p.2 = .obj l ∧ Dict l d ∧ Entry d q.2

/-- The answer describes these domains. -/
def Reports (v : Json) (json : List (Str × Dom)) : Prop :=
  ∃ l d doms ds, v = .obj l ∧ Dict l d ∧ (c!"domains", .obj doms) ∈ d ∧ Dict doms ds ∧ List.Forall₂ Described ds json

end Qrexec.Spec
