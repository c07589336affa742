import Verif.Model.SysInfo
import Mathlib.Tactic.Cases
import Mathlib.Tactic.SplitIfs

namespace Qrexec

theorem bind_eq_ok {α β : Type} {x : Except Err α} {f : α → Except Err β} {b : β} :
    (x >>= f) = .ok b ↔ ∃ a, x = .ok a ∧ f a = .ok b := by
  cases x with
  | error e => simp [bind, Except.bind]
  | ok a => simp [bind, Except.bind]

theorem bind_eq_error {α β : Type} {x : Except Err α} {f : α → Except Err β} {e : Err} :
    (x >>= f) = .error e ↔ x = .error e ∨ ∃ a, x = .ok a ∧ f a = .error e := by
  cases x with
  | error e => simp [bind, Except.bind]
  | ok a => simp [bind, Except.bind]

@[simp] theorem ok_bind {α β : Type} (a : α) (f : α → Except Err β) :
    ((.ok a : Except Err α) >>= f) = f a := rfl

@[simp] theorem error_bind {α β : Type} (e : Err) (f : α → Except Err β) :
    ((.error e : Except Err α) >>= f) = .error e := rfl

@[simp] theorem pure_ok {α : Type} (a : α) : (pure a : Except Err α) = .ok a := rfl

theorem require_eq_ok {c : Bool} {e : Err} {u : Unit} : require c e = .ok u ↔ c = true := by
  unfold require; split_ifs with h <;> simp [h]

theorem require_eq_error {c : Bool} {e e' : Err} :
    require c e = .error e' ↔ c = false ∧ e = e' := by
  unfold require; split_ifs with h <;> simp [h]

theorem map_eq_ok {α β : Type} {x : Except Err α} {f : α → β} {b : β} :
    x.map f = .ok b ↔ ∃ a, x = .ok a ∧ f a = b := by
  cases x <;> simp [Except.map]

theorem map_eq_error {α β : Type} {x : Except Err α} {f : α → β} {e : Err} :
    x.map f = .error e ↔ x = .error e := by
  cases x <;> simp [Except.map]

theorem lookup_eq_ok {info : Info} {k : Str} {d : Dom} :
    info.lookup k = .ok d ↔ info.get? k = some d := by
  unfold Info.lookup; cases info.get? k <;> simp

theorem getUuid_eq_ok {d : Dom} {u : Str} : d.getUuid = .ok u ↔ d.uuid = some u := by
  unfold Dom.getUuid; cases d.uuid <;> simp

end Qrexec
