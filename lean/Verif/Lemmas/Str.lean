import Verif.Model.Str
import Mathlib.Tactic.Tauto
import Mathlib.Tactic.SplitIfs
import Mathlib.Tactic.Cases
import Mathlib.Tactic.ByContra

namespace Qrexec

theorem startsWith_iff {p s : Str} : startsWith p s = true ↔ ∃ t, s = p ++ t := by
  unfold startsWith
  rw [List.isPrefixOf_iff_prefix]
  constructor
  · rintro ⟨t, h⟩; exact ⟨t, h.symm⟩
  · rintro ⟨t, h⟩; exact ⟨t, h.symm⟩

theorem startsWith_append (p t : Str) : startsWith p (p ++ t) = true :=
  startsWith_iff.2 ⟨t, rfl⟩

theorem startsWith_false {p s : Str} : startsWith p s = false ↔ ¬ ∃ t, s = p ++ t := by
  rw [← startsWith_iff]; simp

end Qrexec
