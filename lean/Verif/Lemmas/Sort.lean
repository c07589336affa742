import Verif.Model.Loader
import Mathlib.Data.List.Perm.Basic
import Mathlib.Tactic.SplitIfs

namespace Qrexec

theorem char_toNat_inj {a b : Char} (h : a.toNat = b.toNat) : a = b := by
  rw [← Char.ofNat_toNat a, h, Char.ofNat_toNat]

theorem strLt_irrefl (a : Str) : strLt a a = false := by
  induction a with
  | nil => rfl
  | cons x xs ih => simp [strLt, ih]

theorem strLt_trans {a b c : Str} (h1 : strLt a b = true) (h2 : strLt b c = true) :
    strLt a c = true := by
  induction a generalizing b c with
  | nil =>
    cases c with
    | nil => cases b <;> simp [strLt] at h2
    | cons => rfl
  | cons x xs ih =>
    cases b with
    | nil => simp [strLt] at h1
    | cons y ys =>
      cases c with
      | nil => simp [strLt] at h2
      | cons z zs =>
        simp only [strLt] at h1 h2 ⊢
        split_ifs at h1 h2 ⊢ <;> first | rfl | omega | simp_all
        · exact ih h1 h2

theorem strLt_total (a b : Str) : strLt a b = true ∨ a = b ∨ strLt b a = true := by
  induction a generalizing b with
  | nil => cases b <;> simp [strLt]
  | cons x xs ih =>
    cases b with
    | nil => simp [strLt]
    | cons y ys =>
      simp only [strLt]
      by_cases h1 : x.toNat < y.toNat
      · simp [h1]
      · by_cases h2 : y.toNat < x.toNat
        · simp [h2]
        · have : x = y := char_toNat_inj (by omega)
          subst this
          simp only [Nat.lt_irrefl, if_false, List.cons.injEq, true_and]
          exact ih ys

theorem strLt_asymm {a b : Str} (h : strLt a b = true) : strLt b a = false := by
  rw [Bool.eq_false_iff]
  intro h'
  have := strLt_trans h h'
  rw [strLt_irrefl] at this
  simp at this

theorem strLe_iff {a b : Str} : strLe a b = true ↔ strLt a b = true ∨ a = b := by
  unfold strLe
  constructor
  · intro h
    have h : strLt b a = false := by simpa using h
    rcases strLt_total a b with h1 | h1 | h1
    · exact Or.inl h1
    · exact Or.inr h1
    · rw [h1] at h; simp at h
  · rintro (h | rfl)
    · rw [strLt_asymm h]; rfl
    · rw [strLt_irrefl]; rfl

theorem strLe_total (a b : Str) : strLe a b = true ∨ strLe b a = true := by
  rcases strLt_total a b with h | h | h
  · exact Or.inl (strLe_iff.2 (Or.inl h))
  · exact Or.inl (strLe_iff.2 (Or.inr h))
  · exact Or.inr (strLe_iff.2 (Or.inl h))

theorem strLe_trans {a b c : Str} (h1 : strLe a b = true) (h2 : strLe b c = true) :
    strLe a c = true := by
  rcases strLe_iff.1 h1 with h1 | rfl
  · rcases strLe_iff.1 h2 with h2 | rfl
    · exact strLe_iff.2 (Or.inl (strLt_trans h1 h2))
    · exact strLe_iff.2 (Or.inl h1)
  · exact h2

/-! ### Sorting -/

theorem insertSorted_perm {α : Type} (le : α → α → Bool) (x : α) (l : List α) :
    (insertSorted le x l).Perm (x :: l) := by
  induction l with
  | nil => exact List.Perm.refl _
  | cons y ys ih =>
    simp only [insertSorted]
    split_ifs
    · exact List.Perm.refl _
    · exact (ih.cons y).trans (List.Perm.swap x y ys)

theorem sortBy_perm {α : Type} (le : α → α → Bool) (l : List α) : (sortBy le l).Perm l := by
  induction l with
  | nil => exact List.Perm.refl _
  | cons x xs ih => exact (insertSorted_perm le x _).trans (ih.cons x)

theorem mem_sortBy {α : Type} {le : α → α → Bool} {l : List α} {x : α} :
    x ∈ sortBy le l ↔ x ∈ l := (sortBy_perm le l).mem_iff

theorem insertSorted_pairwise {α : Type} {le : α → α → Bool}
    (total : ∀ a b, le a b = true ∨ le b a = true)
    (trans : ∀ a b c, le a b = true → le b c = true → le a c = true) (x : α) {l : List α}
    (h : l.Pairwise fun a b => le a b = true) :
    (insertSorted le x l).Pairwise fun a b => le a b = true := by
  induction l with
  | nil => simp [insertSorted]
  | cons y ys ih =>
    rw [List.pairwise_cons] at h
    simp only [insertSorted]
    split_ifs with hxy
    · rw [List.pairwise_cons, List.pairwise_cons]
      refine ⟨?_, h⟩
      intro z hz
      rcases List.mem_cons.1 hz with rfl | hz
      · exact hxy
      · exact trans _ _ _ hxy (h.1 z hz)
    · rw [List.pairwise_cons]
      refine ⟨?_, ih h.2⟩
      intro z hz
      rcases List.mem_cons.1 ((insertSorted_perm le x ys).mem_iff.1 hz) with rfl | hz
      · rcases total y z with h' | h'
        · exact h'
        · exact absurd h' hxy
      · exact h.1 z hz

theorem sortBy_pairwise {α : Type} {le : α → α → Bool}
    (total : ∀ a b, le a b = true ∨ le b a = true)
    (trans : ∀ a b c, le a b = true → le b c = true → le a c = true) (l : List α) :
    (sortBy le l).Pairwise fun a b => le a b = true := by
  induction l with
  | nil => exact List.Pairwise.nil
  | cons x xs ih => exact insertSorted_pairwise total trans x ih

/-- Two lists sorted by a strict order with the same elements are equal. -/
theorem strict_sorted_unique {α : Type} {lt : α → α → Prop} (irrefl : ∀ a, ¬ lt a a)
    (trans : ∀ a b c, lt a b → lt b c → lt a c) :
    ∀ {l1 l2 : List α}, l1.Pairwise lt → l2.Pairwise lt → (∀ x, x ∈ l1 ↔ x ∈ l2) → l1 = l2 := by
  intro l1
  induction l1 with
  | nil =>
    intro l2 _ _ h
    cases l2 with
    | nil => rfl
    | cons y ys => exact absurd ((h y).2 (by simp)) (by simp)
  | cons x xs ih =>
    intro l2 h1 h2 h
    cases l2 with
    | nil => exact absurd ((h x).1 (by simp)) (by simp)
    | cons y ys =>
      rw [List.pairwise_cons] at h1 h2
      have hxy : x = y := by
        rcases List.mem_cons.1 ((h x).1 (by simp)) with hx | hx
        · exact hx
        · rcases List.mem_cons.1 ((h y).2 (by simp)) with hy | hy
          · exact hy.symm
          · exact absurd (trans _ _ _ (h1.1 y hy) (h2.1 x hx)) (irrefl x)
      subst hxy
      congr 1
      refine ih h1.2 h2.2 fun z => ?_
      constructor
      · intro hz
        rcases List.mem_cons.1 ((h z).1 (by simp [hz])) with rfl | hz'
        · exact absurd (h1.1 _ hz) (irrefl _)
        · exact hz'
      · intro hz
        rcases List.mem_cons.1 ((h z).2 (by simp [hz])) with rfl | hz'
        · exact absurd (h2.1 _ hz) (irrefl _)
        · exact hz'

/-- Sorting by key a list with distinct keys gives a strictly sorted list. -/
theorem sortBy_strict {α : Type} (key : α → Str) {l : List α} (hn : (l.map key).Nodup) :
    (sortBy (fun a b => strLe (key a) (key b)) l).Pairwise
      fun a b => strLt (key a) (key b) = true := by
  have hp := sortBy_pairwise (le := fun a b => strLe (key a) (key b))
    (fun a b => strLe_total _ _) (fun a b c => strLe_trans) l
  have hn' : ((sortBy (fun a b => strLe (key a) (key b)) l).map key).Nodup :=
    ((sortBy_perm _ l).map key).nodup_iff.2 hn
  rw [List.Nodup, List.pairwise_map] at hn'
  refine (hp.and hn').imp ?_
  rintro a b ⟨h1, h2⟩
  rcases strLe_iff.1 h1 with h | h
  · exact h
  · exact absurd h h2

theorem sortBy_eq_of_perm {α : Type} (key : α → Str) {l1 l2 : List α} (hp : l1.Perm l2)
    (hn : (l1.map key).Nodup) :
    sortBy (fun a b => strLe (key a) (key b)) l1 = sortBy (fun a b => strLe (key a) (key b)) l2 := by
  refine strict_sorted_unique (lt := fun a b => strLt (key a) (key b) = true)
    (fun a h => ?_) (fun a b c => strLt_trans) (sortBy_strict key hn)
    (sortBy_strict key ((hp.map key).nodup_iff.1 hn)) fun x => ?_
  · rw [strLt_irrefl] at h; simp at h
  · rw [mem_sortBy, mem_sortBy, hp.mem_iff]

theorem nodup_of_strict {α : Type} {key : α → Str} {l : List α}
    (h : l.Pairwise fun a b => strLt (key a) (key b) = true) : l.Nodup := by
  refine h.imp ?_
  rintro a b hab rfl
  rw [strLt_irrefl] at hab; simp at hab

end Qrexec
