import Verif.Lemmas.Offer
import Verif.Spec.Outcome
import Verif.Lemmas.Allow

namespace Qrexec
open Spec

theorem dropInternal_ok {info : Info} {l ts : List Str} (h : dropInternal info l = .ok ts) (x : Str) :
    x ∈ ts ↔ x ∈ l ∧ ∃ d, info.get? (baseOf x) = some d ∧
      d.internal = false := by
  induction l generalizing ts with
  | nil => simp [dropInternal] at h; subst h; simp
  | cons y ys ih =>
    simp only [dropInternal, bind_eq_ok, lookup_eq_ok, pure_ok, Except.ok.injEq] at h
    obtain ⟨d, hd, rest, hr, rfl⟩ := h
    have ih := ih hr
    change info.get? (baseOf y) = some d at hd
    by_cases hi : d.internal = true
    · rw [if_pos hi, ih]
      constructor
      · rintro ⟨h1, h2⟩; exact ⟨by simp [h1], h2⟩
      · rintro ⟨h1, d', h2, h3⟩
        refine ⟨?_, d', h2, h3⟩
        rcases List.mem_cons.1 h1 with rfl | h1
        · rw [hd] at h2; cases h2; rw [hi] at h3; cases h3
        · exact h1
    · rw [if_neg hi, List.mem_cons, ih]
      constructor
      · rintro (rfl | ⟨h1, h2⟩)
        · exact ⟨by simp, d, hd, by simpa using hi⟩
        · exact ⟨by simp [h1], h2⟩
      · rintro ⟨h1, h2⟩
        rcases List.mem_cons.1 h1 with rfl | h1
        · exact Or.inl rfl
        · exact Or.inr ⟨h1, h2⟩

theorem expandDefaultDispvm_ok {info : Info} {src : Str} {l ts : List Str}
    (h : expandDefaultDispvm info src l = .ok ts) (x : Str) :
    x ∈ ts ↔ (x ∈ l ∧ x ≠ c!"@dispvm") ∨
      (c!"@dispvm" ∈ l ∧ ∃ t, DefaultDispvm info src t ∧ x = c!"@dispvm:" ++ t) := by
  unfold expandDefaultDispvm at h
  split_ifs at h with hc
  · simp only [List.contains_iff_mem] at hc
    split at h
    · simp at h
    · rename_i hg
      cases h
      have := getDispvmTemplate_none hg
      rw [mem_setRemove]
      constructor
      · exact fun h => Or.inl h
      · rintro (h | ⟨_, t, ht, _⟩)
        · exact h
        · exact absurd ⟨t, ht⟩ this
    · rename_i t hg
      cases h
      obtain ⟨w, rfl, hw⟩ := getDispvmTemplate_some hg
      rw [mem_setUnion, mem_setRemove]
      simp only [List.mem_singleton, Token.str]
      constructor
      · rintro (h | h)
        · exact Or.inl h
        · exact Or.inr ⟨hc, w, hw, h⟩
      · rintro (h | ⟨_, t, ht, h⟩)
        · exact Or.inl h
        · cases defaultDispvm_unique ht hw
          exact Or.inr h
  · simp only [List.contains_iff_mem] at hc
    cases h
    constructor
    · intro h
      refine Or.inl ⟨h, ?_⟩
      rintro rfl; exact hc h
    · rintro (h | ⟨h, _⟩)
      · exact h.1
      · exact absurd h hc

theorem mem_expandAdminvm {l : List Str} {x : Str} :
    x ∈ expandAdminvm l ↔ (x ∈ l ∧ x ≠ c!"@adminvm") ∨ (c!"@adminvm" ∈ l ∧ x = c!"dom0") := by
  unfold expandAdminvm
  split_ifs with hc
  · simp only [List.contains_iff_mem] at hc
    rw [mem_setUnion, mem_setRemove]
    simp [hc]
  · simp only [List.contains_iff_mem] at hc
    constructor
    · intro h
      refine Or.inl ⟨h, ?_⟩
      rintro rfl; exact hc h
    · rintro (h | ⟨h, _⟩)
      · exact h.1
      · exact absurd h hc

/-- Membership in the collected targets. -/
theorem collectTargets_mem {req : Request} (hs : SystemInfo req.info) {rules : List Rule}
    {ts : List Str} (h : collectTargets rules req = .ok ts) (x : Str) :
    x ∈ ts ↔
      ((FirstSpeakerNotDeny rules req x ∧ x ≠ c!"@dispvm" ∧ x ≠ c!"@adminvm") ∨
       (FirstSpeakerNotDeny rules req c!"@dispvm" ∧
          ∃ t, DefaultDispvm req.info req.source t ∧ x = c!"@dispvm:" ++ t) ∨
       (FirstSpeakerNotDeny rules req c!"@adminvm" ∧ x = c!"dom0")) ∧
      (∃ d, req.info.get? req.source = some d ∧ x ≠ d.name ∧ x ≠ req.source ∧
        ∀ u, d.uuid = some u → x ≠ c!"uuid:" ++ u) ∧
      (∃ d, req.info.get? (baseOf x) = some d ∧
        d.internal = false) := by
  unfold collectTargets at h
  simp only [bind_eq_ok] at h
  obtain ⟨names, hn, ts0, h0, ts1, h1, h2⟩ := h
  have hsrc : ∃ d, req.info.get? req.source = some d ∧
      ((x ≠ names.2 ∧ x ≠ names.1) ↔ (x ≠ d.name ∧ x ≠ req.source ∧
        ∀ u, d.uuid = some u → x ≠ c!"uuid:" ++ u)) := by
    unfold sourceNames at hn
    simp only [bind_eq_ok, lookup_eq_ok] at hn
    obtain ⟨d, hd, hn⟩ := hn
    refine ⟨d, hd, ?_⟩
    split_ifs at hn with hu
    · simp only [pure_ok, Except.ok.injEq] at hn
      subst hn
      obtain ⟨u, hu⟩ := (startsWith_uuid_iff _).1 hu
      rw [hu] at hd
      have := (hs.uuid_entry u d hd).1
      simp only
      constructor
      · rintro ⟨a, b⟩
        refine ⟨a, b, ?_⟩
        intro u' hu'
        rw [this] at hu'; cases hu'
        rw [← hu]; exact b
      · rintro ⟨a, b, _⟩; exact ⟨a, b⟩
    · have hu' : ¬ IsUuid req.source := fun h => hu ((startsWith_uuid_iff _).2 h)
      simp only [bind_eq_ok, getUuid_eq_ok, pure_ok, Except.ok.injEq] at hn
      obtain ⟨u, hdu, rfl⟩ := hn
      have := hs.name_of _ _ ⟨hd, hu'⟩
      simp only [this]
      constructor
      · rintro ⟨a, b⟩
        refine ⟨a, a, ?_⟩
        intro u' hu'
        rw [hdu] at hu'; cases hu'
        exact b
      · rintro ⟨a, _, b⟩; exact ⟨a, b u hdu⟩
  obtain ⟨d, hd, hiff⟩ := hsrc
  have hm := fun y => collectLoop_mem hs h0 y
  have hm1 := fun y => expandDefaultDispvm_ok h1 y
  rw [dropInternal_ok h2, mem_setRemove, mem_setRemove, mem_expandAdminvm, hm1, hm1, hm, hm, hm]
  have e1 : ¬ c!"@adminvm" = c!"@dispvm" := by decide
  have e2 : ¬ ∃ t, DefaultDispvm req.info req.source t ∧ c!"@adminvm" = c!"@dispvm:" ++ t := by
    rintro ⟨t, _, h⟩; simp at h
  have e3 : ∀ t, c!"@dispvm:" ++ t ≠ c!"@adminvm" := by intro t h; simp at h
  constructor
  · rintro ⟨⟨⟨hA, hx2⟩, hx1⟩, hi⟩
    refine ⟨?_, ⟨d, hd, hiff.1 ⟨hx2, hx1⟩⟩, hi⟩
    rcases hA with ⟨⟨hf, hne⟩ | ⟨hf, t, ht, rfl⟩, hna⟩ | ⟨⟨hf, _⟩ | ⟨_, h⟩, rfl⟩
    · exact Or.inl ⟨hf, hne, hna⟩
    · exact Or.inr (Or.inl ⟨hf, t, ht, rfl⟩)
    · exact Or.inr (Or.inr ⟨hf, rfl⟩)
    · exact absurd h e2
  · rintro ⟨hA, ⟨d', hd', hrest⟩, hi⟩
    rw [hd] at hd'; cases hd'
    obtain ⟨hx2, hx1⟩ := hiff.2 hrest
    refine ⟨⟨⟨?_, hx2⟩, hx1⟩, hi⟩
    rcases hA with ⟨hf, hne, hna⟩ | ⟨hf, t, ht, rfl⟩ | ⟨hf, rfl⟩
    · exact Or.inl ⟨Or.inl ⟨hf, hne⟩, hna⟩
    · exact Or.inl ⟨Or.inr ⟨hf, t, ht, rfl⟩, e3 t⟩
    · exact Or.inr ⟨Or.inl ⟨hf, e1⟩, rfl⟩

theorem filterNoAutostart_ok {info : Info} (hn : OrdinaryNames info) {l ts : List Str}
    (h : filterNoAutostart info l = .ok ts) (x : Str) :
    x ∈ ts ↔ x ∈ l ∧ NoStartNeeded info x := by
  induction l generalizing ts with
  | nil => simp [filterNoAutostart] at h; subst h; simp
  | cons y ys ih =>
    simp only [filterNoAutostart, bind_eq_ok, pure_ok, Except.ok.injEq] at h
    obtain ⟨b, hb, rest, hr, rfl⟩ := h
    have ih := ih hr
    have hy := noStartNeeded_iff hn hb
    split_ifs with hbt
    · rw [List.mem_cons, List.mem_cons, ih]
      constructor
      · rintro (rfl | ⟨h1, h2⟩)
        · exact ⟨Or.inl rfl, hy.1 hbt⟩
        · exact ⟨Or.inr h1, h2⟩
      · rintro ⟨rfl | h1, h2⟩
        · exact Or.inl rfl
        · exact Or.inr ⟨h1, h2⟩
    · rw [List.mem_cons, ih]
      constructor
      · rintro ⟨h1, h2⟩; exact ⟨Or.inr h1, h2⟩
      · rintro ⟨rfl | h1, h2⟩
        · exact absurd (hy.2 h2) hbt
        · exact ⟨h1, h2⟩

theorem autostartFilter_ok {info : Info} (hn : OrdinaryNames info) {a : Bool} {l ts : List Str}
    (h : autostartFilter info a l = .ok ts) (x : Str) :
    x ∈ ts ↔ x ∈ l ∧ (a = false → NoStartNeeded info x) := by
  unfold autostartFilter at h
  split_ifs at h with ha
  · cases h; simp [ha]
  · rw [filterNoAutostart_ok hn h]
    simp at ha; simp [ha]

end Qrexec
