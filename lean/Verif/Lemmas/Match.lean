import Verif.Spec.Match
import Verif.Lemmas.Str

namespace Qrexec
open Spec

theorem isDom0_iff (s : Str) : isDom0 s = true ↔ Dom0 s := by
  simp only [isDom0, Dom0, uuidZero, Bool.or_eq_true, beq_iff_eq]
  tauto

theorem isDom0_false_iff (s : Str) : isDom0 s = false ↔ ¬ Dom0 s := by
  rw [← isDom0_iff]; simp

theorem startsWith_uuid_iff (s : Str) : startsWith c!"uuid:" s = true ↔ IsUuid s :=
  startsWith_iff

theorem matchStrings_iff (info : Info) (a b : Str) :
    matchStrings info a b = true ↔ SameDomain info a b := by
  unfold matchStrings SameDomain HasUuid
  by_cases ha : startsWith c!"uuid:" a = true
  · rw [if_pos ha]
    have ha' := (startsWith_uuid_iff a).1 ha
    by_cases hb : startsWith c!"uuid:" b = true
    · rw [if_pos hb]
      have hb' := (startsWith_uuid_iff b).1 hb
      simp only [beq_iff_eq]
      constructor
      · intro h; exact Or.inl h
      · rintro (h | ⟨u, _, h, _⟩ | ⟨u, _, h, _⟩)
        · exact h
        · exact absurd hb' h
        · exact absurd ha' h
    · rw [if_neg hb]
      have hb' : ¬ IsUuid b := fun h => hb ((startsWith_uuid_iff b).2 h)
      obtain ⟨u, rfl⟩ := ha'
      have hne : c!"uuid:" ++ u ≠ b := by rintro rfl; exact hb' ⟨u, rfl⟩
      constructor
      · intro h
        refine Or.inr (Or.inl ⟨u, rfl, hb', ?_⟩)
        split at h
        · simp at h
        · rename_i d hd
          split at h
          · simp at h
          · rename_i u' hu'
            refine ⟨d, hd, ?_⟩
            simp at h
            rw [hu', h]
      · rintro (h | ⟨u', h, _, d, hd, hu⟩ | ⟨u', h, h', _⟩)
        · exact absurd h hne
        · have : u = u' := by simpa using h
          subst this
          simp [hd, hu]
        · exact absurd ⟨u', h⟩ hb'
  · rw [if_neg ha]
    have ha' : ¬ IsUuid a := fun h => ha ((startsWith_uuid_iff a).2 h)
    by_cases hb : startsWith c!"uuid:" b = true
    · rw [if_pos hb]
      obtain ⟨u, rfl⟩ := (startsWith_uuid_iff b).1 hb
      constructor
      · intro h
        refine Or.inr (Or.inr ⟨u, rfl, ha', ?_⟩)
        split at h
        · simp at h
        · rename_i d hd
          split at h
          · simp at h
          · rename_i u' hu'
            refine ⟨d, hd, ?_⟩
            simp at h
            rw [hu', h]
      · rintro (h | ⟨u', h, _, _⟩ | ⟨u', h, _, d, hd, hu⟩)
        · exact absurd ⟨u, h⟩ ha'
        · exact absurd ⟨u', h⟩ ha'
        · have : u = u' := by simpa using h
          subst this
          simp [hd, hu]
    · rw [if_neg hb]
      have hb' : ¬ IsUuid b := fun h => hb ((startsWith_uuid_iff b).2 h)
      simp only [beq_iff_eq]
      constructor
      · intro h; exact Or.inl h
      · rintro (h | ⟨u, h, _⟩ | ⟨u, h, _⟩)
        · exact h
        · exact absurd ⟨u, h⟩ ha'
        · exact absurd ⟨u, h⟩ hb'

theorem matchStrings_false_iff (info : Info) (a b : Str) :
    matchStrings info a b = false ↔ ¬ SameDomain info a b := by
  rw [← matchStrings_iff]; simp

theorem mkDispvmTemplate_ok {s : Str} {t : Token} (h : mkDispvmTemplate s = .ok t) :
    t = .dispvmTemplate s ∧ s ≠ [] ∧ s.head? ≠ some '@' := by
  unfold mkDispvmTemplate at h
  split_ifs at h with h1 h2
  simp only [Except.ok.injEq] at h
  refine ⟨h.symm, ?_, ?_⟩
  · rintro rfl; simp at h1
  · cases s with
    | nil => simp
    | cons c cs =>
      intro hc
      simp at hc
      subst hc
      exact h2 (startsWith_append ['@'] cs)

theorem mkDispvmTemplate_of {s : Str} (h1 : s ≠ []) (h2 : s.head? ≠ some '@') :
    mkDispvmTemplate s = .ok (.dispvmTemplate s) := by
  unfold mkDispvmTemplate
  rw [if_neg (by simpa using h1), if_neg]
  intro h
  obtain ⟨t, rfl⟩ := startsWith_iff.1 h
  simp at h2

theorem getDispvmTemplate_some {info : Info} {src : Str} {t : Token}
    (h : getDispvmTemplate info src = .ok (some t)) :
    ∃ w, t = .dispvmTemplate w ∧ DefaultDispvm info src w := by
  unfold getDispvmTemplate at h
  split at h
  · simp at h
  · rename_i d hd
    split at h
    · simp at h
    · rename_i w hw
      cases hm : mkDispvmTemplate w with
      | error e => rw [hm] at h; simp [bind, Except.bind] at h
      | ok t' =>
        rw [hm] at h
        simp [bind, Except.bind, pure, Except.pure] at h
        subst h
        exact ⟨w, (mkDispvmTemplate_ok hm).1, d, hd, hw⟩

theorem getDispvmTemplate_none {info : Info} {src : Str}
    (h : getDispvmTemplate info src = .ok none) : ¬ ∃ w, DefaultDispvm info src w := by
  rintro ⟨w, d, hd, hw⟩
  unfold getDispvmTemplate at h
  rw [hd] at h
  simp only [hw] at h
  cases hm : mkDispvmTemplate w with
  | error e => rw [hm] at h; simp [bind, Except.bind] at h
  | ok t => rw [hm] at h; simp [bind, Except.bind, pure, Except.pure] at h

theorem defaultDispvm_unique {info : Info} {src v w : Str}
    (h1 : DefaultDispvm info src v) (h2 : DefaultDispvm info src w) : v = w := by
  obtain ⟨d, hd, hv⟩ := h1
  obtain ⟨d', hd', hw⟩ := h2
  rw [hd] at hd'; cases hd'
  rw [hv] at hw; exact Option.some.inj hw

theorem not_isUuid_at (s : Str) : ¬ IsUuid ('@' :: s) := by
  rintro ⟨u, h⟩; simp at h

theorem sameDomain_dispvm (info : Info) (v w : Str) :
    SameDomain info (c!"@dispvm:" ++ v) (c!"@dispvm:" ++ w) ↔ v = w := by
  unfold SameDomain
  constructor
  · rintro (h | ⟨u, h, _⟩ | ⟨u, h, _⟩)
    · simpa using h
    · simp at h
    · simp at h
  · rintro rfl; exact Or.inl rfl

/-- `match` agrees with the specification whenever it does not raise. -/
theorem matches_ok_iff {info : Info} (hn : OrdinaryNames info) {src : Str} {so : Option Str} {t o : Token} {b : Bool}
    (hso : so = some src ∨ (so = none ∧ o ≠ .dispvm))
    (h : t.matches info so o = .ok b) : b = true ↔ Covers info src t o := by
  cases t with
  | wildcard => simp [Token.matches] at h; simp [h, Covers]
  | adminvm => simp [Token.matches] at h; subst h; exact isDom0_iff _
  | anyvm => simp only [Token.matches] at h; cases h; simp [Covers, isDom0_false_iff]
  | name s =>
    simp only [Token.matches] at h
    split_ifs at h with hs
    · cases h
      have hs' := (isDom0_iff _).1 hs
      simp [Covers, hs', isDom0_iff]
    · cases h
      have hs' : ¬ Dom0 s := fun hh => hs ((isDom0_iff _).2 hh)
      simp [Covers, hs', matchStrings_iff]
  | default =>
    simp only [Token.matches] at h
    cases h
    rw [matchStrings_iff]
    simp only [Covers, SameDomain]
    constructor
    · rintro (h | ⟨u, h, _⟩ | ⟨u, h, _, h2⟩)
      · exact h.symm
      · simp at h
      · obtain ⟨d, hd, _⟩ := h2
        exact absurd rfl (hn _ _ hd).2.1
    · intro h; exact Or.inl h.symm
  | dispvm => simp [Token.matches] at h; subst h; simp [Covers]; exact eq_comm
  | typeVM v =>
    simp only [Token.matches] at h
    cases h
    simp only [Covers]
    cases info.get? o.str with
    | none => simp
    | some d => simp; exact eq_comm
  | tagVM v =>
    simp only [Token.matches] at h
    cases h
    simp only [Covers]
    cases info.get? o.str with
    | none => simp
    | some d => simp
  | dispvmTemplate v =>
    simp only [Token.matches, templateMatches] at h
    cases o with
    | dispvm =>
      simp only at h
      rcases hso with rfl | ⟨_, hne⟩
      · simp only at h
        cases hg : getDispvmTemplate info src with
        | error e => rw [hg] at h; simp at h
        | ok o' =>
          rw [hg] at h
          cases o' with
          | none => simp at h
          | some t =>
            obtain ⟨w, rfl, hw⟩ := getDispvmTemplate_some hg
            simp only [Except.ok.injEq] at h
            subst h
            rw [matchStrings_iff, Token.str, sameDomain_dispvm]
            simp only [Covers, reduceCtorEq, false_and, exists_false, true_and, false_or]
            constructor
            · rintro rfl; exact hw
            · intro h; exact defaultDispvm_unique h hw
      · exact absurd rfl hne
    | dispvmTemplate w =>
      simp only [Except.ok.injEq] at h
      subst h
      rw [matchStrings_iff]
      simp [Covers]
    | _ => simp at h; subst h; simp [Covers]
  | dispvmTag v =>
    simp only [Token.matches] at h
    have key : ∀ (o' : Option Token), templateHasTag info v o' = .ok b →
        (b = true ↔ ∃ w d, o' = some (.dispvmTemplate w) ∧ info.get? w = some d ∧
          d.templateForDispvms = true ∧ v ∈ d.tags) := by
      intro o' h
      unfold templateHasTag at h
      split at h
      · rename_i w
        cases hd : info.get? w with
        | none => rw [hd] at h; simp at h
        | some d =>
          rw [hd] at h
          simp only [Except.ok.injEq] at h
          subst h
          simp only [Bool.and_eq_true, List.contains_iff_mem, Option.some.injEq,
            Token.dispvmTemplate.injEq]
          constructor
          · rintro ⟨h1, h2⟩; exact ⟨w, d, rfl, hd, h1, h2⟩
          · rintro ⟨w', d', rfl, hd', h1, h2⟩
            rw [hd] at hd'; cases hd'; exact ⟨h1, h2⟩
      · rename_i hno
        cases h
        simp only [Bool.false_eq_true, false_iff]
        rintro ⟨w, d, hw, _⟩
        exact hno w hw
    cases o with
    | dispvm =>
      rcases hso with rfl | ⟨_, hne⟩
      · simp only [requestedTemplate] at h
        cases hg : getDispvmTemplate info src with
        | error e => rw [hg] at h; simp at h
        | ok o' =>
          rw [hg] at h
          have := key o' h
          rw [this]
          simp only [Covers, reduceCtorEq, true_and, false_or]
          constructor
          · rintro ⟨w, d, rfl, h1⟩
            obtain ⟨w', hw', hdd⟩ := getDispvmTemplate_some hg
            cases hw'
            exact ⟨w, d, hdd, h1⟩
          · rintro ⟨w, d, hdd, h1⟩
            cases o' with
            | none => exact absurd ⟨w, hdd⟩ (getDispvmTemplate_none hg)
            | some t =>
              obtain ⟨w', rfl, hdd'⟩ := getDispvmTemplate_some hg
              cases defaultDispvm_unique hdd hdd'
              exact ⟨w, d, rfl, h1⟩
      · exact absurd rfl hne
    | dispvmTemplate w =>
      have := key (some (.dispvmTemplate w)) h
      rw [this]
      simp [Covers]
    | _ =>
      have := key _ h
      rw [this]
      simp [Covers]

end Qrexec
