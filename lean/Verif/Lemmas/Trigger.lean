import Verif.Spec.Trigger
import Verif.Props.Sanitize
import Verif.Props.PolicyDaemon

namespace Qrexec
open Spec

theorem cSanitizeChar_eq (extra : List Char) (c : Char) :
    cSanitizeChar extra c = cleanByte extra c := by
  have h := cSanitizeChar_spec extra c
  unfold cleanByte
  by_cases hc : c ∈ plainChars ∨ c ∈ extra
  · rw [if_pos hc]; exact h.1 (List.mem_append.2 hc)
  · rw [if_neg hc]; exact h.2 fun hm => hc (List.mem_append.1 hm)

theorem cleanByte_mem (extra : List Char) (c : Char) :
    cleanByte extra c ∈ plainChars ∨ cleanByte extra c ∈ extra := by
  unfold cleanByte
  split_ifs with h
  · exact h
  · left; decide

theorem cleanByte_ne_nul {extra : List Char} (he : '\x00' ∉ extra) (c : Char) :
    cleanByte extra c ≠ '\x00' := by
  intro h
  rcases cleanByte_mem extra c with hm | hm <;> rw [h] at hm
  · exact absurd hm (by decide)
  · exact he hm

theorem cSanitizeBuf_append {extra : List Char} {s rest : Wire} (h : '\x00' ∉ s) :
    cSanitizeBuf extra (s ++ '\x00' :: rest) = s.map (cleanByte extra) ++ '\x00' :: rest := by
  induction s with
  | nil => simp [cSanitizeBuf]
  | cons c cs ih =>
    simp only [List.mem_cons, not_or] at h
    rw [List.cons_append, cSanitizeBuf, if_neg (Ne.symm h.1), ih h.2, cSanitizeChar_eq]
    rfl

theorem cstr_append {s rest : Wire} (h : '\x00' ∉ s) : cstr (s ++ '\x00' :: rest) = s := by
  unfold cstr
  rw [List.takeWhile_append_of_pos (by
    intro c hc
    rw [bne_iff_ne]
    rintro rfl
    exact h hc)]
  simp

theorem nul_not_mem_map {extra : List Char} (he : '\x00' ∉ extra) (s : Wire) :
    '\x00' ∉ s.map (cleanByte extra) := by
  intro h
  obtain ⟨c, _, hc⟩ := List.mem_map.1 h
  exact cleanByte_ne_nul he c hc

theorem split_nul (s : Wire) : '\x00' ∉ s ∨ ∃ a b, s = a ++ '\x00' :: b ∧ '\x00' ∉ a := by
  induction s with
  | nil => exact Or.inl (by simp)
  | cons c cs ih =>
    by_cases hc : c = '\x00'
    · exact Or.inr ⟨[], cs, by simp [hc], by simp⟩
    · rcases ih with h | ⟨a, b, rfl, h⟩
      · exact Or.inl (by simp [h, Ne.symm hc])
      · exact Or.inr ⟨c :: a, b, rfl, by simp [h, Ne.symm hc]⟩

theorem fieldText_exists {buf : Wire} (h : buf ≠ []) : ∃ s, FieldText buf s := by
  rcases split_nul buf with hn | ⟨a, b, hb, ha⟩
  · rcases List.eq_nil_or_concat buf with h' | ⟨a, c, hb⟩
    · exact absurd h' h
    · rw [List.concat_eq_append] at hb
      refine ⟨a, fun hc => hn (by rw [hb]; simp [hc]), Or.inr ⟨c, ?_, hb⟩⟩
      rintro rfl
      exact hn (by rw [hb]; simp)
  · exact ⟨a, ha, Or.inl ⟨b, hb⟩⟩

/-- The terminated buffer is the text, a NUL byte and something. -/
theorem ensureNul_eq {buf s : Wire} (h : FieldText buf s) : ∃ rest, ensureNul buf = s ++ '\x00' :: rest := by
  unfold ensureNul
  obtain ⟨_, ⟨rest, rfl⟩ | ⟨c, _, rfl⟩⟩ := h
  · rcases List.eq_nil_or_concat rest with rfl | ⟨r, c, rfl⟩
    · exact ⟨[], by simp⟩
    · rw [List.concat_eq_append]
      refine ⟨r ++ c!"\x00", ?_⟩
      have e : s ++ '\x00' :: (r ++ [c]) = (s ++ '\x00' :: r) ++ [c] := by simp
      have hl : (s ++ '\x00' :: (r ++ [c])).length - 1 = (s ++ '\x00' :: r).length := by
        simp only [List.length_append, List.length_cons, List.length_nil]; omega
      rw [hl, e, List.take_left]
      simp
  · refine ⟨[], ?_⟩
    have hl : (s ++ [c]).length - 1 = s.length := by simp
    rw [hl, List.take_left]

theorem field_clean {extra : List Char} (he : '\x00' ∉ extra) {buf s : Wire} (h : FieldText buf s) :
    cstr (cSanitizeBuf extra (ensureNul buf)) = s.map (cleanByte extra) := by
  obtain ⟨rest, hr⟩ := ensureNul_eq h
  rw [hr, cSanitizeBuf_append h.1, cstr_append (nul_not_mem_map he s)]

theorem fieldText_unique {buf s s' : Wire} (h : FieldText buf s) (h' : FieldText buf s') : s = s' := by
  obtain ⟨r, hr⟩ := ensureNul_eq h
  obtain ⟨r', hr'⟩ := ensureNul_eq h'
  have : cstr (ensureNul buf) = s := by rw [hr, cstr_append h.1]
  rw [hr', cstr_append h'.1] at this
  exact this.symm

theorem exactCstr_iff {buf : Wire} : exactCstr buf = true ↔ ∃ s, buf = s ++ c!"\x00" ∧ '\x00' ∉ s := by
  unfold exactCstr
  rw [Bool.and_eq_true, beq_iff_eq, beq_iff_eq]
  constructor
  · rintro ⟨h1, h2⟩
    rcases List.eq_nil_or_concat buf with rfl | ⟨a, c, rfl⟩
    · simp at h1
    · rw [List.concat_eq_append] at h1 h2 ⊢
      rw [List.getLast?_append] at h1
      simp at h1
      subst h1
      refine ⟨a, rfl, ?_⟩
      rcases split_nul a with h | ⟨x, y, rfl, hx⟩
      · exact h
      · exfalso
        rw [show (x ++ '\x00' :: y) ++ ['\x00'] = x ++ '\x00' :: (y ++ ['\x00']) by simp,
          cstr_append hx] at h2
        simp only [List.length_append, List.length_cons, List.length_nil] at h2
        omega
  · rintro ⟨s, rfl, hs⟩
    rw [cstr_append hs, List.getLast?_append]
    simp

theorem identChar_iff (c : Char) : identChar c = true ↔ c ∈ plainChars ∨ c = ' ' := by
  have e : plainChars =
    c!"abcdefghijklmnopqrstuvwxyzABCDEFGHIJKLMNOPQRSTUVWXYZ0123456789" ++ c!"_-." := rfl
  unfold identChar
  rw [e]
  simp only [Bool.or_eq_true, alnumChar_iff, beq_iff_eq, List.mem_append]
  have h2 : c ∈ c!"_-." ↔ c = '_' ∨ c = '-' ∨ c = '.' := by simp
  rw [h2]
  tauto

theorem all_nul_iff {s : Wire} : s.all (· == '\x00') = true ↔ s = List.replicate s.length '\x00' := by
  rw [List.all_eq_true, List.eq_replicate_iff]
  simp

theorem validIdent_iff {ident : Wire} : validIdent ident = true ↔ IdentText ident := by
  induction ident with
  | nil =>
    simp only [validIdent, Bool.false_eq_true, false_iff]
    rintro ⟨n, k, h, _⟩
    have := congrArg List.length h
    simp at this
  | cons c cs ih =>
    rw [validIdent]
    by_cases hc : identChar c = true
    · rw [if_pos hc, ih]
      have hn : c ≠ '\x00' := by rintro rfl; exact absurd hc (by decide)
      constructor
      · rintro ⟨n, k, rfl, h⟩
        refine ⟨c :: n, k, rfl, ?_⟩
        intro x hx
        rcases List.mem_cons.1 hx with rfl | hx
        · exact (identChar_iff _).1 hc
        · exact h x hx
      · rintro ⟨n, k, h, h'⟩
        cases n with
        | nil =>
          rw [List.nil_append, List.replicate_succ] at h
          injection h with h1 h2
          exact absurd h1 hn
        | cons x xs =>
          rw [List.cons_append] at h
          injection h with h1 h2
          exact ⟨xs, k, h2, fun y hy => h' y (by simp [hy])⟩
    · rw [if_neg hc]
      by_cases h0 : c = '\x00'
      · subst h0
        simp only [beq_self_eq_true, if_true]
        rw [all_nul_iff]
        constructor
        · intro h
          exact ⟨[], cs.length, by rw [List.nil_append, List.replicate_succ, ← h], by simp⟩
        · rintro ⟨n, k, h, h'⟩
          cases n with
          | nil =>
            rw [List.nil_append, List.replicate_succ] at h
            injection h with h1 h2
            rw [h2]; simp
          | cons x xs =>
            rw [List.cons_append] at h
            injection h with h1 h2
            subst h1
            exact absurd (h' '\x00' (by simp)) (by decide)
      · rw [if_neg (by simpa using h0)]
        simp only [Bool.false_eq_true, false_iff]
        rintro ⟨n, k, h, h'⟩
        cases n with
        | nil =>
          rw [List.nil_append, List.replicate_succ] at h
          injection h with h1 h2
          exact h0 h1
        | cons x xs =>
          rw [List.cons_append] at h
          injection h with h1 h2
          subst h1
          exact hc ((identChar_iff _).2 (h' _ (by simp)))

theorem validServiceName_iff {s rest : Wire} (hs : '\x00' ∉ s) {t : Wire} :
    validServiceName (s ++ '\x00' :: rest) = some t ↔
      s ≠ [] ∧ s.head? ≠ some '+' ∧ t = s.map (cleanByte ['+']) ++ '\x00' :: rest := by
  unfold validServiceName
  cases s with
  | nil => simp
  | cons c cs =>
    have hc : c ≠ '\x00' := by rintro rfl; exact hs (by simp)
    rw [cSanitizeBuf_append hs]
    simp only [List.cons_append, List.head?_cons]
    rw [if_neg (by simpa using hc)]
    by_cases hp : c = '+'
    · simp [hp]
    · rw [if_neg (by simpa using hp)]
      simp only [Option.some.injEq, ne_eq, reduceCtorEq, not_false_eq_true, hp, true_and,
        List.map_cons, List.cons_append]
      exact eq_comm

theorem head_clean {s : Wire} : (s.map (cleanByte ['+'])).head? ≠ some '+' ↔ s.head? ≠ some '+' := by
  cases s with
  | nil => simp
  | cons c cs =>
    simp only [List.map_cons, List.head?_cons, ne_eq, Option.some.injEq, not_iff_not]
    unfold cleanByte
    split_ifs with h
    · exact Iff.rfl
    · constructor
      · intro h'; exact absurd h' (by decide)
      · rintro rfl; exact absurd (Or.inr (by simp)) h

theorem cleanByte_idem (extra : List Char) (c : Char) :
    cleanByte extra (cleanByte extra c) = cleanByte extra c := by
  have h := cleanByte_mem extra c
  generalize cleanByte extra c = d at h
  unfold cleanByte
  rw [if_pos h]

end Qrexec
