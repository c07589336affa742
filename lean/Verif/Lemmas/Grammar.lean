import Verif.Spec.Grammar
import Verif.Lemmas.Str

namespace Qrexec
open Spec

theorem startsWith_at_iff (v : Str) : startsWith c!"@" v = true ↔ v.head? = some '@' := by
  cases v with
  | nil => simp [startsWith]
  | cons c cs => simp only [startsWith, List.isPrefixOf, Bool.and_true, beq_iff_eq,
      List.head?_cons, Option.some.injEq]; exact eq_comm

theorem findExact_some {ctx : Ctx} {s : Str} {t : Token}
    (h : findExact ctx s exactTokens = some t) : TokenText ctx s t := by
  unfold exactTokens at h
  simp only [findExact] at h
  split_ifs at h with h1 h2 h3 h4 h5 <;> cases h <;>
    simp only [Bool.and_eq_true, beq_iff_eq, List.contains_iff_mem, List.mem_cons,
      List.not_mem_nil, or_false] at *
  · obtain ⟨h, rfl⟩ := h1; exact .wildcard h
  · obtain ⟨_, rfl⟩ := h2; exact .adminvm
  · obtain ⟨h, rfl⟩ := h3; exact .anyvm h
  · obtain ⟨h, rfl⟩ := h4; exact .default h
  · obtain ⟨h, rfl⟩ := h5
    refine .dispvm ?_
    rintro rfl
    simp at h

theorem findPrefix_mem {ctx : Ctx} {s : Str} {t : Token} {l}
    (h : findPrefix ctx s l = .ok t) :
    ∃ p mk ctxs v, (p, mk, ctxs) ∈ l ∧ ctx ∈ ctxs ∧ s = p ++ v ∧ PlainValue v ∧ t = mk v := by
  induction l with
  | nil => simp [findPrefix] at h
  | cons x xs ih =>
    obtain ⟨p, mk, ctxs⟩ := x
    have lift : (∃ p mk ctxs v, (p, mk, ctxs) ∈ xs ∧ ctx ∈ ctxs ∧ s = p ++ v ∧ PlainValue v ∧
        t = mk v) → _ := fun ⟨p', mk', ctxs', v, hm, hr⟩ =>
      (⟨p', mk', ctxs', v, List.mem_cons_of_mem (p, mk, ctxs) hm, hr⟩ :
        ∃ p' mk' ctxs' v, (p', mk', ctxs') ∈ (p, mk, ctxs) :: xs ∧ ctx ∈ ctxs' ∧ s = p' ++ v ∧
          PlainValue v ∧ t = mk' v)
    simp only [findPrefix] at h
    split_ifs at h with h1 h2 h3
    · exact lift (ih h)
    · simp only [Bool.and_eq_true, List.contains_iff_mem] at h1
      obtain ⟨v, rfl⟩ := startsWith_iff.1 h1.2
      rw [List.drop_left] at h h2 h3
      simp only [Except.ok.injEq] at h
      refine ⟨p, mk, ctxs, v, List.mem_cons_self, h1.1, rfl, ⟨?_, ?_⟩, h.symm⟩
      · rintro rfl; simp at h2
      · exact fun h => h3 ((startsWith_at_iff v).2 h)
    · exact lift (ih h)

theorem findPrefix_ok {ctx : Ctx} {s : Str} {t : Token}
    (h : findPrefix ctx s prefixTokens = .ok t) : TokenText ctx s t := by
  obtain ⟨p, mk, ctxs, v, hm, hc, rfl, hv, rfl⟩ := findPrefix_mem h
  unfold prefixTokens at hm
  simp only [List.mem_cons, Prod.mk.injEq, List.not_mem_nil, or_false] at hm
  rcases hm with ⟨rfl, rfl, rfl⟩ | ⟨rfl, rfl, rfl⟩ | ⟨rfl, rfl, rfl⟩ | ⟨rfl, rfl, rfl⟩
  · exact .typeVM (by simpa using hc) hv
  · exact .tagVM (by simpa using hc) hv
  · exact .dispvmTemplate hv
  · exact .dispvmTag (by simpa using hc) hv

theorem parseToken_ok {ctx : Ctx} {s : Str} {t : Token} (h : parseToken ctx s = .ok t) :
    TokenText ctx s t := by
  unfold parseToken at h
  split_ifs at h with h1 h2
  · simp only [Except.ok.injEq] at h
    subst h
    simp only [Bool.not_eq_true', Bool.or_eq_false_iff, beq_eq_false_iff_ne, ne_eq] at h2
    refine .name ⟨by rintro rfl; simp at h1, fun h => ?_⟩ h2.2
    have := (startsWith_at_iff s).2 h
    rw [h2.1] at this; cases this
  · split at h
    · rename_i t' ht
      cases h
      exact findExact_some ht
    · exact findPrefix_ok h

theorem parseToken_of {ctx : Ctx} {s : Str} {t : Token} (h : TokenText ctx s t) :
    parseToken ctx s = .ok t := by
  have e : ∀ {v : Str}, PlainValue v → v.isEmpty = false := by
    intro v hv; cases v with
    | nil => exact absurd rfl hv.1
    | cons => rfl
  have a : ∀ {v : Str}, PlainValue v → startsWith c!"@" v = false := by
    intro v hv
    have := hv.2
    rw [← Bool.not_eq_true, startsWith_at_iff]
    exact this
  have a' : ∀ {v : Str}, PlainValue v → ¬ ['@'] <+: v := by
    intro v hv hp
    have := a hv
    rw [startsWith, List.isPrefixOf_iff_prefix.2 hp] at this
    cases this
  cases h with
  | name h1 h2 => simp [parseToken, e h1, a h1, h2]
  | wildcard h => rcases h with rfl | rfl <;> rfl
  | adminvm => cases ctx <;> rfl
  | anyvm h => rcases h with rfl | rfl <;> rfl
  | default h => rcases h with rfl | rfl <;> rfl
  | dispvm h => cases ctx <;> first | rfl | exact absurd rfl h
  | @typeVM v h hv =>
    have he := e hv; have ha := a' hv
    rcases h with rfl | rfl <;>
    simp [parseToken, findExact, exactTokens, findPrefix, prefixTokens, startsWith, he, ha]
  | @tagVM v h hv =>
    have he := e hv; have ha := a' hv
    rcases h with rfl | rfl <;>
    simp [parseToken, findExact, exactTokens, findPrefix, prefixTokens, startsWith, he, ha]
  | @dispvmTemplate v hv =>
    have he := e hv; have ha := a' hv
    cases ctx <;>
    simp [parseToken, findExact, exactTokens, findPrefix, prefixTokens, startsWith, he, ha]
  | @dispvmTag v h hv =>
    have he := e hv; have ha := a' hv
    rcases h with rfl | rfl <;>
    simp [parseToken, findExact, exactTokens, findPrefix, prefixTokens, startsWith, he, ha]

theorem parseToken_ok_iff {ctx : Ctx} {s : Str} {t : Token} :
    parseToken ctx s = .ok t ↔ TokenText ctx s t := ⟨parseToken_ok, parseToken_of⟩

theorem tokenText_str {ctx : Ctx} {s : Str} {t : Token} (h : TokenText ctx s t) : t.str = s := by
  cases h <;> rfl

theorem findPrefix_error {ctx : Ctx} {s : Str} {e : Err} {l}
    (h : findPrefix ctx s l = .error e) : e = .policySyntax := by
  induction l with
  | nil => simp [findPrefix] at h; exact h.symm
  | cons x xs ih =>
    obtain ⟨p, mk, ctxs⟩ := x
    simp only [findPrefix] at h
    split_ifs at h
    · simp at h; exact h.symm
    · exact ih h
    · exact ih h

theorem parseToken_error {ctx : Ctx} {s : Str} {e : Err} (h : parseToken ctx s = .error e) :
    e = .policySyntax := by
  unfold parseToken at h
  split_ifs at h
  · simp at h; exact h.symm
  · split at h
    · simp at h
    · exact findPrefix_error h

end Qrexec
