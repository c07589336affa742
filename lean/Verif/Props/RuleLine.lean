import Verif.Lemmas.RuleLine

/-! # C23: parsing one policy line -/
namespace Qrexec
open Spec

/-- **C23.** A line is accepted exactly when its words form a rule by the grammar of the
documentation, and the rule is the one the grammar says. -/
theorem C23_rule_line (line : Str) (path : List Str) (r : Rule) :
    ruleFromLine line path = .ok r ↔ ∃ ws, Words line ws ∧ RuleWords path ws r := by
  constructor
  · intro h
    refine ⟨splitWs line, words_splitWs line, ?_⟩
    unfold ruleFromLine at h
    generalize splitWs line = ws at h
    split at h
    · exact ruleWords_iff.1 h
    · simp at h
  · rintro ⟨ws, hw, h⟩
    unfold ruleFromLine
    rw [splitWs_of_words hw]
    have h' := h
    cases h with
    | mk => exact ruleWords_iff.2 h'

/-- **C23.** Every other line is a policy syntax error; no other exception exists. -/
theorem C23_otherwise_syntax_error (line : Str) (path : List Str) :
    (∃ r ws, Words line ws ∧ RuleWords path ws r) ∨
      ruleFromLine line path = .error .policySyntax := by
  cases h : ruleFromLine line path with
  | ok r =>
    obtain ⟨ws, h1, h2⟩ := (C23_rule_line line path r).1 h
    exact Or.inl ⟨r, ws, h1, h2⟩
  | error e => rw [ruleFromLine_error h]; exact Or.inr rfl

/-- **C23.** A line says at most one thing. -/
theorem C23_unambiguous (line : Str) (path : List Str) (ws ws' : List Str) (r r' : Rule)
    (h : Words line ws) (hr : RuleWords path ws r) (h' : Words line ws')
    (hr' : RuleWords path ws' r') : r = r' :=
  Except.ok.inj (((C23_rule_line line path r).2 ⟨ws, h, hr⟩).symm.trans
    ((C23_rule_line line path r').2 ⟨ws', h', hr'⟩))

/-- **C23.** Consequence: at least five fields. -/
theorem C23_five_fields (line : Str) (path : List Str) (r : Rule) (ws : List Str)
    (h : ruleFromLine line path = .ok r) (hw : Words line ws) : 5 ≤ ws.length := by
  obtain ⟨ws', hw', hr⟩ := (C23_rule_line line path r).1 h
  have : ws = ws' := (splitWs_of_words hw).symm.trans (splitWs_of_words hw')
  subst this
  cases hr with
  | mk => simp

/-- **C23.** The default of `notify` is on for deny and off for the others; `autostart` is on. -/
theorem C23_defaults (line : Str) (path : List Str) (r : Rule)
    (h : ruleFromLine line path = .ok r) (service argument source target action : Str)
    (hw : Words line [service, argument, source, target, action]) :
    (action = c!"deny" ∧ r.action = .deny true) ∨
    (action = c!"allow" ∧ r.action = .allow none none false true) ∨
    (action = c!"ask" ∧ r.action = .ask none none none false true) := by
  obtain ⟨ws', hw', hr⟩ := (C23_rule_line line path r).1 h
  have : [service, argument, source, target, action] = ws' :=
    (splitWs_of_words hw).symm.trans (splitWs_of_words hw')
  subst this
  cases hr with
  | mk h1 h2 h3 hsrc htgt hpw hnd hkn hat hd =>
    rename_i kvs s a src tgt act
    have hk : kvs = [] := by
      have := hpw.1
      cases kvs with
      | nil => rfl
      | cons a as => simp at this
    subst hk
    have hf : ∀ {k d b}, Flag [] k d b → b = d := by
      intro k d b h
      rcases h with ⟨_, h⟩ | ⟨h, _⟩ | ⟨h, _⟩
      · exact h
      · simp at h
      · simp at h
    have ht : ∀ {k o}, Text [] k o → o = none := by
      intro k o h
      rcases h with ⟨_, h⟩ | ⟨_, h, _⟩
      · exact h
      · simp at h
    have hr : ∀ {k o}, RedirectParam [] k o → o = none := by
      intro k o h
      rcases h with ⟨_, h⟩ | ⟨_, _, h, _⟩
      · exact h
      · simp at h
    cases hat with
    | deny hn => exact Or.inl ⟨rfl, by rw [hf hn]⟩
    | allow a b c d => exact Or.inr (Or.inl ⟨rfl, by rw [hr a, ht b, hf c, hf d]⟩)
    | ask a e b c d => exact Or.inr (Or.inr ⟨rfl, by rw [hr a, hr e, ht b, hf c, hf d]⟩)

example : ruleFromLine c!"qubes.Gpg +  work\t@default ask default_target=vault notify=yes" [] =
    .ok ⟨some c!"qubes.Gpg", some c!"+", .name c!"work", .default,
      .ask none (some (.name c!"vault")) none true true, []⟩ := by decide
example : Words c!" a  b " [c!"a", c!"b"] := words_iff.2 (by decide)
example : ruleFromLine c!"* + @anyvm @anyvm deny" [] = .error .policySyntax := by decide
example : ruleFromLine c!"svc * @anyvm @default allow" [] = .error .policySyntax := by decide
example : ruleFromLine c!"svc * @anyvm @anyvm deny notify=no notify=no" [] =
    .error .policySyntax := by decide

/-- **C23, blanks.** The characters that separate words: those of ASCII (tab, newline, vertical tab, form feed, carriage return,
the four separators 28 to 31, space), and the ones of Unicode. -/
theorem C23_blanks (c : Char) : isSpace c = true ↔ c.toNat ∈
    [9, 10, 11, 12, 13, 28, 29, 30, 31, 32, 0x85, 0xa0, 0x1680, 0x2000, 0x2001, 0x2002, 0x2003, 0x2004, 0x2005, 0x2006, 0x2007,
     0x2008, 0x2009, 0x200a, 0x2028, 0x2029, 0x202f, 0x205f, 0x3000] := by
  unfold isSpace
  simp only [Bool.or_eq_true, Bool.and_eq_true, decide_eq_true_eq, beq_iff_eq, List.mem_cons, List.not_mem_nil, or_false]
  omega

end Qrexec
