import Verif.Lemmas.Eval
import Verif.Lemmas.Grammar

/-!
# C07-C10: what the tokens of the source and target column match

`Token.matches info source self other` is `self.match(other, system_info, source)`.
-/
namespace Qrexec
open Spec

/-! ## C07 dom0 -/

/-- **C07.** `@anyvm` matches exactly what is not dom0 in any spelling; `@adminvm` exactly the
three spellings of dom0; `*` everything. -/
theorem C07_dom0_keywords (info : Info) (source : Option Str) (o : Token) :
    (Token.anyvm.matches info source o = .ok true ↔ ¬ Dom0 o.str) ∧
    (Token.anyvm.matches info source o = .ok false ↔ Dom0 o.str) ∧
    (Token.adminvm.matches info source o = .ok true ↔ Dom0 o.str) ∧
    (Token.adminvm.matches info source o = .ok false ↔ ¬ Dom0 o.str) ∧
    Token.wildcard.matches info source o = .ok true := by
  simp only [Token.matches, Except.ok.injEq, Bool.not_eq_true', Bool.not_eq_false', isDom0_iff,
    isDom0_false_iff, iff_self, and_self]

/-- **C07.** dom0 written by name or UUID matches exactly the three spellings of dom0, and
another name matches none of them. -/
theorem C07_dom0_by_name (info : Info) (source : Option Str) (s : Str) (o : Token)
    (hs : Dom0 s) :
    ((Token.name s).matches info source o = .ok true ↔ Dom0 o.str) ∧
    ((Token.name s).matches info source o = .ok false ↔ ¬ Dom0 o.str) := by
  simp only [Token.matches, (isDom0_iff s).2 hs, if_true, Except.ok.injEq, isDom0_iff,
    isDom0_false_iff, and_self]

/-- **C07.** A rule that matches a request to dom0 says so in its target column: `*`,
`@adminvm`, one of the spellings of dom0 or a designation agreeing with it, or a class or tag
that dom0 has. -/
theorem C07_dom0_needs_mention (r : Rule) (req : Request) (hn : OrdinaryNames req.info)
    (hm : r.isMatch req = .ok true) (h0 : Dom0 req.target.str) :
    r.target = .wildcard ∨ r.target = .adminvm ∨
    (∃ s, r.target = .name s ∧ (Dom0 s ∨ SameDomain req.info s req.target.str)) ∨
    (∃ v d, (r.target = .typeVM v ∧ d.cls = v ∨ r.target = .tagVM v ∧ v ∈ d.tags) ∧
      req.info.get? req.target.str = some d) := by
  have h := ((isMatch_ok_iff hn hm).1 rfl).2
  cases ht : r.target with
  | wildcard => simp
  | adminvm => simp
  | anyvm => rw [ht] at h; exact absurd h0 h
  | default => rw [ht] at h; simp only [Covers] at h; rw [h] at h0; simp [Dom0] at h0
  | dispvm => rw [ht] at h; simp only [Covers] at h; rw [h] at h0; simp [Dom0] at h0
  | name s =>
    rw [ht] at h
    refine Or.inr (Or.inr (Or.inl ⟨s, rfl, ?_⟩))
    rcases h with h | h
    · exact Or.inl h.1
    · exact Or.inr h.2
  | typeVM v =>
    rw [ht] at h
    obtain ⟨d, hd, hv⟩ := h
    exact Or.inr (Or.inr (Or.inr ⟨v, d, Or.inl ⟨rfl, hv⟩, hd⟩))
  | tagVM v =>
    rw [ht] at h
    obtain ⟨d, hd, hv⟩ := h
    exact Or.inr (Or.inr (Or.inr ⟨v, d, Or.inr ⟨rfl, hv⟩, hd⟩))
  | dispvmTemplate v =>
    rw [ht] at h
    rcases h with ⟨w, hw, _⟩ | ⟨hw, _⟩ <;> rw [hw] at h0 <;> simp [Dom0, Token.str] at h0
  | dispvmTag v =>
    rw [ht] at h
    obtain ⟨w, d, hw | ⟨hw, _⟩, _⟩ := h <;> rw [hw] at h0 <;> simp [Dom0, Token.str] at h0

/-! ## C08 names and UUIDs -/

/-- `name` and `uuid` designate the same domain consistently: both keys have its entry, the
entry carries that UUID, no other name has this UUID, and dom0 (and only dom0) has the
all-zero UUID. -/
structure SameInBothWays (info : Info) (name uuid : Str) : Prop where
  entry : ∃ d, info.get? name = some d ∧ info.get? (c!"uuid:" ++ uuid) = some d ∧
    d.uuid = some uuid
  plain : ¬ IsUuid name
  unique : ∀ other, ¬ IsUuid other → HasUuid info other uuid → other = name
  dom0 : Dom0 name ↔ Dom0 (c!"uuid:" ++ uuid)
  notKeyword : name.head? ≠ some '@'

theorem SameInBothWays.sameDomain_left {info : Info} {n u : Str} (h : SameInBothWays info n u)
    (s : Str) : SameDomain info s n ↔ SameDomain info s (c!"uuid:" ++ u) := by
  obtain ⟨d, hd, hdu, hu⟩ := h.entry
  have hU : IsUuid (c!"uuid:" ++ u) := ⟨u, rfl⟩
  unfold SameDomain
  constructor
  · rintro (rfl | ⟨v, rfl, hb, d', hd', hv⟩ | ⟨v, hv, _⟩)
    · exact Or.inr (Or.inr ⟨u, rfl, h.plain, d, hd, hu⟩)
    · rw [hd] at hd'; cases hd'
      rw [hu] at hv; cases hv
      exact Or.inl rfl
    · exact absurd ⟨v, hv⟩ h.plain
  · rintro (rfl | ⟨v, _, hb, _⟩ | ⟨v, hv, hs, d', hd', hv'⟩)
    · exact Or.inr (Or.inl ⟨u, rfl, h.plain, d, hd, hu⟩)
    · exact absurd hU hb
    · have : u = v := by simpa using hv
      subst this
      exact Or.inl (h.unique s hs ⟨d', hd', hv'⟩)

theorem sameDomain_comm (info : Info) (a b : Str) : SameDomain info a b ↔ SameDomain info b a := by
  unfold SameDomain
  rw [eq_comm]
  exact or_congr_right or_comm

theorem matchStrings_eq_of {info : Info} {a b a' b' : Str}
    (h : SameDomain info a b ↔ SameDomain info a' b') :
    matchStrings info a b = matchStrings info a' b' := by
  rw [Bool.eq_iff_iff, matchStrings_iff, matchStrings_iff, h]

theorem isDom0_eq_of {a b : Str} (h : Dom0 a ↔ Dom0 b) : isDom0 a = isDom0 b := by
  rw [Bool.eq_iff_iff, isDom0_iff, isDom0_iff, h]

/-- **C08.** Whether a token of the policy matches does not depend on whether the caller
designated the domain (or the template of a disposable) by name or by UUID. -/
theorem C08_request_by_name_or_uuid (info : Info) (hn : OrdinaryNames info) (n u : Str)
    (h : SameInBothWays info n u) (source : Option Str) (t : Token)
    (ht : ∃ ctx text, TokenText ctx text t) :
    t.matches info source (.name n) = t.matches info source (.name (c!"uuid:" ++ u)) ∧
    t.matches info source (.dispvmTemplate n) =
      t.matches info source (.dispvmTemplate (c!"uuid:" ++ u)) := by
  obtain ⟨d, hd, hdu, hu⟩ := h.entry
  constructor
  · cases t with
    | wildcard => rfl
    | adminvm => simp only [Token.matches, Token.str, isDom0_eq_of h.dom0]
    | anyvm => simp only [Token.matches, Token.str, isDom0_eq_of h.dom0]
    | typeVM v => simp only [Token.matches, Token.str, hd, hdu]
    | tagVM v => simp only [Token.matches, Token.str, hd, hdu]
    | dispvm =>
      simp only [Token.matches, Token.str, Except.ok.injEq]
      have h1 : (c!"@dispvm" == n) = false := by
        rw [beq_eq_false_iff_ne]; rintro rfl; exact h.notKeyword rfl
      rw [h1]; simp
    | default =>
      simp only [Token.matches, Token.str]
      rw [matchStrings_eq_of (h.sameDomain_left _)]
    | name s =>
      simp only [Token.matches, Token.str]
      rw [isDom0_eq_of h.dom0, matchStrings_eq_of (h.sameDomain_left _)]
    | dispvmTemplate v => rfl
    | dispvmTag v => rfl
  · have hf : ∀ k : Str, isDom0 (c!"@dispvm:" ++ k) = false := by
      intro k; rw [isDom0_false_iff]; simp [Dom0]
    have hk : ∀ k : Str, info.get? (c!"@dispvm:" ++ k) = none := by
      intro k
      cases hg : info.get? (c!"@dispvm:" ++ k) with
      | none => rfl
      | some d => exact absurd rfl (hn _ _ hg).2.1
    have hms : ∀ s k : Str, s ≠ c!"@dispvm:" ++ k →
        matchStrings info s (c!"@dispvm:" ++ k) = false := by
      intro s k hs
      rw [matchStrings_false_iff]
      rintro (h | ⟨v, _, _, d, hd, _⟩ | ⟨v, hv, _⟩)
      · exact hs h
      · rw [hk] at hd; simp at hd
      · simp at hv
    cases t with
    | wildcard => rfl
    | adminvm => simp only [Token.matches, Token.str, hf]
    | anyvm => simp only [Token.matches, Token.str, hf]
    | typeVM v => simp only [Token.matches, Token.str, hk]
    | tagVM v => simp only [Token.matches, Token.str, hk]
    | dispvm => simp [Token.matches, Token.str]
    | default =>
      simp only [Token.matches, Token.str]
      rw [hms _ _ (by simp), hms _ _ (by simp)]
    | name s =>
      have hs : ∀ k, s ≠ c!"@dispvm:" ++ k := by
        obtain ⟨ctx, text, ht⟩ := ht
        cases ht with
        | name h1 h2 => rintro k rfl; exact h1.2 rfl
      simp only [Token.matches, Token.str, hf]
      rw [hms _ _ (hs _), hms _ _ (hs _)]
    | dispvmTemplate v =>
      simp only [Token.matches, templateMatches]
      rw [matchStrings_eq_of (h.sameDomain_left _)]
    | dispvmTag v =>
      simp only [Token.matches, requestedTemplate, templateHasTag, hd, hdu]

/-- **C08.** The same for the rule's side: a rule naming a domain and a rule giving its UUID
match the same designations. -/
theorem C08_rule_by_name_or_uuid (info : Info) (n u : Str) (h : SameInBothWays info n u)
    (source : Option Str) (o : Token) :
    (Token.name n).matches info source o = (Token.name (c!"uuid:" ++ u)).matches info source o ∧
    (∀ w, (Token.dispvmTemplate n).matches info source (.dispvmTemplate w) =
      (Token.dispvmTemplate (c!"uuid:" ++ u)).matches info source (.dispvmTemplate w)) := by
  constructor
  · simp only [Token.matches]
    rw [isDom0_eq_of h.dom0]
    rw [matchStrings_eq_of (a := n) (b := o.str) (a' := c!"uuid:" ++ u) (b' := o.str)]
    rw [sameDomain_comm, h.sameDomain_left, sameDomain_comm]
  · intro w
    simp only [Token.matches, templateMatches]
    rw [matchStrings_eq_of]
    rw [sameDomain_comm, h.sameDomain_left, sameDomain_comm]

/-- The rules of a policy all come from policy text. -/
def Parsed (rules : List Rule) : Prop :=
  ∀ r ∈ rules, (∃ ctx s, TokenText ctx s r.source) ∧ (∃ ctx s, TokenText ctx s r.target)

theorem getDispvmTemplate_source {info : Info} {n u : Str} (h : SameInBothWays info n u) :
    getDispvmTemplate info n = getDispvmTemplate info (c!"uuid:" ++ u) := by
  obtain ⟨d, hd, hdu, _⟩ := h.entry
  simp only [getDispvmTemplate, hd, hdu]

theorem matches_source_arg {info : Info} {n u : Str} (h : SameInBothWays info n u) (t o : Token) :
    t.matches info (some n) o = t.matches info (some (c!"uuid:" ++ u)) o := by
  cases t with
  | dispvmTemplate v =>
    simp only [Token.matches, templateMatches]
    cases o <;> simp only [getDispvmTemplate_source h]
  | dispvmTag v =>
    simp only [Token.matches]
    cases o <;> simp only [requestedTemplate, getDispvmTemplate_source h]
  | _ => rfl

/-- **C08.** Which rule decides a request is the same whether the target is given by name or
by UUID, and whether the source is. -/
theorem C08_same_deciding_rule (rules : List Rule) (hp : Parsed rules) (req : Request)
    (hn : OrdinaryNames req.info) (n u : Str) (h : SameInBothWays req.info n u) :
    findMatchingRule { req with target := .name n } rules =
      findMatchingRule { req with target := .name (c!"uuid:" ++ u) } rules ∧
    findMatchingRule { req with source := n } rules =
      findMatchingRule { req with source := c!"uuid:" ++ u } rules := by
  induction rules with
  | nil => exact ⟨rfl, rfl⟩
  | cons r rs ih =>
    obtain ⟨i1, i2⟩ := ih (fun x hx => hp x (by simp [hx]))
    obtain ⟨hs, ht⟩ := hp r (by simp)
    simp only [findMatchingRule]
    constructor
    · have : r.isMatch { req with target := .name n } =
          r.isMatch { req with target := .name (c!"uuid:" ++ u) } := by
        simp only [Rule.isMatch, Rule.isMatchButTarget,
          (C08_request_by_name_or_uuid req.info hn n u h (some req.source) r.target ht).1]
      rw [this, i1]
    · have : r.isMatch { req with source := n } =
          r.isMatch { req with source := c!"uuid:" ++ u } := by
        simp only [Rule.isMatch, Rule.isMatchButTarget,
          (C08_request_by_name_or_uuid req.info hn n u h none r.source hs).1,
          matches_source_arg h]
      rw [this, i2]

/-! The hypothesis holds in every state built from a sane answer of qubesd. -/

/-- What qubesd sends: distinct ordinary names, distinct UUIDs, the all-zero UUID exactly for
dom0. -/
structure GoodJson (json : List (Str × Dom)) : Prop where
  names : (json.map Prod.fst).Nodup
  ordinary : ∀ x ∈ json, x.1 ≠ [] ∧ x.1.head? ≠ some '@' ∧ x.1 ≠ c!"*" ∧ ¬ IsUuid x.1
  uuids : ∀ x ∈ json, ∀ y ∈ json, x.2.uuid ≠ none → x.2.uuid = y.2.uuid → x.1 = y.1
  dom0 : ∀ x ∈ json, x.2.uuid ≠ none →
    (x.1 = c!"dom0" ↔ x.2.uuid = some c!"00000000-0000-0000-0000-000000000000")

theorem get?_set (info : Info) (k k' : Str) (d : Dom) :
    (info.set k d).get? k' = if k = k' then some d else info.get? k' := by
  induction info with
  | nil => simp [Info.set, Info.get?]
  | cons x xs ih =>
    obtain ⟨a, e⟩ := x
    by_cases h : a = k
    · subst h
      by_cases h' : a = k' <;> simp [Info.set, Info.get?, h']
    · by_cases h' : a = k'
      · subst h'
        simp [Info.set, Info.get?, h, Ne.symm h]
      · simp [Info.set, Info.get?, h, h', ih]

theorem get?_mem {info : Info} {k : Str} {d : Dom} (h : info.get? k = some d) : (k, d) ∈ info := by
  induction info with
  | nil => simp [Info.get?] at h
  | cons x xs ih =>
    obtain ⟨a, e⟩ := x
    simp only [Info.get?] at h
    split_ifs at h with h1
    · cases h; subst h1; simp
    · exact List.mem_cons_of_mem _ (ih h)

theorem get?_of_mem {info : Info} (hn : (info.map Prod.fst).Nodup) {k : Str} {d : Dom}
    (h : (k, d) ∈ info) : info.get? k = some d := by
  induction info with
  | nil => simp at h
  | cons x xs ih =>
    obtain ⟨a, e⟩ := x
    simp only [List.map_cons, List.nodup_cons] at hn
    rcases List.mem_cons.1 h with h | h
    · cases h; simp [Info.get?]
    · have : a ≠ k := by
        rintro rfl
        exact hn.1 (List.mem_map.2 ⟨(a, d), h, rfl⟩)
      simp [Info.get?, this, ih hn.2 h]

theorem addUuidKeys_none {a : Str} {e : Dom} (h : e.uuid = none) (xs : List (Str × Dom))
    (acc : Info) :
    addUuidKeys ((a, e) :: xs) acc = addUuidKeys xs (acc.set a { e with name := a }) := by
  rw [addUuidKeys]; split
  · rename_i h'; rw [h] at h'; cases h'
  · rfl

theorem addUuidKeys_some {a u : Str} {e : Dom} (h : e.uuid = some u) (xs : List (Str × Dom))
    (acc : Info) :
    addUuidKeys ((a, e) :: xs) acc = addUuidKeys xs
      ((acc.set a { e with name := a }).set (c!"uuid:" ++ u) { e with name := a }) := by
  rw [addUuidKeys]; split
  · rename_i h'; rw [h] at h'; cases h'; rfl
  · rename_i h'; rw [h] at h'; cases h'

theorem addUuidKeys_get_name (l : List (Str × Dom)) (hl : (l.map Prod.fst).Nodup)
    (acc : Info) (k : Str) (hk : ¬ IsUuid k) :
    (∀ d, (k, d) ∈ l → (addUuidKeys l acc).get? k = some { d with name := k }) ∧
    (k ∉ l.map Prod.fst → (addUuidKeys l acc).get? k = acc.get? k) := by
  induction l generalizing acc with
  | nil => simp [addUuidKeys]
  | cons x xs ih =>
    obtain ⟨a, e⟩ := x
    simp only [List.map_cons, List.nodup_cons] at hl
    -- the accumulator after this entry
    obtain ⟨acc', hacc, hget⟩ : ∃ acc', addUuidKeys ((a, e) :: xs) acc = addUuidKeys xs acc' ∧
        acc'.get? k = if a = k then some { e with name := a } else acc.get? k := by
      rcases Option.eq_none_or_eq_some e.uuid with hu | ⟨u, hu⟩
      · exact ⟨_, addUuidKeys_none hu _ _, get?_set _ _ _ _⟩
      · refine ⟨_, addUuidKeys_some hu _ _, ?_⟩
        rw [get?_set, if_neg (by rintro rfl; exact hk ⟨u, rfl⟩), get?_set]
    rw [hacc]
    obtain ⟨i1, i2⟩ := ih hl.2 acc'
    constructor
    · intro d hd
      rcases List.mem_cons.1 hd with hd | hd
      · cases hd
        rw [i2 hl.1, hget]; simp
      · exact i1 d hd
    · intro hk'
      simp only [List.map_cons, List.mem_cons, not_or] at hk'
      rw [i2 hk'.2, hget, if_neg (Ne.symm hk'.1)]

theorem addUuidKeys_get_uuid (l : List (Str × Dom)) (hl : ∀ x ∈ l, ¬ IsUuid x.1)
    (hu : ∀ x ∈ l, ∀ y ∈ l, x.2.uuid ≠ none → x.2.uuid = y.2.uuid → x.1 = y.1)
    (hn : (l.map Prod.fst).Nodup) (acc : Info) (u : Str) :
    (∀ k d, (k, d) ∈ l → d.uuid = some u →
      (addUuidKeys l acc).get? (c!"uuid:" ++ u) = some { d with name := k }) ∧
    ((∀ x ∈ l, x.2.uuid ≠ some u) →
      (addUuidKeys l acc).get? (c!"uuid:" ++ u) = acc.get? (c!"uuid:" ++ u)) := by
  induction l generalizing acc with
  | nil => simp [addUuidKeys]
  | cons x xs ih =>
    obtain ⟨a, e⟩ := x
    simp only [List.map_cons, List.nodup_cons] at hn
    have ha : a ≠ c!"uuid:" ++ u := by
      intro h; exact hl (a, e) (by simp) ⟨u, h⟩
    obtain ⟨acc', hacc, hget⟩ : ∃ acc', addUuidKeys ((a, e) :: xs) acc = addUuidKeys xs acc' ∧
        acc'.get? (c!"uuid:" ++ u) =
          if e.uuid = some u then some { e with name := a } else acc.get? (c!"uuid:" ++ u) := by
      rcases Option.eq_none_or_eq_some e.uuid with hu' | ⟨u', hu'⟩
      · exact ⟨_, addUuidKeys_none hu' _ _, by rw [get?_set, if_neg ha, if_neg (by simp [hu'])]⟩
      · refine ⟨_, addUuidKeys_some hu' _ _, ?_⟩
        rw [get?_set, get?_set, if_neg ha]
        by_cases h : u' = u
        · subst h; rw [if_pos rfl, if_pos hu']
        · rw [if_neg (by simpa using h), if_neg (by simpa [hu'] using h)]
    rw [hacc]
    obtain ⟨i1, i2⟩ := ih (fun x hx => hl x (by simp [hx]))
      (fun x hx y hy => hu x (by simp [hx]) y (by simp [hy])) hn.2 acc'
    constructor
    · intro k d hd hdu
      rcases List.mem_cons.1 hd with hd' | hd'
      · cases hd'
        rw [i2, hget, if_pos hdu]
        intro x hx hxu
        have := hu x (by simp [hx]) (a, e) (by simp) (by simp [hxu]) (by rw [hxu, hdu])
        exact hn.1 (List.mem_map.2 ⟨x, hx, this⟩)
      · exact i1 k d hd' hdu
    · intro h
      rw [i2 (fun x hx => h x (by simp [hx])), hget, if_neg (h (a, e) (by simp))]

/-- **C08.** Every domain qubesd reports satisfies the hypothesis of the theorems above, and
the names are ordinary. -/
theorem C08_system_info_consistent (json : List (Str × Dom)) (h : GoodJson json) :
    (∀ n d u, (n, d) ∈ json → d.uuid = some u → SameInBothWays (getSystemInfo json) n u) ∧
    OrdinaryNames (getSystemInfo json) := by
  have hl : ∀ x ∈ json, ¬ IsUuid x.1 := fun x hx => (h.ordinary x hx).2.2.2
  have key : ∀ k d, (getSystemInfo json).get? k = some d →
      (¬ IsUuid k → ∃ d', (k, d') ∈ json ∧ d = { d' with name := k }) := by
    intro k d hd hk
    obtain ⟨i1, i2⟩ := addUuidKeys_get_name json h.names json k hk
    by_cases hm : k ∈ json.map Prod.fst
    · obtain ⟨⟨k', d'⟩, hx, rfl⟩ := List.mem_map.1 hm
      refine ⟨d', hx, ?_⟩
      have := i1 d' hx
      unfold getSystemInfo at hd
      rw [this] at hd
      exact (Option.some.inj hd).symm
    · have := i2 hm
      unfold getSystemInfo at hd
      rw [this] at hd
      exact absurd (List.mem_map.2 ⟨_, get?_mem hd, rfl⟩) hm
  constructor
  · intro n d u hm hu
    have hp : ¬ IsUuid n := hl _ hm
    refine ⟨⟨{ d with name := n }, ?_, ?_, hu⟩, hp, ?_, ?_, (h.ordinary _ hm).2.1⟩
    · exact (addUuidKeys_get_name json h.names json n hp).1 d hm
    · exact (addUuidKeys_get_uuid json hl h.uuids h.names json u).1 n d hm hu
    · rintro other ho ⟨d2, hd2, hu2⟩
      obtain ⟨d', hd', rfl⟩ := key other d2 hd2 ho
      exact h.uuids _ hd' _ hm (by simpa using Option.ne_none_iff_exists'.2 ⟨u, hu2⟩)
        (hu2.trans hu.symm)
    · have := h.dom0 _ hm (by simp [hu])
      unfold Dom0
      simp only [hu, Option.some.injEq] at this
      constructor
      · rintro (h1 | h1 | h1)
        · rw [this.1 h1]; exact Or.inr (Or.inr rfl)
        · rw [h1] at hm; exact absurd rfl (h.ordinary _ hm).2.1
        · exact absurd ⟨_, h1⟩ hp
      · rintro (h1 | h1 | h1)
        · simp at h1
        · simp at h1
        · left; apply this.2; simpa using h1
  · intro k d hd
    by_cases hk : IsUuid k
    · obtain ⟨u, rfl⟩ := hk
      simp
    · obtain ⟨d', hd', _⟩ := key k d hd hk
      obtain ⟨h1, h2, h3, _⟩ := h.ordinary _ hd'
      exact ⟨h1, h2, h3⟩

/-- A concrete system state: dom0 and a qube, as `getSystemInfo` builds it. -/
def exJson : List (Str × Dom) :=
  [ (c!"dom0", { name := c!"dom0", uuid := some c!"00000000-0000-0000-0000-000000000000",
                 cls := c!"AdminVM", powerState := c!"Running" }),
    (c!"work", { name := c!"work", uuid := some c!"u1", tags := [c!"t1"], powerState := c!"Running",
                 defaultDispvm := some c!"dvm", guivm := some c!"dom0" }),
    (c!"vault", { name := c!"vault", uuid := some c!"u2", tags := [c!"t2"] }),
    (c!"dvm", { name := c!"dvm", uuid := some c!"u3", templateForDispvms := true,
                tags := [c!"web"] }) ]


def exInfo : Info := getSystemInfo exJson

instance (s : Str) : Decidable (IsUuid s) :=
  decidable_of_iff (startsWith c!"uuid:" s = true) (startsWith_uuid_iff s)

theorem exJson_good : GoodJson exJson := by
  exact ⟨by decide, by decide, by decide, by decide⟩

example : SameInBothWays exInfo c!"vault" c!"u2" :=
  (C08_system_info_consistent exJson exJson_good).1 _ _ _ (by simp [exJson]; rfl) rfl

theorem exInfo_ordinary : OrdinaryNames exInfo :=
  (C08_system_info_consistent exJson exJson_good).2

end Qrexec
