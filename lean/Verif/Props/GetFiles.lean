import Verif.Props.AdminValid

/-! # C59: `policy.GetFiles` -/
namespace Qrexec
open Spec

namespace Spec

/-- How a file is shown: outside of the policy directory by its path, inside by its name without
the extension. -/
inductive ShownAs (c : AdminConf) : Path → Str → Prop
  | outside {p} : (¬ ∃ rest, p = c.policy ++ rest) → ShownAs c p (p.flatMap ('/' :: ·))
  | noExtension {rest p n} : p ++ [n] = c.policy ++ rest → '.' ∉ n → ShownAs c (p ++ [n]) n
  | extension {rest p stem ext} : p ++ [stem ++ '.' :: ext] = c.policy ++ rest → '.' ∉ ext →
      stem ≠ [] → ext ≠ [] → ShownAs c (p ++ [stem ++ '.' :: ext]) stem

/-- The rule is about the service: it names it, or is for all services. -/
def AboutService (service : Str) (r : Rule) : Prop :=
  r.service = some service ∨ r.service = none

/-- `l` lists what occurs in `xs`, each thing once, in the order of first occurrence: whatever
occurs in an initial part of `xs` is in the initial part of `l` of the same things. -/
structure FirstOccurrences {α : Type} (xs l : List α) : Prop where
  once : l.Nodup
  order : ∀ before after, xs = before ++ after →
    ∃ l1 l2, l = l1 ++ l2 ∧ ∀ x, x ∈ l1 ↔ x ∈ before

end Spec

theorem appendNew_spec : ∀ (xs l : List Str), l.Nodup →
    (appendNew l xs).Nodup ∧ ∀ before after, xs = before ++ after →
      ∃ l1 l2, appendNew l xs = l1 ++ l2 ∧ ∀ x, x ∈ l1 ↔ x ∈ l ∨ x ∈ before := by
  intro xs
  induction xs with
  | nil =>
    intro l hl
    refine ⟨hl, fun before after h => ⟨l, [], by simp [appendNew], ?_⟩⟩
    have : before = [] := by cases before <;> simp_all
    simp [this]
  | cons x xs ih =>
    intro l hl
    have hl' : (if l.contains x then l else l ++ [x]).Nodup := by
      by_cases hx : l.contains x = true
      · rw [if_pos hx]; exact hl
      · rw [if_neg hx]
        rw [List.nodup_append]
        refine ⟨hl, by simp, ?_⟩
        intro a ha b hb hab
        simp only [List.mem_singleton] at hb
        subst hb; subst hab
        exact hx (by simpa using ha)
    have hmem : ∀ y, y ∈ (if l.contains x then l else l ++ [x]) ↔ y ∈ l ∨ y = x := by
      intro y
      by_cases hx : l.contains x = true
      · rw [if_pos hx]
        simp only [List.contains_iff_mem] at hx
        constructor
        · exact Or.inl
        · rintro (h | rfl)
          · exact h
          · exact hx
      · rw [if_neg hx]; simp
    obtain ⟨h1, h2⟩ := ih _ hl'
    refine ⟨h1, ?_⟩
    intro before after hb
    cases before with
    | nil =>
      obtain ⟨l1, l2, h3, h4⟩ := h2 [] xs rfl
      have : ∃ t, appendNew l (x :: xs) = l ++ t := by
        have key : ∀ (ys k : List Str), ∃ t, appendNew k ys = k ++ t := by
          intro ys
          induction ys with
          | nil => intro k; exact ⟨[], by simp [appendNew]⟩
          | cons y ys ih2 =>
            intro k
            obtain ⟨t, ht⟩ := ih2 (if k.contains y then k else k ++ [y])
            rw [appendNew, ht]
            by_cases hy : k.contains y = true
            · rw [if_pos hy]; exact ⟨t, rfl⟩
            · rw [if_neg hy]; exact ⟨[y] ++ t, by simp⟩
        exact key _ _
      obtain ⟨t, ht⟩ := this
      exact ⟨l, t, ht, by simp⟩
    | cons b bs =>
      simp only [List.cons_append, List.cons.injEq] at hb
      obtain ⟨rfl, hb⟩ := hb
      obtain ⟨l1, l2, h3, h4⟩ := h2 bs after hb
      refine ⟨l1, l2, h3, fun y => ?_⟩
      rw [h4, hmem]
      simp only [List.mem_cons]
      tauto

theorem shownFile_of {c : AdminConf} {p : Path} {n : Str} (h : ShownAs c p n) : shownFile c p = n := by
  unfold shownFile
  cases h with
  | outside h =>
    rw [if_neg]
    intro hp
    obtain ⟨t, ht⟩ := List.isPrefixOf_iff_prefix.1 hp
    exact h ⟨t, ht.symm⟩
  | @noExtension rest p n h hd =>
    rw [if_pos (List.isPrefixOf_iff_prefix.2 ⟨rest, h.symm⟩)]
    have : fileName (p ++ [n]) = n := by simp [fileName]
    rw [this]
    unfold pathStem
    cases hs : splitOnce '.' n.reverse with
    | none => rfl
    | some x =>
      obtain ⟨a, b⟩ := x
      have := (splitOnce_eq_some.1 hs).1
      exact absurd (by rw [← List.mem_reverse, this]; simp) hd
  | extension h hd h1 h2 =>
    rename_i rest p ext
    generalize n = stem at *
    rw [if_pos (List.isPrefixOf_iff_prefix.2 ⟨rest, h.symm⟩)]
    have : fileName (p ++ [stem ++ '.' :: ext]) = stem ++ '.' :: ext := by simp [fileName]
    rw [this]
    unfold pathStem
    have hr : (stem ++ '.' :: ext).reverse = ext.reverse ++ '.' :: stem.reverse := by simp
    rw [hr, splitOnce_append (by simpa using hd)]
    cases ext with
    | nil => exact absurd rfl h2
    | cons e es =>
      cases stem with
      | nil => exact absurd rfl h1
      | cons s ss => simp

/-- **C59.** `policy.GetFiles` changes nothing; it answers the files of the rules of the loaded
policy that are about the service, each once, in the order of their first such rule. -/
theorem C59_answer (h : Host) (c : AdminConf) (d d' : Disk) (s : Str) (r : Option Bytes)
    (hr : (Call.getFiles s).run h c d = (d', .ok r)) :
    d' = d ∧ ∃ rules names : List _, filePolicy (d.fs h) c.legacy [c.policy] c.depth = .ok rules ∧
      r = some (names.flatMap (· ++ c!"\n")) ∧
      ∃ about : List Rule, about.Sublist rules ∧
        (∀ q ∈ rules, q ∈ about ↔ AboutService s q) ∧
        FirstOccurrences (about.map fun q => shownFile c q.filepath) names := by
  obtain ⟨ws, hp, hw⟩ := handleAdmin_ok.1 hr
  rw [plan_getFiles, ite_error_ok, noneGiven_ok, locked_ok] at hp
  obtain ⟨_, _, _, hp⟩ := hp
  unfold adminGetFiles at hp
  split at hp
  · cases hp
  rw [ite_error_ok] at hp
  obtain ⟨_, hp⟩ := hp
  cases hf : filePolicy (d.fs h) c.legacy [c.policy] c.depth with
  | error e => rw [hf] at hp; cases hp
  | ok rules =>
    rw [hf] at hp
    simp only [Except.ok.injEq, Prod.mk.injEq] at hp
    obtain ⟨rfl, rfl⟩ := hp
    simp only [runWrites, Prod.mk.injEq, and_true] at hw
    obtain ⟨h1, h2⟩ := appendNew_spec
      ((findRulesForService rules (Call.getFiles s).arg).map fun r => shownFile c r.filepath) [] (by simp)
    refine ⟨hw.symm, rules, _, rfl, rfl, findRulesForService rules (Call.getFiles s).arg, List.filter_sublist, ?_, h1, ?_⟩
    · intro q hq
      simp only [findRulesForService, List.mem_filter, hq, true_and, AboutService, Bool.or_eq_true, beq_iff_eq,
        Option.isNone_iff_eq_none, Call.arg]
      tauto
    · intro before after hb
      obtain ⟨l1, l2, h3, h4⟩ := h2 before after hb
      exact ⟨l1, l2, h3, fun x => by rw [h4]; simp⟩

/-- **C59.** A request with a service name that is empty or has other characters than those of
service names (or a `+`) is refused. -/
theorem C59_refused (h : Host) (c : AdminConf) (d : Disk) (s : Str)
    (hs : s = [] ∨ ∃ ch ∈ s, ¬ NameChar ch ∨ ch = '+') (hdir : d.entries (d.resolve c.policy) ≠ none) :
    (Call.getFiles s).run h c d = (d, .error .protocol) := by
  have : adminPlan h c d (Call.getFiles s).service (Call.getFiles s).arg (Call.getFiles s).payload =
      .error .protocol := by
    rw [plan_getFiles]
    split
    · rfl
    · have hl : (d.entries (d.resolve c.policy)).isSome = true := by
        cases he : d.entries (d.resolve c.policy) with
        | none => exact absurd he hdir
        | some _ => rfl
      show noneGiven [] (locked c d (adminGetFiles h c d s)) = _
      unfold noneGiven locked
      rw [if_pos (show ([] : Str).isEmpty = true from rfl), if_pos hl]
      unfold adminGetFiles
      rcases hs with rfl | ⟨ch, hm, hch⟩
      · rfl
      · split
        · rfl
        · rw [if_pos]
          simp only [Bool.not_eq_true', List.all_eq_false]
          refine ⟨ch, hm, ?_⟩
          rcases hch with hch | rfl
          · rw [← nameChar_iff] at hch
            simp [hch]
          · simp
  unfold Call.run handleAdmin
  rw [this]

/-- **C59.** Files of the policy directory and of its `include` directory, and other files, are
shown like this. -/
theorem C59_shown (c : AdminConf) (p : Path) (n : Str) (h : ShownAs c p n) : shownFile c p = n :=
  shownFile_of h

/-- Two policy files with rules of the service, one without. -/
def diskC : Disk := exampleDisk
  [([c!"p", c!"10-a.policy"], c!"x * @anyvm @anyvm deny\ns * @anyvm @anyvm deny"),
   ([c!"p", c!"20-b.policy"], c!"x * @anyvm @anyvm deny"),
   ([c!"p", c!"30-c.policy"], c!"* * @anyvm @anyvm deny")]
  [([c!"p"], [c!"30-c.policy", c!"10-a.policy", c!"20-b.policy"]), ([c!"l"], [])]

example : ((Call.getFiles c!"s").run exampleHost exampleConf diskC).2 =
    .ok (some c!"10-a\n30-c\n") := by rfl
example : ShownAs exampleConf [c!"p", c!"10-a.policy"] c!"10-a" :=
  .extension (p := [c!"p"]) (ext := c!"policy") (rest := [c!"10-a.policy"])
    rfl (by decide) (by decide : c!"10-a" ≠ []) (by decide)
example : ShownAs exampleConf [c!"p", c!"include", c!"x"] c!"x" :=
  .noExtension (p := [c!"p", c!"include"]) (rest := [c!"include", c!"x"]) rfl (by decide)
example : ShownAs exampleConf [c!"l", c!"s"] c!"/l/s" :=
  .outside (by rintro ⟨rest, h⟩; simp [exampleConf] at h)
example : (Call.getFiles c!"s+a").run exampleHost exampleConf diskC = (diskC, .error .protocol) :=
  C59_refused _ _ _ _ (Or.inr ⟨'+', by decide, Or.inr rfl⟩) (by decide)

/-- A policy file and an included file of the same name. -/
def diskD : Disk := exampleDisk
  [([c!"p", c!"a.policy"], c!"x * @anyvm @anyvm deny"),
   ([c!"p", c!"b.policy"], c!"!include include/a"),
   ([c!"p", c!"include", c!"a"], c!"s * @anyvm @anyvm deny")]
  [([c!"p"], [c!"a.policy", c!"b.policy", c!"include"]), ([c!"p", c!"include"], [c!"a"]),
   ([c!"l"], [])]

/-- The answer does not identify the files: a rule of the included file `include/a` is reported as
`a`, as are the rules of `a.policy`, which has nothing about this service. -/
theorem C59_ambiguous :
    ((Call.getFiles c!"s").run exampleHost exampleConf diskD).2 = .ok (some c!"a\n") ∧
    ((Call.getFiles c!"x").run exampleHost exampleConf diskD).2 = .ok (some c!"a\n") := by
  exact ⟨rfl, rfl⟩

end Qrexec
