import Verif.Spec.Daemon
import Verif.Lemmas.Exec
import Verif.Lemmas.RuleLine
import Verif.Lemmas.Words
import Mathlib.Tactic.Tauto
import Mathlib.Tactic.SplitIfs

namespace Qrexec
open Spec

theorem splitOn_ne_nil (sep : Char) (s : Str) : splitOn sep s ≠ [] := by
  cases s with
  | nil => simp [splitOn]
  | cons c cs =>
    simp only [splitOn]
    split_ifs
    · simp
    · split <;> simp

theorem splitOn_not_mem {sep : Char} {s : Str} : ∀ w ∈ splitOn sep s, sep ∉ w := by
  induction s with
  | nil => simp [splitOn]
  | cons c cs ih =>
    by_cases hc : c = sep
    · simp only [splitOn, if_pos hc]
      intro w hw
      rcases List.mem_cons.1 hw with rfl | hw
      · simp
      · exact ih w hw
    · obtain ⟨w0, ws, h1, h2⟩ := splitOn_cons_ne (cs := cs) hc
      rw [h2]
      rw [h1] at ih
      intro w hw
      rcases List.mem_cons.1 hw with rfl | hw
      · simp only [List.mem_cons, not_or]
        exact ⟨Ne.symm hc, ih w0 (by simp)⟩
      · exact ih w (by simp [hw])

theorem joinWith_cons {sep : Char} {w : Str} {ws : List Str} (h : ws ≠ []) :
    joinWith sep (w :: ws) = w ++ sep :: joinWith sep ws := by
  cases ws with
  | nil => exact absurd rfl h
  | cons a as => rfl

theorem joinWith_splitOn (sep : Char) (s : Str) : joinWith sep (splitOn sep s) = s := by
  induction s with
  | nil => rfl
  | cons c cs ih =>
    by_cases hc : c = sep
    · simp only [splitOn, if_pos hc]
      rw [joinWith_cons (splitOn_ne_nil _ _), ih, hc]
      rfl
    · obtain ⟨w0, ws, h1, h2⟩ := splitOn_cons_ne (cs := cs) hc
      rw [h2]
      rw [h1] at ih
      rw [← ih]
      cases ws with
      | nil => rfl
      | cons a as => rfl

theorem splitOn_eq_iff {sep : Char} {s : Str} {ws : List Str} :
    splitOn sep s = ws ↔ ws ≠ [] ∧ s = joinWith sep ws ∧ ∀ w ∈ ws, sep ∉ w := by
  constructor
  · rintro rfl
    exact ⟨splitOn_ne_nil _ _, (joinWith_splitOn _ _).symm, splitOn_not_mem⟩
  · rintro ⟨h1, rfl, h2⟩
    exact splitOn_joinWith h1 h2

/-- One line of a request. -/
def fieldLine (f : Str × Str) : Wire := f.1 ++ '=' :: f.2

theorem fieldsText_eq (fs : List (Str × Str)) :
    fieldsText fs = fs.flatMap fun f => fieldLine f ++ c!"\n" := by
  unfold fieldsText fieldLine
  simp

theorem joinWith_lines_nil (fs : List (Str × Str)) (rest : List Wire) :
    joinWith '\n' (fs.map fieldLine ++ [] :: rest) =
      fieldsText fs ++ (if rest = [] then [] else '\n' :: joinWith '\n' rest) := by
  rw [fieldsText_eq]
  induction fs with
  | nil =>
    cases rest with
    | nil => rfl
    | cons a as => rfl
  | cons f fs ih =>
    rw [List.map_cons, List.cons_append, joinWith_cons (by simp), ih, List.flatMap_cons]
    simp

theorem joinWith_lines {fs : List (Str × Str)} (h : fs ≠ []) :
    joinWith '\n' (fs.map fieldLine) ++ c!"\n" = fieldsText fs := by
  rw [fieldsText_eq]
  induction fs with
  | nil => exact absurd rfl h
  | cons f fs ih =>
    cases fs with
    | nil => simp [joinWith]
    | cons g gs =>
      have ih := ih (by simp)
      rw [List.map_cons, joinWith_cons (by simp), List.flatMap_cons, ← ih]
      simp

theorem argGet_eq_find (args : List (Str × Str)) (k : Str) :
    argGet args k = (args.find? fun f => f.1 = k).map (·.2) := by
  induction args with
  | nil => rfl
  | cons f fs ih =>
    obtain ⟨a, b⟩ := f
    unfold argGet
    by_cases h : a = k
    · simp [h]
    · simp [h, ih]

theorem argGet_isSome {args : List (Str × Str)} {k : Str} :
    (argGet args k).isSome = true ↔ k ∈ args.map (·.1) := by
  induction args with
  | nil => simp [argGet]
  | cons f fs ih =>
    obtain ⟨a, b⟩ := f
    unfold argGet
    by_cases h : a = k
    · simp [h]
    · rw [if_neg h, ih]
      simp [Ne.symm h]

theorem argGet_eq_some {args : List (Str × Str)} (hn : (args.map (·.1)).Nodup) {k v : Str} :
    argGet args k = some v ↔ (k, v) ∈ args := by
  induction args with
  | nil => simp [argGet]
  | cons f fs ih =>
    obtain ⟨a, b⟩ := f
    simp only [List.map_cons, List.nodup_cons] at hn
    unfold argGet
    by_cases h : a = k
    · subst h
      rw [if_pos rfl]
      simp only [Option.some.injEq, List.mem_cons, Prod.mk.injEq, true_and]
      constructor
      · rintro rfl; exact Or.inl rfl
      · rintro (rfl | h)
        · rfl
        · exact absurd (List.mem_map.2 ⟨_, h, rfl⟩) hn.1
    · rw [if_neg h, ih hn.2]
      simp [Ne.symm h]

/-- The conditions on one field. -/
def FieldOk (f : Str × Str) : Prop :=
  f.1 ∈ allowedArguments ∧
  (f.1 = c!"assume_yes_for_ask" ∨ f.1 = c!"just_evaluate" → f.2 = c!"yes" ∨ f.2 = c!"no") ∧
  (∀ c ∈ f.2, c.toNat < 128) ∧ f.1.length + 1 + f.2.length ≤ 65536

theorem allowed_ascii {k : Str} (h : k ∈ allowedArguments) :
    (∀ c ∈ k, c.toNat < 128) ∧ '=' ∉ k ∧ '\n' ∉ k ∧ k ≠ [] := by
  have : ∀ k ∈ allowedArguments, (∀ c ∈ k, c.toNat < 128) ∧ '=' ∉ k ∧ '\n' ∉ k ∧ k ≠ [] := by
    decide
  exact this k h

theorem isAscii_iff {s : Wire} : isAscii s = true ↔ ∀ c ∈ s, c.toNat < 128 := by
  unfold isAscii; simp

theorem daemonArgs_iff (lines : List Wire) (acc args : List (Str × Str))
    (hacc : (acc.map (·.1)).Nodup) :
    daemonArgs lines acc = some args ↔ ∃ fs, args = acc ++ fs ∧
      (lines = fs.map fieldLine ∨ ∃ rest, lines = fs.map fieldLine ++ [] :: rest) ∧
      ((acc ++ fs).map (·.1)).Nodup ∧ ∀ f ∈ fs, FieldOk f := by
  induction lines generalizing acc with
  | nil =>
    constructor
    · intro h
      simp only [daemonArgs, Option.some.injEq] at h
      subst h
      exact ⟨[], by simp, Or.inl rfl, by simpa using hacc, by simp⟩
    · rintro ⟨fs, rfl, h, _, _⟩
      cases fs with
      | nil => simp [daemonArgs]
      | cons f fs => simp at h
  | cons line lines ih =>
    constructor
    · intro h
      rw [daemonArgs] at h
      split_ifs at h with h1 h2 h3
      · simp only [Option.some.injEq] at h
        subst h
        refine ⟨[], by simp, Or.inr ⟨lines, ?_⟩, by simpa using hacc, by simp⟩
        simp at h3
        simp [h3]
      · split at h
        · exact absurd h (by simp)
        · rename_i a v hs
          split_ifs at h with h4 h5 h6
          obtain ⟨hl, hna⟩ := splitOnce_eq_some.1 hs
          rw [argGet_isSome] at h4
          have hmem : a ∈ allowedArguments := by simpa using h5
          have hnd : ((acc ++ [(a, v)]).map (·.1)).Nodup := by
            simp only [List.map_append, List.map_cons, List.map_nil]
            rw [List.nodup_append]
            refine ⟨hacc, by simp, ?_⟩
            intro x hx y hy
            simp only [List.mem_singleton] at hy
            subst hy
            rintro rfl
            exact h4 hx
          obtain ⟨fs, rfl, hlines, hnd2, hok⟩ := (ih _ hnd).1 h
          refine ⟨(a, v) :: fs, by simp, ?_, by simpa using hnd2, ?_⟩
          · rcases hlines with hlines | ⟨rest, hlines⟩
            · exact Or.inl (by rw [List.map_cons, ← hlines, hl]; rfl)
            · exact Or.inr ⟨rest, by rw [List.map_cons, List.cons_append, ← hlines, hl]; rfl⟩
          · intro f hf
            rcases List.mem_cons.1 hf with rfl | hf
            · refine ⟨hmem, ?_, ?_, ?_⟩
              · intro hb
                simp only [Bool.and_eq_true, Bool.or_eq_true, beq_iff_eq, Bool.not_eq_true', not_and] at h6
                have := h6 hb
                rw [Bool.not_eq_false, Bool.or_eq_true, beq_iff_eq, beq_iff_eq] at this
                exact this
              · have h2' : isAscii line = true := by simpa using h2
                rw [isAscii_iff, hl] at h2'
                intro c hc
                exact h2' c (by simp [hc])
              · have h1' : line.length ≤ 65536 := by unfold streamLimit at h1; omega
                rw [hl] at h1'
                simp only [List.length_append, List.length_cons] at h1'
                simp only
                omega
            · exact hok f hf
    · rintro ⟨fs, rfl, hlines, hnd, hok⟩
      cases fs with
      | nil =>
        have : line = [] := by
          rcases hlines with h | ⟨rest, h⟩
          · simp at h
          · simp at h; exact h.1
        subst this
        simp [daemonArgs, isAscii]
      | cons f fs =>
        obtain ⟨a, v⟩ := f
        obtain ⟨hmem, hb, hasc, hlen⟩ := hok (a, v) (by simp)
        obtain ⟨ha1, ha2, ha3, ha4⟩ := allowed_ascii hmem
        have hline : line = fieldLine (a, v) ∧ (lines = fs.map fieldLine ∨
            ∃ rest, lines = fs.map fieldLine ++ [] :: rest) := by
          rcases hlines with h | ⟨rest, h⟩
          · simp only [List.map_cons, List.cons.injEq] at h
            exact ⟨h.1, Or.inl h.2⟩
          · simp only [List.map_cons, List.cons_append, List.cons.injEq] at h
            exact ⟨h.1, Or.inr ⟨rest, h.2⟩⟩
        obtain ⟨hl, hrest⟩ := hline
        have hl' : line = a ++ '=' :: v := hl
        have hna : a ∉ acc.map (·.1) := by
          simp only [List.map_append, List.map_cons] at hnd
          rw [List.nodup_append] at hnd
          intro hx
          exact hnd.2.2 a hx a (by simp) rfl
        rw [daemonArgs]
        have h1 : ¬ line.length > streamLimit := by
          rw [hl']
          simp only [List.length_append, List.length_cons, streamLimit]
          simp only at hlen
          omega
        have h2 : isAscii line = true := by
          rw [isAscii_iff, hl']
          intro c hc
          simp only [List.mem_append, List.mem_cons] at hc
          rcases hc with hc | hc | hc
          · exact ha1 c hc
          · subst hc; decide
          · exact hasc c hc
        have h3 : line.isEmpty = false := by rw [hl']; cases a <;> rfl
        have hs : splitOnce '=' line = some (a, v) := splitOnce_eq_some.2 ⟨hl', ha2⟩
        have h4 : (argGet acc a).isSome = false := by
          rw [Bool.eq_false_iff]
          rw [ne_eq, argGet_isSome]
          exact hna
        have h5 : allowedArguments.contains a = true := by simpa using hmem
        have h6 : ((a == c!"assume_yes_for_ask" || a == c!"just_evaluate") &&
            !(v == c!"yes" || v == c!"no")) = false := by
          rw [Bool.and_eq_false_iff]
          by_cases hx : a = c!"assume_yes_for_ask" ∨ a = c!"just_evaluate"
          · right
            rw [Bool.not_eq_false', Bool.or_eq_true, beq_iff_eq, beq_iff_eq]
            exact hb hx
          · left
            rw [Bool.or_eq_false_iff, beq_eq_false_iff_ne, beq_eq_false_iff_ne]
            exact not_or.1 hx
        rw [if_neg h1, h2, h3, hs]
        simp only [Bool.not_true, Bool.false_eq_true, if_false, h4, h5, h6]
        have hacc2 : ((acc ++ [(a, v)]).map (·.1)).Nodup := by
          have : acc ++ (a, v) :: fs = (acc ++ [(a, v)]) ++ fs := by simp
          rw [this, List.map_append] at hnd
          exact (List.nodup_append.1 hnd).1
        rw [ih _ hacc2]
        exact ⟨fs, by simp, hrest, by simpa using hnd, fun f hf => hok f (by simp [hf])⟩

/-- The lines of the stream are those of the fields exactly if the stream is their text. -/
theorem sends_iff {input : Wire} {fs : List (Str × Str)}
    (hok : ∀ f ∈ fs, '\n' ∉ f.1 ∧ '\n' ∉ f.2) :
    Sends input fs ↔ (splitOn '\n' input = fs.map fieldLine ∨
      ∃ rest, splitOn '\n' input = fs.map fieldLine ++ [] :: rest) := by
  have hl : ∀ w ∈ fs.map fieldLine, '\n' ∉ w := by
    intro w hw
    obtain ⟨f, hf, rfl⟩ := List.mem_map.1 hw
    unfold fieldLine
    simp only [List.mem_append, List.mem_cons, not_or]
    exact ⟨(hok f hf).1, by decide, (hok f hf).2⟩
  constructor
  · rintro (⟨rest, rfl⟩ | rfl | h)
    · right
      refine ⟨splitOn '\n' rest, ?_⟩
      rw [splitOn_eq_iff]
      refine ⟨by simp, ?_, ?_⟩
      · rw [joinWith_lines_nil, if_neg (splitOn_ne_nil _ _), joinWith_splitOn]
      · intro w hw
        rcases List.mem_append.1 hw with hw | hw
        · exact hl w hw
        · rcases List.mem_cons.1 hw with rfl | hw
          · simp
          · exact splitOn_not_mem w hw
    · right
      refine ⟨[], ?_⟩
      rw [splitOn_eq_iff]
      refine ⟨by simp, ?_, ?_⟩
      · rw [joinWith_lines_nil]; simp
      · intro w hw
        rcases List.mem_append.1 hw with hw | hw
        · exact hl w hw
        · simp at hw; subst hw; simp
    · left
      have hne : fs ≠ [] := by rintro rfl; simp [fieldsText] at h
      rw [← joinWith_lines hne] at h
      have h := List.append_cancel_right h
      rw [splitOn_eq_iff]
      exact ⟨by simpa using hne, h, hl⟩
  · rintro (h | ⟨rest, h⟩)
    · rw [splitOn_eq_iff] at h
      have hne : fs ≠ [] := by intro e; subst e; exact h.1 rfl
      refine Or.inr (Or.inr ?_)
      rw [← joinWith_lines hne, ← h.2.1]
    · rw [splitOn_eq_iff] at h
      rw [joinWith_lines_nil] at h
      by_cases hr : rest = []
      · subst hr
        exact Or.inr (Or.inl (by simpa using h.2.1))
      · rw [if_neg hr] at h
        exact Or.inl ⟨_, h.2.1⟩

theorem handleRequest_ne_nil {sys : Option Info} {policy : Except Err (List Rule)} {agent : Agent}
    {mode : Mode} {source target sa rs : Str} {evs : List Event}
    (h : handleRequest sys policy agent mode source target sa rs = (evs, .ok [])) : False := by
  rcases handleRequest_ok h with h | ⟨info, rules, req, res, _, _, _, _, hex⟩
  · exact absurd h (by decide)
  have key : ∀ (r : AllowRes) evs, execAllow mode r = (evs, .ok []) → False := by
    intro r evs h
    unfold execAllow at h
    by_cases hj : mode.justEvaluate = true
    · rw [if_pos hj] at h
      simp at h
    · rw [if_neg hj] at h
      simp only [Prod.mk.injEq] at h
      obtain ⟨fs, hfs, he⟩ := execute_ok h.2
      unfold answerText at he
      cases hfs <;> simp [joinWith] at he
  cases res with
  | allow r => exact key r _ hex
  | ask a =>
    rcases execAsk_ok hex with ⟨_, _, h3, _⟩ | ⟨t, evs', _, _, hex2⟩
    · exact absurd h3 (by decide)
    · exact key _ _ hex2

end Qrexec
