import Verif.Spec.RuleLine
import Verif.Lemmas.Str
import Verif.Lemmas.Exc
import Mathlib.Tactic.SplitIfs
import Mathlib.Tactic.Cases

namespace Qrexec
open Spec

/-- What `splitWsAux` returns with a pending word. -/
theorem splitWsAux_acc (s acc : Str) (hacc : acc ≠ []) :
    splitWsAux s acc =
      (acc.reverse ++ s.takeWhile (fun c => !isSpace c)) ::
        splitWsAux (s.dropWhile (fun c => !isSpace c)) [] := by
  induction s generalizing acc with
  | nil => cases acc <;> simp_all [splitWsAux]
  | cons c cs ih =>
    by_cases hc : isSpace c = true
    · cases acc with
      | nil => exact absurd rfl hacc
      | cons a as => simp [splitWsAux, hc]
    · have hc' : isSpace c = false := by simpa using hc
      rw [splitWsAux, if_neg hc, ih _ (by simp)]
      simp [hc']

theorem splitWsAux_space {c : Char} {cs : Str} (hc : isSpace c = true) :
    splitWsAux (c :: cs) [] = splitWsAux cs [] := by
  simp [splitWsAux, hc]

theorem splitWsAux_gap {gap rest : Str} (h : ∀ c ∈ gap, isSpace c = true) :
    splitWsAux (gap ++ rest) [] = splitWsAux rest [] := by
  induction gap with
  | nil => rfl
  | cons c cs ih =>
    rw [List.cons_append, splitWsAux_space (h c (by simp)), ih fun d hd => h d (by simp [hd])]

theorem takeWhile_word {w rest : Str} (hw : ∀ c ∈ w, isSpace c = false)
    (hr : ∀ c, rest.head? = some c → isSpace c = true) :
    (w ++ rest).takeWhile (fun c => !isSpace c) = w ∧
    (w ++ rest).dropWhile (fun c => !isSpace c) = rest := by
  induction w with
  | nil =>
    cases rest with
    | nil => simp
    | cons c cs => simp [hr c rfl]
  | cons c cs ih =>
    have := ih fun d hd => hw d (by simp [hd])
    simp [hw c (by simp), this]

theorem splitWs_word {w rest : Str} (hne : w ≠ []) (hw : ∀ c ∈ w, isSpace c = false)
    (hr : ∀ c, rest.head? = some c → isSpace c = true) :
    splitWsAux (w ++ rest) [] = w :: splitWsAux rest [] := by
  cases w with
  | nil => exact absurd rfl hne
  | cons c cs =>
    have hc : isSpace c = false := hw c (by simp)
    have h := takeWhile_word (w := cs) (fun d hd => hw d (by simp [hd])) hr
    rw [List.cons_append, splitWsAux, if_neg (by simp [hc]), splitWsAux_acc _ _ (by simp),
      h.1, h.2]
    rfl

theorem splitWs_of_words {line : Str} {ws : List Str} (h : Words line ws) :
    splitWs line = ws := by
  unfold splitWs
  induction h with
  | none hg =>
    have := splitWsAux_gap (rest := []) hg
    simpa [splitWsAux] using this
  | word hg hne hw hr _ ih => rw [splitWsAux_gap hg, splitWs_word hne hw hr, ih]

theorem dropWhile_head {p : Char → Bool} {s : Str} {c : Char}
    (h : (s.dropWhile p).head? = some c) : p c = false := by
  induction s with
  | nil => simp at h
  | cons a as ih =>
    by_cases ha : p a = true
    · rw [List.dropWhile_cons_of_pos ha] at h; exact ih h
    · rw [List.dropWhile_cons_of_neg ha] at h
      simp only [List.head?_cons, Option.some.injEq] at h
      subst h; simpa using ha

theorem mem_takeWhile {p : Char → Bool} {s : Str} {c : Char} (h : c ∈ s.takeWhile p) :
    p c = true := by
  induction s with
  | nil => simp at h
  | cons a as ih =>
    by_cases ha : p a = true
    · rw [List.takeWhile_cons_of_pos ha] at h
      rcases List.mem_cons.1 h with rfl | h
      · exact ha
      · exact ih h
    · rw [List.takeWhile_cons_of_neg ha] at h; simp at h

theorem words_splitWs_aux (n : Nat) : ∀ line : Str, line.length ≤ n → Words line (splitWs line) := by
  induction n with
  | zero =>
    intro line h
    have : line = [] := List.length_eq_zero_iff.1 (Nat.le_zero.1 h)
    subst this
    exact Words.none (by simp)
  | succ n ih =>
    intro line h
    cases line with
    | nil => exact Words.none (by simp)
    | cons c cs =>
      by_cases hc : isSpace c = true
      · have hw := ih cs (by simpa using h)
        have hs : splitWs (c :: cs) = splitWs cs := splitWsAux_space hc
        rw [hs]
        cases hcs : splitWs cs with
        | nil =>
          rw [hcs] at hw
          cases hw with
          | none hg => exact Words.none (by simp [hc]; exact hg)
        | cons w ws =>
          rw [hcs] at hw
          generalize hx : w :: ws = l at hw
          cases hw with
          | none => simp at hx
          | @word gap _ rest _ hg hne hww hr hrest =>
            simp only [List.cons.injEq] at hx
            obtain ⟨rfl, rfl⟩ := hx
            exact Words.word (gap := c :: gap) (by
              intro d hd
              rcases List.mem_cons.1 hd with rfl | hd
              · exact hc
              · exact hg d hd) hne hww hr hrest
      · have hc' : isSpace c = false := by simpa using hc
        have hs : splitWs (c :: cs) =
            (c :: cs.takeWhile (fun c => !isSpace c)) ::
              splitWs (cs.dropWhile (fun c => !isSpace c)) := by
          unfold splitWs
          rw [splitWsAux, if_neg hc, splitWsAux_acc _ _ (by simp)]
          rfl
        rw [hs]
        have hlen : (cs.dropWhile (fun c => !isSpace c)).length ≤ n := by
          have h1 : (cs.dropWhile (fun c => !isSpace c)).length ≤ cs.length :=
            (List.dropWhile_suffix _).length_le
          simp at h
          omega
        have := Words.word (gap := []) (w := c :: cs.takeWhile (fun c => !isSpace c))
          (rest := cs.dropWhile (fun c => !isSpace c)) (by simp) (by simp)
          (by
            intro d hd
            rcases List.mem_cons.1 hd with rfl | hd
            · exact hc'
            · simpa using mem_takeWhile hd)
          (by
            intro d hd
            simpa using dropWhile_head hd)
          (ih _ hlen)
        simpa [List.takeWhile_append_dropWhile] using this

theorem words_splitWs (line : Str) : Words line (splitWs line) :=
  words_splitWs_aux line.length line (Nat.le_refl _)

theorem words_iff {line : Str} {ws : List Str} : Words line ws ↔ splitWs line = ws :=
  ⟨splitWs_of_words, fun h => h ▸ words_splitWs line⟩

/-! ### strip -/

theorem lstrip_spec (s : Str) : ∃ gap, (∀ c ∈ gap, isSpace c = true) ∧ s = gap ++ lstrip s := by
  refine ⟨s.takeWhile isSpace, fun c hc => mem_takeWhile hc, ?_⟩
  simp [lstrip, List.takeWhile_append_dropWhile]

theorem strip_spec (s : Str) : ∃ g1 g2, (∀ c ∈ g1, isSpace c = true) ∧
    (∀ c ∈ g2, isSpace c = true) ∧ s = g1 ++ (strip s ++ g2) ∧
    (∀ c, (strip s).head? = some c → isSpace c = false) := by
  obtain ⟨g1, h1, e1⟩ := lstrip_spec s
  obtain ⟨g2, h2, e2⟩ := lstrip_spec (lstrip s).reverse
  have e3 : lstrip s = strip s ++ g2.reverse := by
    have := congrArg List.reverse e2
    simpa [strip] using this
  refine ⟨g1, g2.reverse, h1, fun c hc => h2 c (by simpa using hc), ?_, ?_⟩
  · rw [← e3]; exact e1
  · intro c hc
    have : (lstrip s).head? = some c := by
      rw [e3]
      cases hs : strip s with
      | nil => rw [hs] at hc; simp at hc
      | cons a as => rw [hs] at hc; simpa using hc
    exact dropWhile_head this

theorem words_append_gap {s g : Str} {ws : List Str} (h : Words s ws)
    (hg : ∀ c ∈ g, isSpace c = true) : Words (s ++ g) ws := by
  induction h with
  | none h0 => exact Words.none (by
      intro c hc
      rcases List.mem_append.1 hc with h | h
      · exact h0 c h
      · exact hg c h)
  | @word gap w rest ws h0 hne hw hr _ ih =>
    have := Words.word (gap := gap) (w := w) (rest := rest ++ g) h0 hne hw (by
      intro c hc
      cases rest with
      | nil =>
        cases g with
        | nil => simp at hc
        | cons a as => simp at hc; subst hc; exact hg _ (by simp)
      | cons a as => simp at hc; subst hc; exact hr _ rfl) ih
    simpa using this

theorem words_gap_append {s g : Str} {ws : List Str} (h : Words s ws)
    (hg : ∀ c ∈ g, isSpace c = true) : Words (g ++ s) ws := by
  cases h with
  | none h0 => exact Words.none (by
      intro c hc
      rcases List.mem_append.1 hc with h | h
      · exact hg c h
      · exact h0 c h)
  | word h0 hne hww hr hrest =>
    rw [← List.append_assoc]
    exact Words.word (by
      intro c hc
      rcases List.mem_append.1 hc with h | h
      · exact hg c h
      · exact h0 c h) hne hww hr hrest

theorem splitWs_strip (s : Str) : splitWs (strip s) = splitWs s := by
  obtain ⟨g1, g2, h1, h2, e, _⟩ := strip_spec s
  have hw := words_gap_append (words_append_gap (words_splitWs (strip s)) h2) h1
  rw [← e] at hw
  exact (splitWs_of_words hw).symm

/-- The first character of a stripped line is that of its first word. -/
theorem strip_head (s : Str) :
    (strip s = [] ∧ splitWs s = []) ∨
    ∃ c cs w ws, strip s = c :: cs ∧ splitWs s = (c :: w) :: ws := by
  obtain ⟨_, _, _, _, _, hh⟩ := strip_spec s
  cases hs : strip s with
  | nil => left; exact ⟨rfl, by rw [← splitWs_strip, hs]; rfl⟩
  | cons c cs =>
    right
    have hc : isSpace c = false := hh c (by rw [hs]; rfl)
    refine ⟨c, cs, cs.takeWhile (fun c => !isSpace c),
      splitWs (cs.dropWhile (fun c => !isSpace c)), rfl, ?_⟩
    rw [← splitWs_strip, hs]
    unfold splitWs
    rw [splitWsAux, if_neg (by simp [hc]), splitWsAux_acc _ _ (by simp)]
    rfl

end Qrexec
