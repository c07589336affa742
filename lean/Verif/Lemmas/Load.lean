import Verif.Spec.Load
import Verif.Lemmas.RuleLine

namespace Qrexec
open Spec

theorem splitWs_append_aux (n : Nat) : ∀ a b : Str, a.length ≤ n →
    (∀ c, b.head? = some c → isSpace c = true) →
    splitWs (a ++ b) = splitWs a ++ splitWs b := by
  intro a b _ hb
  have key : ∀ {a ws}, Words a ws → Words (a ++ b) (ws ++ splitWs b) := by
    intro a ws h
    induction h with
    | none hg => exact words_gap_append (words_splitWs b) hg
    | @word gap w rest ws h0 hne hw hr _ ih =>
      have := Words.word (gap := gap) (w := w) (rest := rest ++ b) h0 hne hw (by
        intro c hc
        cases rest with
        | nil => exact hb c (by simpa using hc)
        | cons a as => simp at hc; subst hc; exact hr _ rfl) ih
      simpa using this
  exact splitWs_of_words (key (words_splitWs a))

theorem splitWs_append {a b : Str} (hb : ∀ c, b.head? = some c → isSpace c = true) :
    splitWs (a ++ b) = splitWs a ++ splitWs b := splitWs_append_aux a.length a b (Nat.le_refl _) hb

theorem startsWith_word {pat w rest : Str} (hp : ∀ c ∈ pat, isSpace c = false)
    (hr : ∀ c, rest.head? = some c → isSpace c = true) :
    startsWith pat (w ++ rest) = startsWith pat w := by
  unfold startsWith
  induction pat generalizing w with
  | nil => simp
  | cons p ps ih =>
    cases w with
    | nil =>
      cases rest with
      | nil => simp
      | cons r rs =>
        have h1 := hr r rfl
        have h2 := hp p (by simp)
        have : p ≠ r := by rintro rfl; rw [h1] at h2; simp at h2
        simp [List.isPrefixOf, this]
    | cons c cs =>
      have := ih (w := cs) fun d hd => hp d (by simp [hd])
      simp [List.isPrefixOf, this]

theorem replaceAux_append {pat rep : Str} (hp : ∀ c ∈ pat, isSpace c = false) {rest : Str}
    (hr : ∀ c, rest.head? = some c → isSpace c = true) :
    ∀ (w : Str) (k : Nat), k ≤ w.length →
      replaceAux pat rep k (w ++ rest) = replaceAux pat rep k w ++ replaceAux pat rep 0 rest := by
  intro w
  induction w with
  | nil => intro k hk; simp at hk; subst hk; simp [replaceAux]
  | cons c cs ih =>
    intro k hk
    cases k with
    | succ k =>
      simp only [List.cons_append, replaceAux]
      exact ih k (by simpa using hk)
    | zero =>
      simp only [List.cons_append, replaceAux]
      have h1 := startsWith_word (w := c :: cs) hp hr
      rw [List.cons_append] at h1
      rw [h1]
      by_cases hs : startsWith pat (c :: cs) = true
      · rw [if_pos hs, if_pos hs]
        obtain ⟨t, ht⟩ := startsWith_iff.1 hs
        have hl : pat.length - 1 ≤ cs.length := by
          have := congrArg List.length ht
          simp at this
          omega
        rw [ih _ hl, List.append_assoc]
      · rw [if_neg hs, if_neg hs, ih 0 (Nat.zero_le _)]
        rfl

theorem compatSubst_append {w rest : Str} (hr : ∀ c, rest.head? = some c → isSpace c = true) :
    compatSubst (w ++ rest) = compatSubst w ++ compatSubst rest := by
  unfold compatSubst
  rw [replaceAux_append (by decide) hr w 0 (Nat.zero_le _), List.map_append]

theorem startsWith_include_space {c : Char} {cs : Str} (hc : isSpace c = true) :
    startsWith c!"$include:" (c :: cs) = false := by
  have : c ≠ '$' := by rintro rfl; exact absurd hc (by decide)
  simp [startsWith, List.isPrefixOf, Ne.symm this]

theorem compatSubst_space {c : Char} {cs : Str} (hc : isSpace c = true) :
    compatSubst (c :: cs) = c :: compatSubst cs := by
  have h1 : c ≠ '$' := by rintro rfl; exact absurd hc (by decide)
  have h2 : c ≠ ',' := by rintro rfl; exact absurd hc (by decide)
  unfold compatSubst
  rw [replaceAux, startsWith_include_space hc]
  simp [h1, h2]

theorem compatSubst_gap {gap rest : Str} (hg : ∀ c ∈ gap, isSpace c = true) :
    compatSubst (gap ++ rest) = gap ++ compatSubst rest := by
  induction gap with
  | nil => rfl
  | cons c cs ih =>
    rw [List.cons_append, compatSubst_space (hg c (by simp)), ih fun d hd => hg d (by simp [hd])]
    rfl

theorem compatSubst_head {rest : Str} (hr : ∀ c, rest.head? = some c → isSpace c = true) :
    ∀ c, (compatSubst rest).head? = some c → isSpace c = true := by
  cases rest with
  | nil => intro c hc; simp [compatSubst, replaceAux] at hc
  | cons r rs =>
    intro c hc
    rw [compatSubst_space (hr r rfl)] at hc
    simp at hc; subst hc; exact hr r rfl

theorem splitWs_compatSubst {line : Str} {ws : List Str} (h : Words line ws) :
    splitWs (compatSubst line) = ws.flatMap fun w => splitWs (compatSubst w) := by
  induction h with
  | @none gap hg =>
    have := compatSubst_gap (rest := []) hg
    simp only [List.append_nil] at this
    rw [this]
    have h2 := splitWs_of_words (Words.none hg)
    simpa [compatSubst, replaceAux] using h2
  | @word gap w rest ws hg hne hw hr _ ih =>
    rw [compatSubst_gap hg, compatSubst_append hr]
    have hx : Words (gap ++ (compatSubst w ++ compatSubst rest))
        (splitWs (compatSubst w ++ compatSubst rest)) :=
      words_gap_append (words_splitWs _) hg
    rw [splitWs_of_words hx, splitWs_append (compatSubst_head hr), ih, List.flatMap_cons]

theorem compatSubst_ne_nil {w : Str} (h : w ≠ []) : compatSubst w ≠ [] := by
  cases w with
  | nil => exact absurd rfl h
  | cons c cs =>
    unfold compatSubst
    rw [replaceAux]
    split_ifs <;> simp

/-- A stripped line starts with its first word. -/
theorem strip_first_word {s w : Str} {ws : List Str} (h : splitWs s = w :: ws) :
    ∃ rest, strip s = w ++ rest ∧ (∀ c, rest.head? = some c → isSpace c = true) ∧ w ≠ [] := by
  have hs : splitWs (strip s) = w :: ws := by rw [splitWs_strip, h]
  obtain ⟨_, _, _, _, _, hh⟩ := strip_spec s
  have hw := words_iff.2 hs
  generalize hl : w :: ws = l at hw
  generalize hx : strip s = t at hw hh
  cases hw with
  | none => simp at hl
  | @word gap w' rest ws' hg hne hww hr hrest =>
    simp only [List.cons.injEq] at hl
    obtain ⟨rfl, rfl⟩ := hl
    cases gap with
    | nil => exact ⟨rest, rfl, hr, hne⟩
    | cons g gs =>
      have h1 := hh g (by simp)
      rw [hg g (by simp)] at h1
      simp at h1

theorem startsWith_char_append {c : Char} {w rest : Str} (h : w ≠ []) :
    startsWith [c] (w ++ rest) = startsWith [c] w := by
  cases w with
  | nil => exact absurd rfl h
  | cons a as => simp [startsWith, List.isPrefixOf]

theorem isCommentLine_strip (l : Str) :
    isCommentLine (strip l) = match splitWs l with
      | [] => true
      | w :: _ => w.head? == some '#' := by
  rcases strip_head l with ⟨h1, h2⟩ | ⟨c, cs, w, ws, h1, h2⟩
  · rw [h1, h2]; rfl
  · rw [h1, h2]; rfl

theorem ruleFromLine_words {a b : Str} (h : splitWs a = splitWs b) (p : List Str) :
    ruleFromLine a p = ruleFromLine b p := by unfold ruleFromLine; rw [h]

theorem ruleFromLineService_words {a b : Str} (h : splitWs a = splitWs b) (s r : Option Str)
    (p : List Str) : ruleFromLineService s r a p = ruleFromLineService s r b p := by
  unfold ruleFromLineService; rw [h]

theorem startsBang_strip (l : Str) :
    startsWith c!"!" (strip l) = match splitWs l with
      | [] => false
      | w :: _ => startsWith c!"!" w := by
  rcases strip_head l with ⟨h1, h2⟩ | ⟨c, cs, w, ws, h1, h2⟩
  · rw [h1, h2]; rfl
  · rw [h1, h2]; simp [startsWith, List.isPrefixOf]

theorem startsBang_subst (l : Str) :
    startsWith c!"!" (compatSubst (strip l)) = match splitWs l with
      | [] => false
      | w :: _ => startsWith c!"!" (compatSubst w) := by
  cases h : splitWs l with
  | nil =>
    rcases strip_head l with ⟨h1, h2⟩ | ⟨c, cs, w, ws, h1, h2⟩
    · rw [h1]; rfl
    · rw [h] at h2; simp at h2
  | cons w ws =>
    obtain ⟨rest, h1, h2, h3⟩ := strip_first_word h
    simp only
    rw [h1, compatSubst_append h2, startsWith_char_append (compatSubst_ne_nil h3)]

/-- A line of a policy file matters only through its words. -/
theorem fileLine_words {env : LoadEnv} {n : Nat} {load : Opened → Except Err (List Rule)}
    {path : Path} {a b : Str} (h : splitWs a = splitWs b) :
    fileLine env n load path a = fileLine env n load path b := by
  unfold fileLine
  simp only [isCommentLine_strip, startsBang_strip, splitWs_strip, h]
  rw [ruleFromLine_words (a := strip a) (b := strip b) (by rw [splitWs_strip, splitWs_strip, h])]

theorem serviceLine_words {op : Str → Except Err Opened}
    {load : Option Str → Option Str → Opened → Except Err (List Rule)} {s r : Option Str}
    {path : Path} {a b : Str} (h : splitWs a = splitWs b) :
    serviceLine op load s r path a = serviceLine op load s r path b := by
  have hab : splitWs (compatSubst (strip a)) = splitWs (compatSubst (strip b)) := by
    rw [splitWs_compatSubst (words_splitWs (strip a)),
      splitWs_compatSubst (words_splitWs (strip b)), splitWs_strip, splitWs_strip, h]
  unfold serviceLine
  simp only [isCommentLine_strip, startsBang_subst, hab, h]
  rw [ruleFromLineService_words hab]

theorem fileLine_comment {env : LoadEnv} {n : Nat} {load : Opened → Except Err (List Rule)}
    {path : Path} {a : Str} (h : isCommentLine (strip a) = true) :
    fileLine env n load path a = .ok [] := by
  unfold fileLine; simp only [h, if_true]

theorem serviceLine_comment {op : Str → Except Err Opened}
    {load : Option Str → Option Str → Opened → Except Err (List Rule)} {s r : Option Str}
    {path : Path} {a : Str} (h : isCommentLine (strip a) = true) :
    serviceLine op load s r path a = .ok [] := by
  unfold serviceLine; simp only [h, if_true]

theorem comment_of_words_nil {l : Str} (h : Words l []) : isCommentLine (strip l) = true := by
  rw [isCommentLine_strip, splitWs_of_words h]

theorem comment_of_hash {l w : Str} {ws : List Str} (h : Words l (('#' :: w) :: ws)) :
    isCommentLine (strip l) = true := by
  rw [isCommentLine_strip, splitWs_of_words h]; rfl

theorem collectRules_skip {α : Type} {f : α → Except Err (List Rule)} {x : α} {xs : List α}
    (h : f x = .ok []) : collectRules f (x :: xs) = collectRules f xs := by
  simp only [collectRules, h, ok_bind, List.nil_append]
  cases collectRules f xs <;> rfl

/-- The rules a list of lines gives depend only on its content. -/
theorem collect_content {f g : Str → Except Err (List Rule)}
    (hf : ∀ l, isCommentLine (strip l) = true → f l = .ok [])
    (hg : ∀ l, isCommentLine (strip l) = true → g l = .ok [])
    (hfg : ∀ a b, splitWs a = splitWs b → f a = g b)
    {l1 l2 : List Str} {c : List (List Str)} (h1 : Content l1 c) (h2 : Content l2 c) :
    collectRules f l1 = collectRules g l2 := by
  induction h1 generalizing l2 with
  | nil =>
    generalize hc : ([] : List (List Str)) = c at h2
    induction h2 with
    | nil => rfl
    | blank hw _ ih => rw [collectRules_skip (hg _ (comment_of_words_nil hw))]; exact ih hc
    | comment hw _ ih => rw [collectRules_skip (hg _ (comment_of_hash hw))]; exact ih hc
    | line => simp at hc
  | blank hw _ ih => rw [collectRules_skip (hf _ (comment_of_words_nil hw))]; exact ih h2
  | comment hw _ ih => rw [collectRules_skip (hf _ (comment_of_hash hw))]; exact ih h2
  | @line l w ws ls c hw hh hrest ih =>
    generalize hc : (w :: ws) :: c = c' at h2
    induction h2 with
    | nil => simp at hc
    | blank hw _ ih => rw [collectRules_skip (hg _ (comment_of_words_nil hw))]; exact ih hc
    | comment hw _ ih => rw [collectRules_skip (hg _ (comment_of_hash hw))]; exact ih hc
    | @line l' w' ws' ls' c' hw' hh' hrest' _ =>
      simp only [List.cons.injEq] at hc
      obtain ⟨⟨rfl, rfl⟩, rfl⟩ := hc
      simp only [collectRules]
      rw [hfg l l' (by rw [splitWs_of_words hw, splitWs_of_words hw']), ih hrest']

theorem content_exists (ls : List Str) : ∃ c, Content ls c := by
  induction ls with
  | nil => exact ⟨[], .nil⟩
  | cons l ls ih =>
    obtain ⟨c, hc⟩ := ih
    have hw := words_splitWs l
    cases h : splitWs l with
    | nil => rw [h] at hw; exact ⟨c, .blank hw hc⟩
    | cons w ws =>
      rw [h] at hw
      by_cases hh : w.head? = some '#'
      · cases w with
        | nil => simp at hh
        | cons a as =>
          simp at hh; subst hh
          exact ⟨c, .comment hw hc⟩
      · exact ⟨_, .line hw hh hc⟩

end Qrexec
