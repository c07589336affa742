import Verif.Lemmas.JsonStr
import Verif.Lemmas.Str

/-!
# `json.loads` and the grammar
-/
namespace Qrexec
open Spec

theorem jsonWs_iff (c : Char) : jsonWs c = true ↔ c = ' ' ∨ c = '\t' ∨ c = '\n' ∨ c = '\r' := by
  unfold jsonWs
  simp [or_assoc]

theorem skipWs_split (s : Str) : ∃ w, JsonWs w ∧ s = w ++ skipWs s := by
  refine ⟨s.takeWhile jsonWs, ?_, ?_⟩
  · intro c hc
    exact (jsonWs_iff c).1 (List.all_eq_true.1 (List.all_takeWhile ..) c hc)
  · unfold skipWs
    rw [List.takeWhile_append_dropWhile]

theorem skipWs_ws {w : Str} (hw : JsonWs w) (s : Str) : skipWs (w ++ s) = skipWs s := by
  induction w with
  | nil => rfl
  | cons c w ih =>
    have : jsonWs c = true := (jsonWs_iff c).2 (hw c (by simp))
    unfold skipWs at ih ⊢
    rw [List.cons_append, List.dropWhile_cons, this]
    simp only [if_true]
    exact ih (fun x hx => hw x (by simp [hx]))

theorem skipWs_ws_of {w : Str} (hw : JsonWs w) {c : Char} {s : Str} (hc : jsonWs c = false) : skipWs (w ++ c :: s) = c :: s := by
  rw [skipWs_ws hw, skipWs_of hc]

theorem numEnd_ws {w : Str} (hw : JsonWs w) {c : Char} {s : Str} (hc : c = ',' ∨ c = ']' ∨ c = '}') : NumEnd (w ++ c :: s) := by
  intro x t e
  cases w with
  | nil =>
    rw [List.nil_append] at e
    rw [← (List.cons.inj e).1]
    rcases hc with rfl | rfl | rfl <;> decide
  | cons y w =>
    rw [List.cons_append] at e
    rw [← (List.cons.inj e).1]
    rcases hw y (by simp) with rfl | rfl | rfl | rfl <;> decide

theorem numEnd_allWs {w : Str} (hw : JsonWs w) : NumEnd w := by
  intro x t e
  rcases hw x (by rw [e]; simp) with rfl | rfl | rfl | rfl <;> decide

/-! ## Atoms -/

theorem scanValue_atom {c : Char} {s : Str} (n : Nat) (h1 : c ≠ '"') (h2 : c ≠ '{') (h3 : c ≠ '[') :
    scanValue (n + 1) (c :: s) = scanAtom (c :: s) := by
  rw [scanValue]
  · intro r e; exact h1 (List.cons.inj e).1
  · intro r e; exact h2 (List.cons.inj e).1
  · intro r e; exact h3 (List.cons.inj e).1

theorem scanValue_nil (n : Nat) : scanValue (n + 1) [] = none := rfl

theorem startsWith_drop {p s : Str} (h : startsWith p s = true) : s = p ++ s.drop p.length := by
  obtain ⟨t, rfl⟩ := startsWith_iff.1 h
  rw [List.drop_left]

theorem atom_sound {s : Str} {v : Json} {r : Str} (h : scanAtom s = some (v, r)) : ∃ p, s = p ++ r ∧ JsonText p v := by
  unfold scanAtom at h
  by_cases h1 : startsWith c!"null" s = true
  · rw [if_pos h1] at h; cases h; exact ⟨_, startsWith_drop h1, .null⟩
  rw [if_neg h1] at h
  by_cases h2 : startsWith c!"true" s = true
  · rw [if_pos h2] at h; cases h; exact ⟨_, startsWith_drop h2, .true⟩
  rw [if_neg h2] at h
  by_cases h3 : startsWith c!"false" s = true
  · rw [if_pos h3] at h; cases h; exact ⟨_, startsWith_drop h3, .false⟩
  rw [if_neg h3] at h
  by_cases h4 : startsWith c!"NaN" s = true
  · rw [if_pos h4] at h; cases h; exact ⟨_, startsWith_drop h4, .num .nan⟩
  rw [if_neg h4] at h
  by_cases h5 : startsWith c!"Infinity" s = true
  · rw [if_pos h5] at h; cases h; exact ⟨_, startsWith_drop h5, .num .inf⟩
  rw [if_neg h5] at h
  by_cases h6 : startsWith c!"-Infinity" s = true
  · rw [if_pos h6] at h; cases h; exact ⟨_, startsWith_drop h6, .num .negInf⟩
  rw [if_neg h6] at h
  dsimp only at h
  by_cases h7 : startsWith c!"-" s = true
  · rw [if_pos h7] at h
    obtain ⟨t, rfl⟩ := startsWith_iff.1 h7
    have e1 : List.drop 1 (c!"-" ++ t) = t := rfl
    rw [e1] at h
    cases hn : numberLen t with
    | none => rw [hn] at h; cases h
    | some k =>
      rw [hn] at h
      have h : some (Json.num (List.take (1 + k) (c!"-" ++ t)), List.drop (1 + k) (c!"-" ++ t)) = some (v, r) := h
      cases h
      refine ⟨List.take (1 + k) (c!"-" ++ t), (List.take_append_drop ..).symm, ?_⟩
      have := number_sound hn
      rw [show List.take (1 + k) (c!"-" ++ t) = '-' :: t.take k by rw [Nat.add_comm]; rfl]
      generalize t.take k = q at this
      obtain ⟨ha, hb, hc⟩ := this
      exact .num (.neg ha hb hc)
  · rw [if_neg h7] at h
    rw [List.drop_zero] at h
    cases hn : numberLen s with
    | none => rw [hn] at h; cases h
    | some k =>
      rw [hn] at h
      have h : some (Json.num (List.take (0 + k) s), List.drop (0 + k) s) = some (v, r) := h
      rw [Nat.zero_add] at h
      cases h
      refine ⟨List.take k s, (List.take_append_drop ..).symm, ?_⟩
      have := number_sound hn
      generalize s.take k = q at this
      obtain ⟨ha, hb, hc⟩ := this
      exact .num (.pos ha hb hc)

theorem startsWith_head {c d : Char} {p s : Str} (h : c ≠ d) : startsWith (d :: p) (c :: s) = false := by
  rw [startsWith_false]
  rintro ⟨t, e⟩
  exact h (List.cons.inj e).1

theorem atom_number {u : Str} (hu : UNum u) (rest : Str) (hr : NumEnd rest) :
    scanAtom (u ++ rest) = some (.num u, rest) := by
  obtain ⟨c, t, e, hc⟩ := hu.head
  have ne : ∀ d, jsonDigit d = false → c ≠ d := by rintro d hd rfl; rw [hc] at hd; cases hd
  have hn := number_complete hu rest hr
  unfold scanAtom
  have st : ∀ d p, jsonDigit d = false → startsWith (d :: p) (u ++ rest) = false := by
    intro d p hd
    rw [e, List.cons_append]
    exact startsWith_head (ne d hd)
  rw [if_neg (by rw [st]; simp; decide), if_neg (by rw [st]; simp; decide), if_neg (by rw [st]; simp; decide),
    if_neg (by rw [st]; simp; decide), if_neg (by rw [st]; simp; decide), if_neg (by rw [st]; simp; decide)]
  have h7 : ¬ startsWith c!"-" (u ++ rest) = true := by rw [st]; simp; decide
  dsimp only
  rw [if_neg h7, List.drop_zero, hn]
  dsimp only
  rw [Nat.zero_add, List.take_left, List.drop_left]

theorem atom_negative {u : Str} (hu : UNum u) (rest : Str) (hr : NumEnd rest) :
    scanAtom ('-' :: (u ++ rest)) = some (.num ('-' :: u), rest) := by
  obtain ⟨c, t, e, hc⟩ := hu.head
  have hn := number_complete hu rest hr
  unfold scanAtom
  have st : ∀ d p, '-' ≠ d → startsWith (d :: p) ('-' :: (u ++ rest)) = false := fun d p hd => startsWith_head hd
  have h6 : startsWith c!"-Infinity" ('-' :: (u ++ rest)) = false := by
    rw [startsWith_false]
    rintro ⟨q, hq⟩
    rw [e] at hq
    have : c = 'I' := (List.cons.inj (List.cons.inj hq).2).1
    rw [this] at hc
    revert hc; decide
  rw [if_neg (by rw [st]; simp; decide), if_neg (by rw [st]; simp; decide), if_neg (by rw [st]; simp; decide),
    if_neg (by rw [st]; simp; decide), if_neg (by rw [st]; simp; decide), if_neg (by rw [h6]; simp)]
  have h7 : startsWith c!"-" ('-' :: (u ++ rest)) = true := startsWith_iff.2 ⟨_, rfl⟩
  dsimp only
  rw [if_pos h7, List.drop_succ_cons, List.drop_zero, hn]
  dsimp only
  rw [Nat.add_comm, List.take_succ_cons, List.drop_succ_cons, List.take_left, List.drop_left]

/-! ## Values: the scanner accepts only texts of the grammar -/

theorem values_sound (n : Nat) :
    (∀ s v r, scanValue n s = some (v, r) → ∃ p, s = p ++ r ∧ JsonText p v) ∧
    (∀ s l r, scanElems n s = some (l, r) → ∃ p, s = p ++ ']' :: r ∧ JsonItems p l) ∧
    (∀ s l r, scanMembers n s = some (l, r) → ∃ p, '"' :: s = p ++ '}' :: r ∧ Spec.JsonPairs p l) := by
  induction n with
  | zero =>
    refine ⟨?_, ?_, ?_⟩
    · intro s v r h; rw [scanValue] at h; cases h
    · intro s v r h; rw [scanElems] at h; cases h
    · intro s v r h; rw [scanMembers] at h; cases h
  | succ n ih =>
    obtain ⟨ih1, ih2, ih3⟩ := ih
    refine ⟨?_, ?_, ?_⟩
    · intro s v r h
      cases s with
      | nil => rw [scanValue_nil] at h; cases h
      | cons c t =>
      by_cases c1 : c = '"'
      · subst c1
        rw [scanValue] at h
        obtain ⟨⟨a, b⟩, hs, e⟩ := Option.map_eq_some_iff.1 h
        obtain ⟨rfl, rfl⟩ := Prod.mk.inj e
        obtain ⟨x, rfl, hx⟩ := string_sound hs
        exact ⟨'"' :: (x ++ c!"\""), by simp, .str hx⟩
      by_cases c2 : c = '{'
      · subst c2
        rw [scanValue] at h
        obtain ⟨w, hw, ew⟩ := skipWs_split t
        split at h
        · rename_i r' hr
          cases h
          rw [hr] at ew
          exact ⟨'{' :: (w ++ c!"}"), by rw [ew]; simp, .obj0 hw⟩
        · rename_i r' hr
          obtain ⟨⟨a, b⟩, hs, e⟩ := Option.map_eq_some_iff.1 h
          obtain ⟨rfl, rfl⟩ := Prod.mk.inj e
          obtain ⟨p, hp, hq⟩ := ih3 _ _ _ hs
          rw [hr, hp] at ew
          exact ⟨'{' :: (w ++ (p ++ c!"}")), by rw [ew]; simp, .obj hw hq⟩
        · cases h
      by_cases c3 : c = '['
      · subst c3
        rw [scanValue] at h
        obtain ⟨w, hw, ew⟩ := skipWs_split t
        split at h
        · rename_i r' hr
          cases h
          rw [hr] at ew
          exact ⟨'[' :: (w ++ c!"]"), by rw [ew]; simp, .arr0 hw⟩
        · obtain ⟨⟨a, b⟩, hs, e⟩ := Option.map_eq_some_iff.1 h
          obtain ⟨rfl, rfl⟩ := Prod.mk.inj e
          obtain ⟨p, hp, hq⟩ := ih2 _ _ _ hs
          rw [hp] at ew
          exact ⟨'[' :: (w ++ (p ++ c!"]")), by rw [ew]; simp, .arr hw hq⟩
      rw [scanValue_atom n c1 c2 c3] at h
      exact atom_sound h
    · intro s l r h
      rw [scanElems] at h
      cases hv : scanValue n s with
      | none => rw [hv] at h; cases h
      | some q =>
        obtain ⟨v, r1⟩ := q
        rw [hv] at h
        obtain ⟨p, rfl, hp⟩ := ih1 _ _ _ hv
        obtain ⟨w, hw, ew⟩ := skipWs_split r1
        dsimp only at h
        split at h
        · rename_i r' hr
          cases h
          rw [hr] at ew
          exact ⟨p ++ w, by rw [ew]; simp, .one hp hw⟩
        · rename_i r' hr
          obtain ⟨⟨a, b⟩, hs, e⟩ := Option.map_eq_some_iff.1 h
          obtain ⟨rfl, rfl⟩ := Prod.mk.inj e
          obtain ⟨p', hp', hq⟩ := ih2 _ _ _ hs
          obtain ⟨w', hw', ew'⟩ := skipWs_split r'
          rw [hp'] at ew'
          rw [hr, ew'] at ew
          exact ⟨p ++ (w ++ ',' :: (w' ++ p')), by rw [ew]; simp, .more hp hw hw' hq⟩
        · cases h
    · intro s l r h
      rw [scanMembers] at h
      cases hk : scanString s with
      | none => rw [hk] at h; cases h
      | some q =>
        obtain ⟨k, r0⟩ := q
        rw [hk] at h
        obtain ⟨x, rfl, hx⟩ := string_sound hk
        obtain ⟨w, hw, ew⟩ := skipWs_split r0
        dsimp only at h
        split at h
        · rename_i r1 hr
          rw [hr] at ew
          obtain ⟨w1, hw1, ew1⟩ := skipWs_split r1
          cases hv : scanValue n (skipWs r1) with
          | none => rw [hv] at h; cases h
          | some q =>
            obtain ⟨v, r2⟩ := q
            rw [hv] at h
            obtain ⟨t, ht, hp⟩ := ih1 _ _ _ hv
            rw [ht] at ew1
            obtain ⟨w2, hw2, ew2⟩ := skipWs_split r2
            dsimp only at h
            split at h
            · rename_i r3 hr3
              cases h
              rw [hr3] at ew2
              exact ⟨_, by rw [ew, ew1, ew2]; simp, .one hx hw hw1 hp hw2⟩
            · rename_i r3 hr3
              rw [hr3] at ew2
              obtain ⟨w3, hw3, ew3⟩ := skipWs_split r3
              split at h
              · rename_i r4 hr4
                rw [hr4] at ew3
                obtain ⟨⟨a, b⟩, hs, e⟩ := Option.map_eq_some_iff.1 h
                obtain ⟨rfl, rfl⟩ := Prod.mk.inj e
                obtain ⟨p', hp', hq⟩ := ih3 _ _ _ hs
                rw [hp'] at ew3
                exact ⟨_, by rw [ew, ew1, ew2, ew3]; simp, .more hx hw hw1 hp hw2 hw3 hq⟩
              · cases h
            · cases h
        · cases h

/-! ## Values: every text of the grammar is accepted -/

theorem json_head {t : Str} {v : Json} (h : JsonText t v) : ∃ c u, t = c :: u ∧ jsonWs c = false ∧ c ≠ ']' := by
  have dig : ∀ c ∈ c!"0123456789", jsonWs c = false ∧ c ≠ ']' := by decide
  cases h with
  | null => exact ⟨_, _, rfl, by decide⟩
  | true => exact ⟨_, _, rfl, by decide⟩
  | false => exact ⟨_, _, rfl, by decide⟩
  | str => exact ⟨_, _, rfl, by decide⟩
  | arr0 => exact ⟨_, _, rfl, by decide⟩
  | arr => exact ⟨_, _, rfl, by decide⟩
  | obj0 => exact ⟨_, _, rfl, by decide⟩
  | obj => exact ⟨_, _, rfl, by decide⟩
  | num h =>
    cases h with
    | pos ha hb hc =>
      obtain ⟨c, u, e, hd⟩ := (UNum.mk ha hb hc).head
      exact ⟨c, u, e, dig c ((jsonDigit_iff c).1 hd)⟩
    | neg => exact ⟨_, _, rfl, by decide⟩
    | nan => exact ⟨_, _, rfl, by decide⟩
    | inf => exact ⟨_, _, rfl, by decide⟩
    | negInf => exact ⟨_, _, rfl, by decide⟩

theorem items_head {t : Str} {l : List Json} (h : JsonItems t l) : ∃ c u, t = c :: u ∧ jsonWs c = false ∧ c ≠ ']' := by
  cases h with
  | one hv =>
    obtain ⟨c, u, rfl, h⟩ := json_head hv
    exact ⟨c, _, rfl, h⟩
  | more hv =>
    obtain ⟨c, u, rfl, h⟩ := json_head hv
    exact ⟨c, _, rfl, h⟩

theorem pairsHead {t : Str} {l : List (Str × Json)} (h : Spec.JsonPairs t l) : ∃ u, t = '"' :: u := by
  cases h with
  | one => exact ⟨_, rfl⟩
  | more => exact ⟨_, rfl⟩

theorem scanValue_arr {n : Nat} {r : Str} {c : Char} {u : Str} (hs : skipWs r = c :: u) (hc : c ≠ ']') :
    scanValue (n + 1) ('[' :: r) = (scanElems n (c :: u)).map fun p => (.arr p.1, p.2) := by
  rw [scanValue, hs]
  split
  · rename_i e; exact absurd (List.cons.inj e).1 hc
  · rfl

theorem scanValue_obj {n : Nat} {r : Str} {u : Str} (hs : skipWs r = '"' :: u) :
    scanValue (n + 1) ('{' :: r) = (scanMembers n u).map fun p => (.obj p.1, p.2) := by
  rw [scanValue, hs]
  rfl

theorem values_complete (n : Nat) :
    (∀ t v rest, JsonText t v → t.length ≤ n → (∀ x, v = .num x → NumEnd rest) → scanValue n (t ++ rest) = some (v, rest)) ∧
    (∀ t l rest, JsonItems t l → t.length + 1 ≤ n → scanElems n (t ++ ']' :: rest) = some (l, rest)) ∧
    (∀ t l rest, Spec.JsonPairs ('"' :: t) l → t.length ≤ n → scanMembers n (t ++ '}' :: rest) = some (l, rest)) := by
  induction n with
  | zero =>
    refine ⟨?_, ?_, ?_⟩
    · intro t v rest h hl
      obtain ⟨c, u, rfl, -⟩ := json_head h
      simp at hl
    · intro t v rest h hl; omega
    · intro t v rest h hl
      have : t = [] := List.length_eq_zero_iff.1 (by omega)
      subst this
      generalize hz : ['"'] = z at h
      cases h <;> simp at hz
  | succ n ih =>
    obtain ⟨ih1, ih2, ih3⟩ := ih
    refine ⟨?_, ?_, ?_⟩
    · intro t v rest h hl hr
      cases h with
      | null => rfl
      | true => rfl
      | false => rfl
      | @num t h =>
        have hr' := hr _ rfl
        cases h with
        | pos ha hb hc =>
          have hu := UNum.mk ha hb hc
          obtain ⟨c, u, e, hd⟩ := hu.head
          have ne : ∀ d, jsonDigit d = false → c ≠ d := by rintro d hd' rfl; rw [hd] at hd'; cases hd'
          have := atom_number hu rest hr'
          rw [e] at this ⊢
          rw [List.cons_append, scanValue_atom n (ne _ (by decide)) (ne _ (by decide)) (ne _ (by decide))]
          exact this
        | neg ha hb hc =>
          rw [List.cons_append, scanValue_atom n (by decide) (by decide) (by decide)]
          exact atom_negative (UNum.mk ha hb hc) rest hr'
        | nan => rfl
        | inf => rfl
        | negInf => rfl
      | @str t s hs =>
        have := string_complete hs rest
        rw [show '"' :: (t ++ c!"\"") ++ rest = '"' :: (t ++ '"' :: rest) by simp, scanValue]
        rw [this]
        rfl
      | @arr0 w hw =>
        rw [show '[' :: (w ++ c!"]") ++ rest = '[' :: (w ++ ']' :: rest) by simp, scanValue]
        rw [skipWs_ws_of hw (by decide)]
        rfl
      | @arr w t l hw ht =>
        have hl : w.length + t.length + 1 ≤ n := by simp at hl; omega
        have hsc := ih2 t l rest ht (by omega)
        obtain ⟨c, u, rfl, h1, h2⟩ := items_head ht
        rw [show '[' :: (w ++ (c :: u ++ c!"]")) ++ rest = '[' :: (w ++ c :: (u ++ ']' :: rest)) by simp,
          scanValue_arr (skipWs_ws_of hw h1) h2, ← List.cons_append, hsc]
        rfl
      | @obj0 w hw =>
        rw [show '{' :: (w ++ c!"}") ++ rest = '{' :: (w ++ '}' :: rest) by simp, scanValue]
        rw [skipWs_ws_of hw (by decide)]
        rfl
      | @obj w t l hw ht =>
        obtain ⟨u, rfl⟩ := pairsHead ht
        have hl : w.length + u.length + 1 ≤ n := by simp at hl; omega
        have hsc := ih3 u l rest ht (by omega)
        rw [show '{' :: (w ++ ('"' :: u ++ c!"}")) ++ rest = '{' :: (w ++ '"' :: (u ++ '}' :: rest)) by simp,
          scanValue_obj (skipWs_ws_of hw (by decide)), hsc]
        rfl
    · intro t l rest h hl
      cases h with
      | @one t v w hv hw =>
        have h1 := ih1 t v (w ++ ']' :: rest) hv (by simp at hl; omega) (fun _ _ => numEnd_ws hw (by simp))
        rw [List.append_assoc]
        exact scanElems_last h1 (skipWs_ws_of hw (by decide))
      | @more t v w w' t' l hv hw hw' hi =>
        have h1 := ih1 t v (w ++ ',' :: (w' ++ (t' ++ ']' :: rest))) hv (by simp at hl; omega) (fun _ _ => numEnd_ws hw (by simp))
        have h2 := ih2 t' l rest hi (by simp at hl; omega)
        obtain ⟨c, u, rfl, g1, g2⟩ := items_head hi
        rw [show t ++ (w ++ ',' :: (w' ++ (c :: u))) ++ ']' :: rest = t ++ (w ++ ',' :: (w' ++ (c :: u ++ ']' :: rest))) by simp,
          scanElems_more h1 (skipWs_ws_of hw (by decide)), List.cons_append, skipWs_ws_of hw' g1, ← List.cons_append, h2]
        rfl
    · intro t l rest h hl
      generalize hz : '"' :: t = z at h
      cases h with
      | @one x k w w' y v w2 hx hw hw' hv hw2 =>
        obtain rfl := (List.cons.inj hz).2
        have h0 := string_complete hx (w ++ ':' :: (w' ++ (y ++ (w2 ++ '}' :: rest))))
        have h1 := ih1 y v (w2 ++ '}' :: rest) hv (by simp at hl; omega) (fun _ _ => numEnd_ws hw2 (by simp))
        obtain ⟨c, u, rfl, g1, g2⟩ := json_head hv
        rw [show x ++ '"' :: (w ++ ':' :: (w' ++ (c :: u ++ w2))) ++ '}' :: rest =
          x ++ '"' :: (w ++ ':' :: (w' ++ (c :: u ++ (w2 ++ '}' :: rest)))) by simp]
        refine scanMembers_last h0 (skipWs_ws_of hw (by decide)) ?_ (skipWs_ws_of hw2 (by decide))
        rw [List.cons_append, skipWs_ws_of hw' g1]
        exact h1
      | @more x k w w' y v w2 w3 t' l hx hw hw' hv hw2 hw3 hi =>
        obtain rfl := (List.cons.inj hz).2
        obtain ⟨q, rfl⟩ := pairsHead hi
        have h0 := string_complete hx (w ++ ':' :: (w' ++ (y ++ (w2 ++ ',' :: (w3 ++ '"' :: (q ++ '}' :: rest))))))
        have h1 := ih1 y v (w2 ++ ',' :: (w3 ++ '"' :: (q ++ '}' :: rest))) hv (by simp at hl; omega)
          (fun _ _ => numEnd_ws hw2 (by simp))
        have h2 := ih3 q l rest hi (by simp at hl; omega)
        obtain ⟨c, u, rfl, g1, g2⟩ := json_head hv
        rw [show x ++ '"' :: (w ++ ':' :: (w' ++ (c :: u ++ (w2 ++ ',' :: (w3 ++ '"' :: q))))) ++ '}' :: rest =
          x ++ '"' :: (w ++ ':' :: (w' ++ (c :: u ++ (w2 ++ ',' :: (w3 ++ '"' :: (q ++ '}' :: rest)))))) by simp]
        rw [scanMembers_more h0 (skipWs_ws_of hw (by decide)) (by rw [List.cons_append, skipWs_ws_of hw' g1]; exact h1)
          (skipWs_ws_of hw2 (by decide)) (skipWs_ws_of hw3 (by decide)), h2]
        rfl

/-- `json.loads` accepts exactly the JSON texts, and its result is the value of the text. -/
theorem loads_iff (s : Str) (v : Json) : jsonLoads s = some v ↔ JsonFile s v := by
  unfold jsonLoads
  constructor
  · intro h
    obtain ⟨w, hw, ew⟩ := skipWs_split s
    cases hv : scanValue (s.length + 1) (skipWs s) with
    | none => rw [hv] at h; cases h
    | some q =>
      obtain ⟨v', r⟩ := q
      rw [hv] at h
      dsimp only at h
      by_cases hr : skipWs r = []
      · rw [if_pos hr] at h
        cases h
        obtain ⟨t, ht, hj⟩ := (values_sound _).1 _ _ _ hv
        obtain ⟨w', hw', ew'⟩ := skipWs_split r
        rw [hr, List.append_nil] at ew'
        subst ew'
        exact ⟨w, t, r, by rw [← ht]; exact ew, hw, hj, hw'⟩
      · rw [if_neg hr] at h; cases h
  · rintro ⟨w, t, w', rfl, hw, hj, hw'⟩
    have := (values_complete ((w ++ (t ++ w')).length + 1)).1 t v w' hj (by simp; omega) (fun _ _ => numEnd_allWs hw')
    obtain ⟨c, u, rfl, g1, g2⟩ := json_head hj
    rw [List.cons_append, skipWs_ws_of hw g1]
    rw [List.cons_append] at this
    rw [this]
    dsimp only
    have := skipWs_ws hw' []
    rw [List.append_nil] at this
    rw [this]
    rfl

/-- Nothing but white space can be behind the text of a value that is no number. -/
theorem json_prefix {t : Str} {v : Json} (h : JsonText t v) (hn : ∀ x, v ≠ .num x) (w q : Str) (hw : JsonWs w) {v' : Json}
    (hl : JsonFile (w ++ (t ++ q)) v') : JsonWs q := by
  rw [← loads_iff] at hl
  unfold jsonLoads at hl
  have := (values_complete ((w ++ (t ++ q)).length + 1)).1 t v q h (by simp; omega) (fun x e => absurd e (hn x))
  obtain ⟨c, u, rfl, g1, g2⟩ := json_head h
  rw [List.cons_append, skipWs_ws_of hw g1] at hl
  rw [List.cons_append] at this
  rw [this] at hl
  dsimp only at hl
  by_cases hq : skipWs q = []
  · obtain ⟨w', hw', e⟩ := skipWs_split q
    rw [hq, List.append_nil] at e
    rw [e]
    exact hw'
  · rw [if_neg hq] at hl; cases hl

end Qrexec
