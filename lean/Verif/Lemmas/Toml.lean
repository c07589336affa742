import Verif.Spec.Toml
import Verif.Props.ServiceCmd
import Mathlib.Tactic.Tauto
import Mathlib.Data.List.Induction

namespace Qrexec
namespace TomlL

theorem take_drop {p : Char → Bool} {a b : Str} (ha : ∀ c ∈ a, p c = true) (hb : ∀ c, b.head? = some c → p c = false) :
    (a ++ b).takeWhile p = a ∧ (a ++ b).dropWhile p = b := by
  induction a with
  | nil =>
    cases b with
    | nil => exact ⟨rfl, rfl⟩
    | cons c b =>
      have := hb c rfl
      simp [List.takeWhile_cons, List.dropWhile_cons, this]
  | cons c a ih =>
    have hc := ha c (List.mem_cons_self ..)
    obtain ⟨h1, h2⟩ := ih (fun c hc => ha c (List.mem_cons_of_mem _ hc))
    rw [List.cons_append, List.takeWhile_cons, List.dropWhile_cons, hc]
    simp only [if_true]
    exact ⟨by rw [h1], h2⟩

theorem drop_head {p : Char → Bool} {s : Str} {c : Char} (h : (s.dropWhile p).head? = some c) : p c = false := by
  induction s with
  | nil => cases h
  | cons x s ih =>
    rw [List.dropWhile_cons] at h
    by_cases hx : p x = true
    · rw [if_pos hx] at h; exact ih h
    · rw [if_neg hx] at h
      cases h
      simpa using hx

theorem mem_take {p : Char → Bool} {s : Str} {c : Char} (h : c ∈ s.takeWhile p) : p c = true := by
  induction s with
  | nil => cases h
  | cons x s ih =>
    rw [List.takeWhile_cons] at h
    by_cases hx : p x = true
    · rw [if_pos hx] at h
      rcases List.mem_cons.1 h with rfl | h
      · exact hx
      · exact ih h
    · rw [if_neg hx] at h; cases h

theorem space_iff (c : Char) : tomlSpace c = true ↔ c = ' ' ∨ c = '\t' := by simp [tomlSpace]

theorem digit_iff (c : Char) : tomlDigit c = true ↔ '0' ≤ c ∧ c ≤ '9' := by simp [tomlDigit]

theorem letter_iff (c : Char) : tomlLetter c = true ↔ KeyStart c := by simp [tomlLetter, KeyStart]

theorem keyByte_iff (c : Char) : tomlKeyByte c = true ↔ KeyByte c := by
  unfold tomlKeyByte KeyByte
  simp only [Bool.or_eq_true, digit_iff, letter_iff, beq_iff_eq]
  tauto

theorem blanks_iff (w : Str) : Blanks w ↔ ∀ c ∈ w, tomlSpace c = true := by
  simp only [Blanks, space_iff]

theorem end_iff (r : Str) : tomlEnd r = true ↔ ∃ w com, r = w ++ com ∧ Blanks w ∧ CommentText com := by
  constructor
  · intro h
    refine ⟨r.takeWhile tomlSpace, r.dropWhile tomlSpace, (List.takeWhile_append_dropWhile).symm,
      (blanks_iff _).2 (fun c hc => mem_take hc), ?_⟩
    unfold tomlEnd at h
    cases hd : r.dropWhile tomlSpace with
    | nil => exact .inl rfl
    | cons c t =>
      rw [hd] at h
      have : c = '#' := by simpa using h
      exact .inr ⟨t, by rw [this]⟩
  · rintro ⟨w, com, rfl, hw, hc⟩
    have hh : ∀ c, com.head? = some c → tomlSpace c = false := by
      rcases hc with rfl | ⟨u, rfl⟩
      · intro c h; cases h
      · intro c h; cases h; rfl
    unfold tomlEnd
    rw [(take_drop ((blanks_iff w).1 hw) hh).2]
    rcases hc with rfl | ⟨u, rfl⟩ <;> rfl

/-- What may follow a value starts with nothing that belongs to a value. -/
theorem tail_head {w com : Str} {c : Char} (hw : Blanks w) (hc : CommentText com) (h : (w ++ com).head? = some c) :
    c = ' ' ∨ c = '\t' ∨ c = '#' := by
  cases w with
  | nil =>
    rcases hc with rfl | ⟨u, rfl⟩
    · cases h
    · cases h; exact .inr (.inr rfl)
  | cons x w =>
    obtain rfl : x = c := by simpa using h
    rcases hw x (List.mem_cons_self ..) with e | e
    · exact .inl e
    · exact .inr (.inl e)

theorem value_iff (v : Str) (x : TomlVal) :
    tomlValue v = some x ↔ ∃ val w com, v = val ++ (w ++ com) ∧ ValText val x ∧ Blanks w ∧ CommentText com := by
  constructor
  · intro h
    cases v with
    | nil => cases h
    | cons c rest =>
      unfold tomlValue at h
      dsimp only at h
      by_cases h0 : (c == '0') = true
      · rw [if_pos h0] at h
        by_cases he : tomlEnd rest = true
        · rw [if_pos he] at h
          cases h
          obtain ⟨w, com, rfl, hw, hc⟩ := (end_iff _).1 he
          have : c = '0' := by simpa using h0
          exact ⟨c!"0", w, com, by rw [this]; rfl, .zero, hw, hc⟩
        · rw [if_neg he] at h; cases h
      rw [if_neg h0] at h
      by_cases hd : tomlDigit c = true
      · rw [if_pos hd] at h
        by_cases hb : tomlNat ((c :: rest).takeWhile tomlDigit) > 18446744073709551615
        · rw [if_pos hb] at h; cases h
        rw [if_neg hb] at h
        by_cases he : tomlEnd ((c :: rest).dropWhile tomlDigit) = true
        · rw [if_pos he] at h
          cases h
          obtain ⟨w, com, e, hw, hc⟩ := (end_iff _).1 he
          refine ⟨(c :: rest).takeWhile tomlDigit, w, com, ?_, ?_, hw, hc⟩
          · rw [← e]; exact (List.takeWhile_append_dropWhile).symm
          · refine ValText.int _ ?_ (fun c hc => (digit_iff c).1 (mem_take hc)) ?_ ?_
            · rw [List.takeWhile_cons, if_pos hd]; simp
            · rw [List.takeWhile_cons, if_pos hd]
              simpa using h0
            · have : tomlNat ((c :: rest).takeWhile tomlDigit) = decimal ((c :: rest).takeWhile tomlDigit) := rfl
              rw [← this]
              have : (2 : Nat) ^ 64 = 18446744073709551616 := by decide
              omega
        · rw [if_neg he] at h; cases h
      rw [if_neg hd] at h
      by_cases ht : (c == 't') = true
      · rw [if_pos ht] at h
        by_cases he : (startsWith c!"true" (c :: rest) && tomlEnd ((c :: rest).drop 4)) = true
        · rw [if_pos he] at h
          cases h
          rw [Bool.and_eq_true] at he
          obtain ⟨w, com, e, hw, hc⟩ := (end_iff _).1 he.2
          obtain ⟨t, ht'⟩ := List.isPrefixOf_iff_prefix.1 he.1
          rw [← ht'] at e ⊢
          have e : t = w ++ com := e
          exact ⟨c!"true", w, com, by rw [e], .yes, hw, hc⟩
        · rw [if_neg he] at h; cases h
      rw [if_neg ht] at h
      by_cases hf : (c == 'f') = true
      · rw [if_pos hf] at h
        by_cases he : (startsWith c!"false" (c :: rest) && tomlEnd ((c :: rest).drop 5)) = true
        · rw [if_pos he] at h
          cases h
          rw [Bool.and_eq_true] at he
          obtain ⟨w, com, e, hw, hc⟩ := (end_iff _).1 he.2
          obtain ⟨t, ht'⟩ := List.isPrefixOf_iff_prefix.1 he.1
          rw [← ht'] at e ⊢
          have e : t = w ++ com := e
          exact ⟨c!"false", w, com, by rw [e], .no, hw, hc⟩
        · rw [if_neg he] at h; cases h
      rw [if_neg hf] at h
      by_cases hq : (c == '\'') = true
      · rw [if_pos hq] at h
        by_cases h3 : startsWith c!"''" rest = true
        · rw [if_pos h3] at h; cases h
        rw [if_neg h3] at h
        cases hs : splitOnce '\'' rest with
        | none => rw [hs] at h; cases h
        | some p =>
          obtain ⟨s, r'⟩ := p
          rw [hs] at h
          dsimp only at h
          by_cases he : tomlEnd r' = true
          · rw [if_pos he] at h
            cases h
            obtain ⟨w, com, rfl, hw, hc⟩ := (end_iff _).1 he
            obtain ⟨e1, e2⟩ := splitOnce_eq_some.1 hs
            have : c = '\'' := by simpa using hq
            exact ⟨c!"'" ++ s ++ c!"'", w, com, by rw [this, e1]; simp, .str s e2, hw, hc⟩
          · rw [if_neg he] at h; cases h
      · rw [if_neg hq] at h; cases h
  · rintro ⟨val, w, com, rfl, hv, hw, hc⟩
    have he : tomlEnd (w ++ com) = true := (end_iff _).2 ⟨w, com, rfl, hw, hc⟩
    cases hv with
    | zero =>
      show (if tomlEnd (w ++ com) = true then some (TomlVal.int 0) else none) = _
      rw [if_pos he]
    | int _ h1 h2 h3 h4 =>
      have hh : ∀ c, (w ++ com).head? = some c → tomlDigit c = false := by
        intro c hx
        rcases tail_head hw hc hx with rfl | rfl | rfl <;> rfl
      have htd := take_drop (p := tomlDigit) (fun c hc => (digit_iff c).2 (h2 c hc)) hh
      cases val with
      | nil => exact absurd rfl h1
      | cons c ds =>
        rw [List.cons_append] at htd ⊢
        unfold tomlValue
        dsimp only
        rw [if_neg (by simpa using h3), if_pos ((digit_iff c).2 (h2 c (List.mem_cons_self ..))), htd.1, htd.2,
          if_pos he, if_neg]
        · rfl
        · have : tomlNat (c :: ds) = decimal (c :: ds) := rfl
          rw [this]
          have : (2 : Nat) ^ 64 = 18446744073709551616 := by decide
          omega
    | yes =>
      show (if (startsWith c!"true" (c!"true" ++ (w ++ com)) && tomlEnd (w ++ com)) = true then
        some (TomlVal.bool true) else none) = _
      rw [he]; rfl
    | no =>
      show (if (startsWith c!"false" (c!"false" ++ (w ++ com)) && tomlEnd (w ++ com)) = true then
        some (TomlVal.bool false) else none) = _
      rw [he]; rfl
    | str s h =>
      have e : c!"'" ++ s ++ c!"'" ++ (w ++ com) = '\'' :: (s ++ '\'' :: (w ++ com)) := by simp
      rw [e]
      show (if startsWith c!"''" (s ++ '\'' :: (w ++ com)) = true then none
        else match splitOnce '\'' (s ++ '\'' :: (w ++ com)) with
          | none => none
          | some (s, rest') => if tomlEnd rest' = true then some (TomlVal.str s) else none) = _
      rw [splitOnce_eq_some.2 ⟨rfl, h⟩]
      dsimp only
      rw [if_pos he, if_neg]
      intro hp
      obtain ⟨t, ht⟩ := List.isPrefixOf_iff_prefix.1 hp
      cases s with
      | nil =>
        have ht : '\'' :: '\'' :: t = '\'' :: (w ++ com) := ht
        have := (List.cons.inj ht).2
        have hx := tail_head hw hc (by rw [← this]; rfl)
        rcases hx with hx | hx | hx <;> exact absurd hx (by decide)
      | cons x s =>
        have ht : '\'' :: '\'' :: t = x :: (s ++ '\'' :: (w ++ com)) := ht
        have := (List.cons.inj ht).1
        exact h (by rw [← this]; exact List.mem_cons_self ..)

theorem val_head {val : Str} {v : TomlVal} (h : ValText val v) :
    ∃ c t, val = c :: t ∧ tomlSpace c = false := by
  cases h with
  | zero => exact ⟨'0', [], rfl, rfl⟩
  | int _ h1 h2 =>
    cases val with
    | nil => exact absurd rfl h1
    | cons c t =>
      refine ⟨c, t, rfl, ?_⟩
      have := h2 c (List.mem_cons_self ..)
      cases hs : tomlSpace c with
      | false => rfl
      | true =>
        rcases (space_iff c).1 hs with rfl | rfl <;> exact absurd this (by decide)
  | yes => exact ⟨'t', _, rfl, rfl⟩
  | no => exact ⟨'f', _, rfl, rfl⟩
  | str s _ => exact ⟨'\'', s ++ c!"'", by simp, rfl⟩

theorem val_last {val : Str} {v : TomlVal} (h : ValText val v) :
    ∃ t c, val = t ++ [c] ∧ tomlSpace c = false := by
  cases h with
  | zero => exact ⟨[], '0', rfl, rfl⟩
  | int _ h1 h2 =>
    obtain ⟨t, c, rfl⟩ : ∃ t c, val = t ++ [c] := ⟨val.dropLast, val.getLast h1, (List.dropLast_concat_getLast h1).symm⟩
    refine ⟨t, c, rfl, ?_⟩
    have := h2 c (by simp)
    cases hs : tomlSpace c with
    | false => rfl
    | true =>
      rcases (space_iff c).1 hs with rfl | rfl <;> exact absurd this (by decide)
  | yes => exact ⟨c!"tru", 'e', rfl, rfl⟩
  | no => exact ⟨c!"fals", 'e', rfl, rfl⟩
  | str s _ => exact ⟨c!"'" ++ s, '\'', by simp, rfl⟩

theorem start_not_hash {c : Char} (h : KeyStart c) : c ≠ '#' := by
  rintro rfl
  exact absurd ((letter_iff '#').2 h) (by decide)

/-- The text of a line. -/
theorem text_iff (t : Str) (x : Option (Str × TomlVal)) :
    tomlText t = (match x with | none => .skip | some (k, v) => .set k v) ↔ ConfText t x := by
  constructor
  · intro h
    cases t with
    | nil =>
      cases x with
      | none => exact .blank
      | some p => cases h
    | cons c cs =>
      unfold tomlText at h
      dsimp only at h
      by_cases h1 : (c == '#') = true
      · rw [if_pos h1] at h
        have : c = '#' := by simpa using h1
        subst this
        cases x with
        | none => exact .comment cs
        | some p => cases h
      rw [if_neg h1] at h
      by_cases h2 : tomlLetter c = true
      · rw [if_pos h2] at h
        cases hd : (cs.dropWhile tomlKeyByte).dropWhile tomlSpace with
        | nil => rw [hd] at h; cases x <;> cases h
        | cons e rest =>
          rw [hd] at h
          dsimp only at h
          by_cases h3 : (e == '=') = true
          · rw [if_pos h3] at h
            cases hv : tomlValue (rest.dropWhile tomlSpace) with
            | none => rw [hv] at h; cases x <;> cases h
            | some v =>
              rw [hv] at h
              cases x with
              | none => cases h
              | some p =>
                obtain ⟨k, v'⟩ := p
                cases h
                have he : e = '=' := by simpa using h3
                subst he
                obtain ⟨val, w, com, e1, hval, hw, hc⟩ := (value_iff _ _).1 hv
                have := ConfText.setting c (cs.takeWhile tomlKeyByte) ((cs.dropWhile tomlKeyByte).takeWhile tomlSpace)
                  (rest.takeWhile tomlSpace) val w com v ((letter_iff c).1 h2)
                  (fun c hc => (keyByte_iff c).1 (mem_take hc)) ((blanks_iff _).2 (fun c hc => mem_take hc))
                  ((blanks_iff _).2 (fun c hc => mem_take hc)) hval hw hc
                rw [← e1, List.takeWhile_append_dropWhile, ← hd, List.takeWhile_append_dropWhile,
                  List.takeWhile_append_dropWhile] at this
                exact this
          · rw [if_neg h3] at h; cases x <;> cases h
      · rw [if_neg h2] at h; cases x <;> cases h
  · intro h
    cases h with
    | blank => rfl
    | comment t => rfl
    | setting c ks w1 w2 val w3 com v hc hk h1 h2 hv h3 hcom =>
      unfold tomlText
      dsimp only
      rw [if_neg (by simpa using start_not_hash hc), if_pos ((letter_iff c).2 hc)]
      have hks : ∀ c ∈ ks, tomlKeyByte c = true := fun c hc => (keyByte_iff c).2 (hk c hc)
      have t1 := take_drop (p := tomlKeyByte) (b := w1 ++ '=' :: (w2 ++ (val ++ (w3 ++ com)))) hks (by
        intro c hx
        cases w1 with
        | nil => cases hx; rfl
        | cons y w1 =>
          cases hx
          rcases h1 c (List.mem_cons_self ..) with rfl | rfl <;> rfl)
      have t2 := take_drop (p := tomlSpace) (b := '=' :: (w2 ++ (val ++ (w3 ++ com)))) ((blanks_iff w1).1 h1) (by
        intro c hx; cases hx; rfl)
      obtain ⟨y, t, hy, hys⟩ := val_head hv
      have t3 := take_drop (p := tomlSpace) (b := val ++ (w3 ++ com)) ((blanks_iff w2).1 h2) (by
        intro c hx; rw [hy] at hx; cases hx; exact hys)
      rw [t1.1, t1.2, t2.2]
      dsimp only
      rw [if_pos (by rfl), t3.2, (value_iff _ v).2 ⟨val, w3, com, rfl, hv, h3, hcom⟩]

/-- A blank at the end of a line does not matter. -/
theorem confText_snoc {c : Char} {t : Str} {s : Char} {x : Option (Str × TomlVal)} (hs : tomlSpace s = true) :
    ConfText (c :: t ++ [s]) x ↔ ConfText (c :: t) x := by
  constructor
  · intro h
    generalize hz : c :: t ++ [s] = z at h
    cases h with
    | blank => cases hz
    | comment u =>
      have := (List.cons.inj hz).1
      subst this
      exact .comment t
    | setting c' ks w1 w2 val w3 com v hc hk h1 h2 hv h3 hcom =>
      rcases List.eq_nil_or_concat com with rfl | ⟨com', y, rfl⟩
      · rcases List.eq_nil_or_concat w3 with rfl | ⟨w3', y, rfl⟩
        · obtain ⟨vt, vc, rfl, hvc⟩ := val_last hv
          exfalso
          have : c :: t ++ [s] = (c' :: (ks ++ (w1 ++ '=' :: (w2 ++ vt)))) ++ [vc] := by rw [hz]; simp
          have := List.append_inj_right' this rfl
          cases this
          rw [hs] at hvc; cases hvc
        · have e : c :: t ++ [s] = (c' :: (ks ++ (w1 ++ '=' :: (w2 ++ (val ++ (w3' ++ [])))))) ++ [y] := by rw [hz]; simp
          have := List.append_inj_left' e rfl
          rw [this]
          exact .setting c' ks w1 w2 val w3' [] v hc hk h1 h2 hv (fun c hc => h3 c (by simp [hc])) (.inl rfl)
      · have e : c :: t ++ [s] = (c' :: (ks ++ (w1 ++ '=' :: (w2 ++ (val ++ (w3 ++ com')))))) ++ [y] := by rw [hz]; simp
        have hl := List.append_inj_left' e rfl
        have hr := List.append_inj_right' e rfl
        cases hr
        rw [hl]
        refine .setting c' ks w1 w2 val w3 com' v hc hk h1 h2 hv h3 ?_
        rcases hcom with hcom | ⟨u, hu⟩
        · simp at hcom
        · cases com' with
          | nil =>
            have : s = '#' := by simpa using (List.cons.inj hu).1
            subst this
            cases hs
          | cons a com' =>
            have : a = '#' := (List.cons.inj hu).1
            exact .inr ⟨com', by rw [this]⟩
  · intro h
    generalize hz : c :: t = z at h
    cases h with
    | blank => cases hz
    | comment u => exact .comment (u ++ [s])
    | setting c' ks w1 w2 val w3 com v hc hk h1 h2 hv h3 hcom =>
      rcases hcom with rfl | ⟨u, rfl⟩
      · have := ConfText.setting c' ks w1 w2 val (w3 ++ [s]) [] v hc hk h1 h2 hv (by
          intro c hx
          rcases List.mem_append.1 hx with hx | hx
          · exact h3 c hx
          · rw [List.mem_singleton.1 hx]; exact (space_iff s).1 hs) (.inl rfl)
        simpa using this
      · have := ConfText.setting c' ks w1 w2 val w3 ('#' :: (u ++ [s])) v hc hk h1 h2 hv h3 (.inr ⟨_, rfl⟩)
        simpa using this

theorem confText_blanks {c : Char} {t w : Str} {x : Option (Str × TomlVal)} (hw : ∀ s ∈ w, tomlSpace s = true) :
    ConfText (c :: (t ++ w)) x ↔ ConfText (c :: t) x := by
  induction w using List.reverseRecOn with
  | nil => rw [List.append_nil]
  | append_singleton w s ih =>
    rw [← ih (fun s hs => hw s (by simp [hs])), ← List.append_assoc]
    exact confText_snoc (hw s (by simp))

theorem confText_chop (t : Str) (x : Option (Str × TomlVal)) : ConfText (chopSpace t) x ↔ ConfText t x := by
  cases t with
  | nil => rfl
  | cons c cs =>
    unfold chopSpace
    dsimp only
    have e : cs = (cs.reverse.dropWhile tomlSpace).reverse ++ (cs.reverse.takeWhile tomlSpace).reverse := by
      rw [← List.reverse_append, List.takeWhile_append_dropWhile, List.reverse_reverse]
    conv_rhs => rw [e]
    rw [confText_blanks]
    intro s hs
    exact mem_take (List.mem_reverse.1 hs)

end TomlL
end Qrexec
