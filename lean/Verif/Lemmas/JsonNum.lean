import Verif.Spec.Json
import Verif.Lemmas.Json

/-!
# The scanner of numbers and the grammar
-/
namespace Qrexec
open Spec

theorem jsonDigit_iff (c : Char) : jsonDigit c = true ↔ c ∈ c!"0123456789" := by
  constructor
  · intro h
    unfold jsonDigit at h
    rw [Bool.and_eq_true, decide_eq_true_eq, decide_eq_true_eq] at h
    have h1 : 48 ≤ c.toNat := h.1
    have h2 : c.toNat ≤ 57 := h.2
    have : c.toNat = 48 ∨ c.toNat = 49 ∨ c.toNat = 50 ∨ c.toNat = 51 ∨ c.toNat = 52 ∨ c.toNat = 53 ∨ c.toNat = 54 ∨
      c.toNat = 55 ∨ c.toNat = 56 ∨ c.toNat = 57 := by omega
    rcases this with e | e | e | e | e | e | e | e | e | e
    · rw [char_eq_of_toNat (d := '0') e]; decide
    · rw [char_eq_of_toNat (d := '1') e]; decide
    · rw [char_eq_of_toNat (d := '2') e]; decide
    · rw [char_eq_of_toNat (d := '3') e]; decide
    · rw [char_eq_of_toNat (d := '4') e]; decide
    · rw [char_eq_of_toNat (d := '5') e]; decide
    · rw [char_eq_of_toNat (d := '6') e]; decide
    · rw [char_eq_of_toNat (d := '7') e]; decide
    · rw [char_eq_of_toNat (d := '8') e]; decide
    · rw [char_eq_of_toNat (d := '9') e]; decide
  · intro h
    have : ∀ c ∈ c!"0123456789", jsonDigit c = true := by decide
    exact this c h

theorem take_takeWhile (p : Char → Bool) (s : Str) : s.take (s.takeWhile p).length = s.takeWhile p :=
  (List.prefix_iff_eq_take.1 (List.takeWhile_prefix p)).symm

theorem takeWhile_stop (p : Char → Bool) : ∀ (a rest : Str), (∀ c ∈ a, p c = true) →
    (∀ c t, rest = c :: t → p c = false) → (a ++ rest).takeWhile p = a
  | [], rest, _, h => by
    cases rest with
    | nil => rfl
    | cons c t => rw [List.nil_append, List.takeWhile_cons, h c t rfl]; rfl
  | c :: a, rest, ha, h => by
    rw [List.cons_append, List.takeWhile_cons, ha c (by simp)]
    simp only [if_true]
    rw [takeWhile_stop p a rest (fun x hx => ha x (by simp [hx])) h]

def intLen (s : Str) : Nat :=
  match s with
    | '0' :: _ => 1
    | _ => (s.takeWhile jsonDigit).length

def fracLen (s : Str) : Nat :=
  match s with
      | '.' :: r => let k := (r.takeWhile jsonDigit).length; if k = 0 then 0 else k + 1
      | _ => 0

def expLen (s : Str) : Nat :=
  match s with
      | e :: r =>
        if e = 'e' || e = 'E' then
          let sign := match r with
            | c :: _ => if c = '+' || c = '-' then 1 else 0
            | [] => 0
          let k := ((r.drop sign).takeWhile jsonDigit).length
          if k = 0 then 0 else 1 + sign + k
        else 0
      | [] => 0

theorem numberLen_eq (s : Str) : numberLen s =
    if intLen s = 0 then none
    else some (intLen s + fracLen (s.drop (intLen s)) + expLen (s.drop (intLen s + fracLen (s.drop (intLen s))))) := rfl

theorem digits_takeWhile (r : Str) : ∀ c ∈ r.takeWhile jsonDigit, c ∈ c!"0123456789" := fun c hc =>
  (jsonDigit_iff c).1 (List.all_eq_true.1 (List.all_takeWhile ..) c hc)

theorem intLen_zero (t : Str) : intLen ('0' :: t) = 1 := rfl

theorem intLen_other {c : Char} (t : Str) (h : c ≠ '0') : intLen (c :: t) = ((c :: t).takeWhile jsonDigit).length := by
  unfold intLen
  split
  · rename_i e
    exact absurd (List.cons.inj e).1 h
  · rfl

theorem int_sound (s : Str) (h : intLen s ≠ 0) : JsonInt (s.take (intLen s)) := by
  cases s with
  | nil => exact absurd rfl h
  | cons c t =>
    by_cases h0 : c = '0'
    · subst h0
      exact .zero
    · rw [intLen_other t h0] at h ⊢
      rw [take_takeWhile]
      have hd := digits_takeWhile (c :: t)
      rw [List.takeWhile_cons] at h hd ⊢
      by_cases hc : jsonDigit c = true
      · rw [hc] at h hd ⊢
        simp only [if_true] at h hd ⊢
        refine .digits ?_ (fun d hd' => hd d (by simp [hd']))
        have := hd c (by simp)
        rcases List.mem_cons.1 this with e | e
        · exact absurd e h0
        · exact e
      · rw [if_neg hc] at h
        exact absurd rfl h

theorem int_complete {a : Str} (ha : JsonInt a) (rest : Str) (h : ∀ c t, rest = c :: t → jsonDigit c = false) :
    intLen (a ++ rest) = a.length := by
  cases ha with
  | zero => exact intLen_zero _
  | @digits c s hc hs =>
    have h0 : c ≠ '0' := by rintro rfl; revert hc; decide
    rw [List.cons_append, intLen_other _ h0, ← List.cons_append, takeWhile_stop]
    · intro x hx
      rw [jsonDigit_iff]
      rcases List.mem_cons.1 hx with rfl | hx
      · exact List.mem_cons_of_mem _ hc
      · exact hs x hx
    · exact h

theorem fracLen_dot (r : Str) : fracLen ('.' :: r) =
    if (r.takeWhile jsonDigit).length = 0 then 0 else (r.takeWhile jsonDigit).length + 1 := rfl

theorem fracLen_other {c : Char} (t : Str) (h : c ≠ '.') : fracLen (c :: t) = 0 := by
  unfold fracLen
  split
  · rename_i e
    exact absurd (List.cons.inj e).1 h
  · rfl

theorem frac_sound (s : Str) : JsonFrac (s.take (fracLen s)) := by
  cases s with
  | nil => exact .none
  | cons c t =>
    by_cases h0 : c = '.'
    · subst h0
      rw [fracLen_dot]
      by_cases hk : (t.takeWhile jsonDigit).length = 0
      · rw [if_pos hk]; exact .none
      · rw [if_neg hk, List.take_succ_cons, take_takeWhile]
        exact .some ⟨by intro e; rw [e] at hk; exact hk rfl, digits_takeWhile t⟩
    · rw [fracLen_other t h0]; exact .none

theorem frac_complete {b : Str} (hb : JsonFrac b) (rest : Str)
    (h : ∀ c t, rest = c :: t → jsonDigit c = false ∧ c ≠ '.') : fracLen (b ++ rest) = b.length := by
  cases hb with
  | none =>
    cases rest with
    | nil => rfl
    | cons c t => exact fracLen_other t (h c t rfl).2
  | @some s hs =>
    rw [List.cons_append, fracLen_dot, takeWhile_stop _ _ _ (fun c hc => (jsonDigit_iff c).2 (hs.2 c hc)) (fun c t e => (h c t e).1)]
    rw [if_neg (by intro e; exact hs.1 (List.length_eq_zero_iff.1 e))]
    rfl

theorem expLen_other {c : Char} (t : Str) (h1 : c ≠ 'e') (h2 : c ≠ 'E') : expLen (c :: t) = 0 := by
  show (if (c = 'e' || c = 'E') then _ else _) = _
  rw [if_neg (by simp [h1, h2])]

def signLen (r : Str) : Nat := match r with
            | c :: _ => if c = '+' || c = '-' then 1 else 0
            | [] => 0

theorem expLen_e {e : Char} (r : Str) (he : e = 'e' ∨ e = 'E') : expLen (e :: r) =
    if ((r.drop (signLen r)).takeWhile jsonDigit).length = 0 then 0
    else 1 + signLen r + ((r.drop (signLen r)).takeWhile jsonDigit).length := by
  have : (e = 'e' || e = 'E') = true := by simpa using he
  show (if (e = 'e' || e = 'E') then _ else _) = _
  rw [if_pos (by simpa using he)]
  rfl

theorem exp_sound (s : Str) : JsonExp (s.take (expLen s)) := by
  cases s with
  | nil => exact .none
  | cons e r =>
    by_cases he : e = 'e' ∨ e = 'E'
    · rw [expLen_e r he]
      by_cases hk : ((r.drop (signLen r)).takeWhile jsonDigit).length = 0
      · rw [if_pos hk]; exact .none
      rw [if_neg hk]
      have hd : JsonDigits ((r.drop (signLen r)).takeWhile jsonDigit) :=
        ⟨by intro e; rw [e] at hk; exact hk rfl, digits_takeWhile _⟩
      cases r with
      | nil => exact absurd rfl hk
      | cons g r =>
        by_cases hg : g = '+' ∨ g = '-'
        · have : signLen (g :: r) = 1 := by
            show (if (g = '+' || g = '-') then 1 else 0) = 1
            rw [if_pos (by simpa using hg)]
          rw [this] at hd ⊢
          rw [show 1 + 1 + ((List.drop 1 (g :: r)).takeWhile jsonDigit).length = (r.takeWhile jsonDigit).length + 1 + 1 by
            show 1 + 1 + (r.takeWhile jsonDigit).length = _; omega, List.take_succ_cons, List.take_succ_cons, take_takeWhile]
          exact .sign he hg hd
        · have : signLen (g :: r) = 0 := by
            show (if (g = '+' || g = '-') then 1 else 0) = 0
            rw [if_neg (by simpa using hg)]
          rw [this] at hd ⊢
          rw [show 1 + 0 + ((List.drop 0 (g :: r)).takeWhile jsonDigit).length = ((g :: r).takeWhile jsonDigit).length + 1 by
            show 1 + 0 + ((g :: r).takeWhile jsonDigit).length = _; omega, List.take_succ_cons, take_takeWhile]
          exact .plain he hd
    · rw [expLen_other r (fun h => he (.inl h)) (fun h => he (.inr h))]; exact .none

theorem exp_complete {b : Str} (hb : JsonExp b) (rest : Str)
    (h : ∀ c t, rest = c :: t → jsonDigit c = false ∧ c ≠ 'e' ∧ c ≠ 'E') : expLen (b ++ rest) = b.length := by
  cases hb with
  | none =>
    cases rest with
    | nil => rfl
    | cons c t => exact expLen_other t (h c t rfl).2.1 (h c t rfl).2.2
  | @plain e s he hs =>
    obtain ⟨hne, hall⟩ := hs
    rw [List.cons_append, expLen_e _ he]
    have hsg : signLen (s ++ rest) = 0 := by
      cases s with
      | nil => exact absurd rfl hne
      | cons g s =>
        show (if (g = '+' || g = '-') then 1 else 0) = 0
        have := hall g (by simp)
        rw [if_neg]
        intro hg
        have hg : g = '+' ∨ g = '-' := by simpa using hg
        rcases hg with rfl | rfl <;> revert this <;> decide
    rw [hsg, List.drop_zero, takeWhile_stop _ _ _ (fun c hc => (jsonDigit_iff c).2 (hall c hc)) (fun c t e => (h c t e).1)]
    rw [if_neg (by intro e; exact hne (List.length_eq_zero_iff.1 e))]
    simp; omega
  | @sign e g s he hg hs =>
    obtain ⟨hne, hall⟩ := hs
    rw [List.cons_append, List.cons_append, expLen_e _ he]
    have hsg : signLen (g :: (s ++ rest)) = 1 := by
      show (if (g = '+' || g = '-') then 1 else 0) = 1
      rw [if_pos (by simpa using hg)]
    rw [hsg, List.drop_succ_cons, List.drop_zero, takeWhile_stop _ _ _ (fun c hc => (jsonDigit_iff c).2 (hall c hc)) (fun c t e => (h c t e).1)]
    rw [if_neg (by intro e; exact hne (List.length_eq_zero_iff.1 e))]
    simp; omega

/-- What may follow a number. -/
def NumEnd (rest : Str) : Prop := ∀ c t, rest = c :: t → jsonDigit c = false ∧ c ≠ '.' ∧ c ≠ 'e' ∧ c ≠ 'E'

/-- Number without a sign. -/
inductive UNum : Str → Prop
  | mk {a b c} : JsonInt a → JsonFrac b → JsonExp c → UNum (a ++ (b ++ c))

theorem number_sound {s : Str} {k : Nat} (h : numberLen s = some k) : UNum (s.take k) := by
  rw [numberLen_eq] at h
  by_cases h0 : intLen s = 0
  · rw [if_pos h0] at h; cases h
  rw [if_neg h0] at h
  cases h
  rw [Nat.add_assoc, List.take_add, List.take_add]
  refine .mk (int_sound s h0) (frac_sound _) ?_
  rw [List.drop_drop]
  exact exp_sound _

theorem number_complete {s : Str} (h : UNum s) (rest : Str) (hr : NumEnd rest) : numberLen (s ++ rest) = some s.length := by
  obtain @⟨a, b, c, ha, hb, hc⟩ := h
  have hde : jsonDigit 'e' = false ∧ 'e' ≠ '.' := by decide
  have hdE : jsonDigit 'E' = false ∧ 'E' ≠ '.' := by decide
  have h1 : ∀ x t, c ++ rest = x :: t → jsonDigit x = false ∧ x ≠ '.' := by
    intro x t e
    cases hc with
    | none => exact ⟨(hr x t e).1, (hr x t e).2.1⟩
    | plain he hs =>
      rw [List.cons_append] at e
      rw [← (List.cons.inj e).1]
      rcases he with rfl | rfl
      · exact hde
      · exact hdE
    | sign he hs =>
      rw [List.cons_append] at e
      rw [← (List.cons.inj e).1]
      rcases he with rfl | rfl
      · exact hde
      · exact hdE
  have h2 : ∀ x t, b ++ (c ++ rest) = x :: t → jsonDigit x = false := by
    intro x t e
    cases hb with
    | none => exact (h1 x t e).1
    | some => rw [List.cons_append] at e; rw [← (List.cons.inj e).1]; decide
  have e1 : (a ++ (b ++ c)) ++ rest = a ++ (b ++ (c ++ rest)) := by simp
  have l1 : intLen ((a ++ (b ++ c)) ++ rest) = a.length := by rw [e1]; exact int_complete ha _ h2
  have ha0 : a.length ≠ 0 := by cases ha <;> simp
  rw [numberLen_eq, l1, if_neg ha0]
  have d1 : List.drop a.length ((a ++ (b ++ c)) ++ rest) = b ++ (c ++ rest) := by rw [e1, List.drop_left]
  have l2 : fracLen (b ++ (c ++ rest)) = b.length := frac_complete hb _ h1
  rw [d1, l2, ← List.drop_drop, d1, List.drop_left, exp_complete hc _ (fun x t e => ⟨(hr x t e).1, (hr x t e).2.2⟩)]
  simp; omega

theorem UNum.head {s : Str} (h : UNum s) : ∃ c t, s = c :: t ∧ jsonDigit c = true := by
  obtain @⟨a, b, c, ha, hb, hc⟩ := h
  cases ha with
  | zero => exact ⟨'0', _, rfl, by decide⟩
  | @digits x s hx => exact ⟨x, _, rfl, (jsonDigit_iff x).2 (List.mem_cons_of_mem _ hx)⟩

end Qrexec
