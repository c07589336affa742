import Mathlib.Data.List.TakeWhile
import Verif.Spec.ClientVm
import Verif.Props.VmClient
import Verif.Props.DataIn
import Verif.Props.ClientEnds
import Verif.Props.Trigger

/-! C72-C74: qrexec-client-vm. -/
namespace Qrexec
open Spec

/-! ## Numbers -/

theorem digitVal_table : ∀ c v, (c, v) ∈ digitTable → digitVal c = some v := by
  intro c v h
  simp only [digitTable, List.mem_cons, Prod.mk.injEq, List.not_mem_nil, or_false] at h
  rcases h with ⟨rfl, rfl⟩ | ⟨rfl, rfl⟩ | ⟨rfl, rfl⟩ | ⟨rfl, rfl⟩ | ⟨rfl, rfl⟩ | ⟨rfl, rfl⟩ | ⟨rfl, rfl⟩ | ⟨rfl, rfl⟩ | ⟨rfl, rfl⟩ |
    ⟨rfl, rfl⟩ | ⟨rfl, rfl⟩ | ⟨rfl, rfl⟩ | ⟨rfl, rfl⟩ | ⟨rfl, rfl⟩ | ⟨rfl, rfl⟩ | ⟨rfl, rfl⟩ | ⟨rfl, rfl⟩ | ⟨rfl, rfl⟩ | ⟨rfl, rfl⟩ |
    ⟨rfl, rfl⟩ | ⟨rfl, rfl⟩ | ⟨rfl, rfl⟩ <;> rfl

set_option maxRecDepth 20000 in
theorem table_all : ∀ n ∈ List.range 128, ∀ v ∈ List.range 16, digitVal (Char.ofNat n) = some v →
    (Char.ofNat n, v) ∈ digitTable := by decide

theorem digitVal_iff (c : Char) (v : Nat) (hv : v < 16) : digitVal c = some v ↔ (c, v) ∈ digitTable := by
  refine ⟨fun h => ?_, digitVal_table c v⟩
  have hc : c = Char.ofNat c.toNat := (Char.ofNat_toNat c).symm
  have hn : c.toNat < 128 := by
    unfold digitVal at h
    by_contra hge
    rw [if_neg (by simp; omega), if_neg (by simp; omega), if_neg (by simp; omega)] at h
    cases h
  have := table_all c.toNat (List.mem_range.2 hn) v (List.mem_range.2 hv)
  rw [← hc] at this
  exact this h

/-- The value the loop computes. -/
def foldDigits (base : Nat) (s : Str) : Nat := s.foldl (fun n c => n * base + (digitVal c).getD 0) 0

theorem numeral_iff (base : Nat) (hb : base ≤ 16) (s : Str) (n : Nat) :
    Numeral base s n ↔ (∀ c ∈ s, isDigitIn base c = true) ∧ foldDigits base s = n := by
  constructor
  · intro h
    induction h with
    | nil => exact ⟨(fun c h => by cases h), rfl⟩
    | @snoc s n c v h1 h2 h3 ih =>
      have hd := digitVal_table c v h2
      refine ⟨fun c' hc' => ?_, ?_⟩
      · rcases List.mem_append.1 hc' with hc' | hc'
        · exact ih.1 c' hc'
        · rw [List.mem_singleton] at hc'
          subst hc'
          unfold isDigitIn
          rw [hd]
          simpa using h3
      · unfold foldDigits
        rw [List.foldl_append]
        have := ih.2
        unfold foldDigits at this
        rw [this]
        simp [hd]
  · rintro ⟨h1, rfl⟩
    induction s using List.reverseRecOn with
    | nil => exact .nil
    | append_singleton s c ih =>
      have hc := h1 c (by simp)
      unfold isDigitIn at hc
      cases hd : digitVal c with
      | none => rw [hd] at hc; cases hc
      | some v =>
        rw [hd] at hc
        have hv : v < base := by simpa using hc
        have e : foldDigits base (s ++ [c]) = foldDigits base s * base + v := by
          unfold foldDigits
          rw [List.foldl_append]
          simp [hd]
        rw [e]
        exact .snoc (ih fun c' h => h1 c' (by simp [h])) ((digitVal_iff c v (by omega)).1 hd) hv

theorem takeDigits_end (base : Nat) (s : Str) (n : Nat) :
    (takeDigits base s).1 = n ∧ (takeDigits base s).2 = [] ↔ (∀ c ∈ s, isDigitIn base c = true) ∧ foldDigits base s = n := by
  unfold takeDigits foldDigits
  dsimp only
  constructor
  · rintro ⟨h1, h2⟩
    have hall : ∀ c ∈ s, isDigitIn base c = true := List.dropWhile_eq_nil_iff.1 h2
    refine ⟨hall, ?_⟩
    have := List.takeWhile_append_dropWhile (p := isDigitIn base) (l := s)
    rw [h2, List.append_nil] at this
    rw [this] at h1
    exact h1
  · rintro ⟨h1, h2⟩
    have h3 : s.dropWhile (isDigitIn base) = [] := List.dropWhile_eq_nil_iff.2 h1
    have := List.takeWhile_append_dropWhile (p := isDigitIn base) (l := s)
    rw [h3, List.append_nil] at this
    rw [this]
    exact ⟨h2, h3⟩

theorem zero_digit (base : Nat) (hb : 0 < base) : isDigitIn base '0' = true := by
  unfold isDigitIn
  rw [show digitVal '0' = some 0 from rfl]
  simpa using hb

theorem oct_zero (s : Str) (n : Nat) : Numeral 8 ('0' :: s) n ↔ Numeral 8 s n := by
  rw [numeral_iff 8 (by decide), numeral_iff 8 (by decide)]
  have e : foldDigits 8 ('0' :: s) = foldDigits 8 s := by
    unfold foldDigits
    rw [List.foldl_cons]
    rfl
  rw [e]
  constructor
  · exact fun h => ⟨fun c hc => h.1 c (by simp [hc]), h.2⟩
  · refine fun h => ⟨fun c hc => ?_, h.2⟩
    rcases List.mem_cons.1 hc with rfl | hc
    · exact zero_digit 8 (by decide)
    · exact h.1 c hc

theorem dec_first {c : Char} : (¬ (c.toNat < 48) ∧ ¬ (c.toNat > 57)) ↔ isDigitIn 10 c = true := by
  unfold isDigitIn digitVal
  by_cases h : 48 ≤ c.toNat ∧ c.toNat ≤ 57
  · rw [if_pos (by simpa using h)]
    simp only [decide_eq_true_eq]
    omega
  · rw [if_neg (by simpa using h)]
    constructor
    · intro h'; omega
    · intro h'
      exfalso
      split_ifs at h' with a b
      · simp only [Bool.and_eq_true, decide_eq_true_eq] at a h'
        omega
      · simp only [Bool.and_eq_true, decide_eq_true_eq] at b h'
        omega

theorem strtol_iff (c : Char) (s : Str) (hc : isDigitIn 10 c = true) (n : Nat) :
    (strtolBase0 (c :: s)).1 = n ∧ (strtolBase0 (c :: s)).2 = [] ↔ CInteger (c :: s) n := by
  by_cases h0 : c = '0'
  · subst h0
    have octc : (takeDigits 8 ('0' :: s)).1 = n ∧ (takeDigits 8 ('0' :: s)).2 = [] ↔ Numeral 8 s n := by
      rw [takeDigits_end, ← numeral_iff 8 (by decide), oct_zero]
    -- without a hexadecimal prefix
    have noHex : (∀ x d r, s = x :: d :: r → ¬ (((x == 'x' || x == 'X') && isDigitIn 16 d) = true)) →
        (strtolBase0 ('0' :: s) = takeDigits 8 ('0' :: s)) := by
      intro h
      cases s with
      | nil => rfl
      | cons x s =>
        cases s with
        | nil => rfl
        | cons d r => exact if_neg (h x d r rfl)
    by_cases hex : ∃ x d r, s = x :: d :: r ∧ ((x == 'x' || x == 'X') && isDigitIn 16 d) = true
    · obtain ⟨x, d, r, rfl, hx⟩ := hex
      have e : strtolBase0 ('0' :: x :: d :: r) = takeDigits 16 (d :: r) := if_pos hx
      rw [e, takeDigits_end, ← numeral_iff 16 (by decide)]
      simp only [Bool.and_eq_true, Bool.or_eq_true, beq_iff_eq] at hx
      constructor
      · exact fun h => .hex hx.1 (by simp) h
      · intro h
        cases h with
        | dec h => exact absurd rfl h
        | oct h =>
          exfalso
          have := ((numeral_iff 8 (by decide) _ _).1 h).1 x (by simp)
          rcases hx.1 with rfl | rfl <;> revert this <;> decide
        | hex _ _ h => exact h
    · rw [noHex (fun x d r e h => hex ⟨x, d, r, e, h⟩), octc]
      constructor
      · exact fun h => .oct h
      · intro h
        cases h with
        | dec h => exact absurd rfl h
        | oct h => exact h
        | @hex x s _ hx hs h =>
          exfalso
          cases s with
          | nil => exact hs rfl
          | cons d r =>
            apply hex
            refine ⟨x, d, r, rfl, ?_⟩
            have := ((numeral_iff 16 (by decide) _ _).1 h).1 d (by simp)
            rcases hx with rfl | rfl <;> simp [this]
  · have e : strtolBase0 (c :: s) = takeDigits 10 (c :: s) := by
      unfold strtolBase0
      split
      · rename_i h; injection h with h; exact absurd h h0
      · rename_i h; injection h with h; exact absurd h h0
      · rfl
    rw [e, takeDigits_end, ← numeral_iff 10 (by decide)]
    constructor
    · exact fun h => .dec h0 h
    · intro h
      cases h with
      | dec _ h => exact h
      | oct h => exact absurd rfl h0
      | hex => exact absurd rfl h0

theorem cinteger_first {s : Str} {n : Nat} (h : CInteger s n) : ∃ c r, s = c :: r ∧ isDigitIn 10 c = true := by
  cases h with
  | dec _ h => exact ⟨_, _, rfl, ((numeral_iff 10 (by decide) _ _).1 h).1 _ (by simp)⟩
  | oct h => exact ⟨_, _, rfl, rfl⟩
  | hex _ _ h => exact ⟨_, _, rfl, rfl⟩

/-- **C74.** `--buffer-size` takes the integers of C up to the largest `int`, with their value, and nothing else. -/
theorem C74_buffer_size (s : Str) (n : Nat) : parseBufferSize s = some n ↔ CInteger s n ∧ n ≤ 2147483647 := by
  constructor
  · intro h
    cases s with
    | nil => cases h
    | cons c s =>
      unfold parseBufferSize at h
      dsimp only at h
      by_cases hc : (decide (c.toNat < 48) || decide (c.toNat > 57)) = true
      · rw [if_pos hc] at h; cases h
      rw [if_neg hc] at h
      by_cases h1 : (strtolBase0 (c :: s)).1 > 2147483647
      · rw [if_pos h1] at h; cases h
      rw [if_neg h1] at h
      by_cases h2 : (strtolBase0 (c :: s)).2 ≠ []
      · rw [if_pos h2] at h; cases h
      rw [if_neg h2] at h
      cases h
      simp only [Bool.or_eq_true, decide_eq_true_eq, not_or] at hc
      exact ⟨(strtol_iff c s (dec_first.1 ⟨hc.1, hc.2⟩) _).1 ⟨rfl, by simpa using h2⟩, by omega⟩
  · rintro ⟨h, hn⟩
    obtain ⟨c, r, rfl, hc⟩ := cinteger_first h
    obtain ⟨h1, h2⟩ := (strtol_iff c r hc n).2 h
    unfold parseBufferSize
    dsimp only
    obtain ⟨a, b⟩ := dec_first.2 hc
    rw [if_neg (by simp; omega), h1, h2, if_neg (by omega), if_neg (by simp)]

example : parseBufferSize c!"65536" = some 65536 := by decide
example : parseBufferSize c!"0x10000" = some 65536 := by decide
example : parseBufferSize c!"010" = some 8 := by decide
example : parseBufferSize c!"09" = none := by decide
example : parseBufferSize c!"4294967296" = none := by decide
example : parseBufferSize c!"0x" = none := by decide
example : parseBufferSize c!"-1" = none := by decide
example : parseBufferSize c!"64k" = none := by decide

/-! ## Requests -/

theorem cvField_length (size : Nat) (h : 0 < size) (s : Str) : (cvField size s).length = size := by
  unfold cvField
  simp only [List.length_append, List.length_take, List.length_replicate]
  omega

theorem cvField_text (s : Str) (h : '\x00' ∉ s) : FieldText (cvField 64 s) (s.take 63) := by
  refine ⟨fun hm => h (List.mem_of_mem_take hm), .inl ⟨List.replicate (63 - (s.take 63).length) '\x00', ?_⟩⟩
  unfold cvField
  dsimp only
  have hl : (s.take (64 - 1)).length ≤ 63 := by rw [List.length_take]; omega
  rw [show 64 - (s.take (64 - 1)).length = (63 - (s.take 63).length) + 1 by
    show 64 - (s.take 63).length = _
    have : (s.take 63).length ≤ 63 := hl
    omega, List.replicate_succ]

theorem cvField_socket : cvField 32 c!"SOCKET" = c!"SOCKET" ++ List.replicate 26 '\x00' := by decide

/-- The message as the agent passes it on. -/
theorem putIdent_message {fd : Nat} (hfd : fd < 2 ^ 31) (a b sv : Wire) (ha : a.length = 64) (hb : b.length = 64) :
    putIdent fd (a ++ b ++ cvField 32 c!"SOCKET" ++ sv) =
      a ++ b ++ (c!"SOCKET" ++ printDec fd ++ List.replicate (32 - (c!"SOCKET" ++ printDec fd).length) '\x00') ++ sv := by
  obtain ⟨_, hlen⟩ := ident_text hfd
  have h6 : 6 ≤ (c!"SOCKET" ++ printDec fd).length := by
    rw [List.length_append]; show 6 ≤ 6 + _; omega
  rw [cvField_socket]
  unfold putIdent
  dsimp only
  generalize c!"SOCKET" ++ printDec fd = tx at hlen h6
  have l2 : (tx ++ ['\x00']).length = tx.length + 1 := by simp
  have e1 : (a ++ b ++ (c!"SOCKET" ++ List.replicate 26 '\x00') ++ sv).take 128 = a ++ b := by
    rw [List.append_assoc, List.take_append_of_le_length (by rw [List.length_append]; omega),
      List.take_of_length_le (by rw [List.length_append]; omega)]
  have e2 : (a ++ b ++ (c!"SOCKET" ++ List.replicate 26 '\x00') ++ sv).drop (128 + (tx ++ ['\x00']).length) =
      List.replicate (31 - tx.length) '\x00' ++ sv := by
    rw [List.append_assoc (a ++ b), List.drop_append, List.drop_eq_nil_of_le (by rw [List.length_append]; omega),
      List.nil_append, show (a ++ b).length = 64 + 64 by rw [List.length_append, ha, hb], l2, show 128 + (tx.length + 1) - (64 + 64) = tx.length + 1 by omega,
      List.drop_append_of_le_length (by
        rw [List.length_append, List.length_replicate]; show _ ≤ 6 + 26; omega), List.drop_append,
      List.drop_eq_nil_of_le (by show 6 ≤ _; omega), List.nil_append, List.drop_replicate]
    show List.replicate (26 - (tx.length + 1 - 6)) _ ++ _ = _
    rw [show 26 - (tx.length + 1 - 6) = 31 - tx.length by omega]
  rw [e1, e2, show 32 - tx.length = (31 - tx.length) + 1 by omega, List.replicate_succ]
  simp only [List.append_assoc, List.cons_append, List.nil_append]

/-- The identifier a client's request gets. -/
def cvIdent (fd : Nat) : Wire := c!"SOCKET" ++ printDec fd ++ List.replicate (32 - (c!"SOCKET" ++ printDec fd).length) '\x00'

theorem cvIdent_length {fd : Nat} (hfd : fd < 2 ^ 31) : (cvIdent fd).length = 32 := by
  obtain ⟨_, hlen⟩ := ident_text hfd
  unfold cvIdent
  generalize c!"SOCKET" ++ printDec fd = tx at hlen
  rw [List.length_append, List.length_replicate]; omega

theorem plainChars_digits : ∀ d ∈ c!"0123456789", d ∈ plainChars := by decide

theorem tomlDigit_mem {c : Char} (h : tomlDigit c = true) : c ∈ c!"0123456789" := by
  unfold tomlDigit at h
  simp only [Bool.and_eq_true, decide_eq_true_eq] at h
  have h1 : (48 : Nat) ≤ c.toNat := h.1
  have h2 : c.toNat ≤ (57 : Nat) := h.2
  have hc : c = Char.ofNat c.toNat := (Char.ofNat_toNat c).symm
  have : ∀ n ∈ List.range 58, 48 ≤ n → Char.ofNat n ∈ c!"0123456789" := by decide
  rw [hc]
  exact this c.toNat (List.mem_range.2 (by omega)) (by omega)

theorem cvIdent_text {fd : Nat} (hfd : fd < 2 ^ 31) : IdentText (cvIdent fd) := by
  obtain ⟨_, hlen⟩ := ident_text hfd
  refine ⟨c!"SOCKET" ++ printDec fd, 31 - (c!"SOCKET" ++ printDec fd).length, ?_, ?_⟩
  · unfold cvIdent
    generalize c!"SOCKET" ++ printDec fd = tx at hlen
    rw [show 31 - tx.length + 1 = 32 - tx.length by omega]
  · intro c hc
    left
    rcases List.mem_append.1 hc with hc | hc
    · have : ∀ c ∈ c!"SOCKET", c ∈ plainChars := by decide
      exact this c hc
    · exact plainChars_digits c (tomlDigit_mem ((printDec_spec fd).2.1 c hc))

/-- **C72, the way to the policy.** The request of `qrexec-client-vm [-s source] target service`, passed on by the agent, is
what the daemon of the qube takes it for: the target with `$` read as `@`, the service and the source, of the names the first
63 bytes, characters that names do not have replaced by `_`; the identifier names the client's descriptor. -/
theorem C72_request {fd : Nat} (hfd : fd < 2 ^ 31) (source : Option Str) (target service : Str)
    (h1 : '\x00' ∉ source.getD []) (h2 : '\x00' ∉ target) (h3 : '\x00' ∉ service)
    (h4 : service ≠ []) (h5 : service.head? ≠ some '+') (h6 : service.length < 65000) :
    ∃ type len body b, cvMessage source target service = (type, len, body) ∧ body.length = len ∧
      vaTrigger fd (some (type, len)) (some body) = [.forward 0x213 len b] ∧
      triggerMsg 4 4 b = .request (some (((source.getD []).take 63).map (cleanByte c!"@:")))
        (((target.map fun c => if c = '$' then '@' else c).take 63).map (cleanByte c!"@:"))
        (service.map (cleanByte c!"+")) (cvIdent fd) := by
  have hT : convertTarget target = target.map fun c => if c = '$' then '@' else c := by
    unfold convertTarget
    refine List.map_congr_left fun c _ => ?_
    by_cases h : c = '$'
    · subst h; rfl
    · rw [if_neg h, if_neg (by simpa using h)]
  have hT0 : '\x00' ∉ target.map fun c => if c = '$' then '@' else c := by
    intro hm
    obtain ⟨c, hc, e⟩ := List.mem_map.1 hm
    by_cases hd : c = '$'
    · rw [if_pos hd] at e; revert e; decide
    · rw [if_neg hd] at e; subst e; exact h2 hc
  refine ⟨_, _, _, putIdent fd (cvMessage source target service).2.2, rfl, ?_, ?_, ?_⟩
  · simp only [List.length_append, cvField_length 64 (by decide), cvField_length 32 (by decide), List.length_singleton]
  · unfold vaTrigger
    dsimp only
    rw [if_neg (by omega)]
    rfl
  · unfold cvMessage
    dsimp only
    rw [putIdent_message hfd _ _ _ (cvField_length 64 (by decide) _) (cvField_length 64 (by decide) _), hT, C53_accepted]
    refine ⟨.inr (.inr ⟨rfl, by decide⟩), some ((source.getD []).take 63), _, service,
      .v4 (cvField_length 64 (by decide) _) (cvField_length 64 (by decide) _) (cvIdent_length hfd) (cvField_text _ h1)
        (cvField_text _ hT0) h3 h6, cvIdent_text hfd, h4, h5, rfl, rfl, rfl⟩

/-- **C72, exactly what was asked for.** With names of permitted characters and at most 63 of them nothing is lost or
changed. -/
theorem C72_exact {fd : Nat} (hfd : fd < 2 ^ 31) (source : Option Str) (target service : Str)
    (h1 : ∀ c ∈ source.getD [], c ∈ plainChars ++ c!"@:") (l1 : (source.getD []).length ≤ 63)
    (h2 : ∀ c ∈ target, c ∈ plainChars ++ c!"@:") (l2 : target.length ≤ 63)
    (h3 : ∀ c ∈ service, c ∈ plainChars ++ c!"+")
    (h4 : service ≠ []) (h5 : service.head? ≠ some '+') (h6 : service.length < 65000) :
    ∃ type len body b, cvMessage source target service = (type, len, body) ∧
      vaTrigger fd (some (type, len)) (some body) = [.forward 0x213 len b] ∧
      triggerMsg 4 4 b = .request (some (source.getD [])) target service (cvIdent fd) := by
  have noNul : ∀ (e : List Char) (s : Str), '\x00' ∉ plainChars ++ e → (∀ c ∈ s, c ∈ plainChars ++ e) → '\x00' ∉ s :=
    fun e s h k hm => h (k _ hm)
  have n1 := noNul c!"@:" _ (by decide) h1
  have n2 := noNul c!"@:" _ (by decide) h2
  have n3 := noNul c!"+" _ (by decide) h3
  have clean : ∀ (e : List Char) (s : Str), (∀ c ∈ s, c ∈ plainChars ++ e) → s.map (cleanByte e) = s := by
    intro e s h
    conv_rhs => rw [← List.map_id s]
    refine List.map_congr_left fun c hc => ?_
    exact if_pos (List.mem_append.1 (h c hc))
  obtain ⟨type, len, body, b, e1, _, e2, e3⟩ := C72_request hfd source target service n1 n2 n3 h4 h5 h6
  refine ⟨type, len, body, b, e1, e2, ?_⟩
  have ht : target.map (fun c => if c = '$' then '@' else c) = target := by
    conv_rhs => rw [← List.map_id target]
    refine List.map_congr_left fun c hc => ?_
    refine if_neg ?_
    rintro rfl
    have := h2 _ hc
    revert this
    decide
  rw [e3, ht, List.take_of_length_le l1, List.take_of_length_le l2, clean _ _ h1, clean _ _ h2, clean _ _ h3]

/-- **C72, the decision.** What the policy daemon decides for such a request is what the policy says for exactly this source,
target and service. -/
theorem C72_evaluated (sys : Option Info) (policy : Except Err (List Rule)) (agent : Agent) (remote : Str)
    (hr : (∀ c ∈ remote, c.toNat < 128) ∧ '\n' ∉ remote ∧ remote.length ≤ 65000)
    {fd : Nat} (hfd : fd < 2 ^ 31) (source : Option Str) (target service : Str)
    (h1 : ∀ c ∈ source.getD [], c ∈ plainChars ++ c!"@:") (l1 : (source.getD []).length ≤ 63)
    (h2 : ∀ c ∈ target, c ∈ plainChars ++ c!"@:") (l2 : target.length ≤ 63)
    (h3 : ∀ c ∈ service, c ∈ plainChars ++ c!"+")
    (h4 : service ≠ []) (h5 : service.head? ≠ some '+') (h6 : service.length < 65000) (answer : Wire) :
    ∃ type len body b rs t s ident, cvMessage source target service = (type, len, body) ∧
      vaTrigger fd (some (type, len)) (some body) = [.forward 0x213 len b] ∧ triggerMsg 4 4 b = .request rs t s ident ∧
      ((handleClient sys policy agent (requestText remote rs t s)).2 = some answer ↔
        (handleRequest sys policy agent {} remote target service (source.getD [])).2 = .ok answer ∧
          ∀ c ∈ answer, c.toNat < 128) := by
  obtain ⟨type, len, body, b, e1, e2, e3⟩ := C72_exact hfd source target service h1 l1 h2 l2 h3 h4 h5 h6
  exact ⟨type, len, body, b, _, _, _, _, e1, e2, e3, C53_evaluated sys policy agent _ _ _ _ _ _ _ _ e3 hr answer⟩

/-- **C72, refusals.** A request without a service name, with an argument but no service, or with a name that is too long
does not reach the policy: the client's connection is closed, by the agent or on the answer of the daemon. -/
theorem C72_bad_name {fd : Nat} (hfd : fd < 2 ^ 31) (source : Option Str) (target service : Str)
    (h3 : '\x00' ∉ service) (hbad : service = [] ∨ service.head? = some '+' ∨ 65000 ≤ service.length) :
    ∃ type len body, cvMessage source target service = (type, len, body) ∧ body.length = len ∧
      (vaTrigger fd (some (type, len)) (some body) = [.closed fd] ∨
       ∃ b ident, vaTrigger fd (some (type, len)) (some body) = [.forward 0x213 len b] ∧ triggerMsg 4 4 b = .refuse ident ∧
         vaRefused ident = [.closed fd]) := by
  refine ⟨_, _, _, rfl, ?_, ?_⟩
  · simp only [List.length_append, cvField_length 64 (by decide), cvField_length 32 (by decide), List.length_singleton]
  by_cases hl : 65000 ≤ service.length
  · left
    unfold vaTrigger
    dsimp only
    rw [if_pos (by omega)]
  · right
    have hb := putIdent_message hfd (cvField 64 (source.getD [])) (cvField 64 (convertTarget target)) (service ++ ['\x00'])
      (cvField_length 64 (by decide) _) (cvField_length 64 (by decide) _)
    generalize cvField 64 (source.getD []) ++ cvField 64 (convertTarget target) ++ cvField 32 c!"SOCKET" ++ (service ++ ['\x00']) = body
      at hb
    have hlen : (putIdent fd body).length = 161 + service.length := by
      rw [hb]
      have := cvIdent_length hfd
      unfold cvIdent at this
      simp only [List.length_append, cvField_length 64 (by decide)] at this ⊢
      simp only [List.length_singleton]
      omega
    have hd160 : (putIdent fd body).drop 160 = service ++ ['\x00'] := by
      rw [hb, List.drop_append, List.drop_eq_nil_of_le, List.nil_append]
      all_goals
        have := cvIdent_length hfd
        unfold cvIdent at this
        rw [List.length_append, this, List.length_append, cvField_length 64 (by decide), cvField_length 64 (by decide)]
      rfl
    have hid : ((putIdent fd body).drop 128).take 32 = cvIdent fd := by
      rw [hb, List.append_assoc (_ ++ _), List.drop_append, List.drop_eq_nil_of_le, List.nil_append]
      all_goals rw [List.length_append, cvField_length 64 (by decide), cvField_length 64 (by decide)]
      rw [List.drop_zero, List.take_append_of_le_length, List.take_of_length_le]
      · rfl
      all_goals
        have := cvIdent_length hfd
        unfold cvIdent at this
        omega
    have hnd : triggerMsg 4 4 (putIdent fd body) ≠ .die := by
      intro h
      rw [C53_dies_iff] at h
      apply h
      exact ⟨.inr (.inr ⟨rfl, by decide⟩), .inr (.inr ⟨rfl, by omega, by omega⟩)⟩
    have hnr : ∀ rs t s i, triggerMsg 4 4 (putIdent fd body) ≠ .request rs t s i := by
      intro rs t s i h
      obtain ⟨_, rs0, t0, s0, hlay, _, h1, h2, _⟩ := (C53_accepted _ _ _ _ _ _ _).1 h
      generalize hk : (4 : Nat) = k at hlay
      generalize hz : putIdent fd body = z at hlay
      cases hlay with
      | v2 => cases hk
      | v3 => cases hk
      | v4 a1 a2 a3 a4 a5 a6 a7 =>
        rw [hz, List.drop_append, List.drop_eq_nil_of_le, List.nil_append] at hd160
        all_goals try rw [List.length_append, List.length_append, a1, a2, a3]
        rw [List.length_append, List.length_append, a1, a2, a3] at hd160
        have : s0 = service := List.append_cancel_right hd160
        subst this
        rcases hbad with q | q | q
        · exact h1 q
        · exact h2 q
        · exact hl q
    refine ⟨putIdent fd body, cvIdent fd, ?_, ?_, ?_⟩
    · unfold vaTrigger
      dsimp only
      rw [if_neg (by omega)]
    · cases ht : triggerMsg 4 4 (putIdent fd body) with
      | die => exact absurd ht hnd
      | request rs t s i => exact absurd ht (hnr rs t s i)
      | refuse i =>
        have := (C53_refused _ _ _ _ ht).2
        rw [if_neg (by decide), if_neg (by decide), hid] at this
        rw [this]
    · obtain ⟨_, hl2⟩ := ident_text hfd
      have : cvIdent fd = (c!"SOCKET" ++ printDec fd) ++ '\x00' ::
          List.replicate (31 - (c!"SOCKET" ++ printDec fd).length) '\x00' := by
        unfold cvIdent
        generalize c!"SOCKET" ++ printDec fd = tx at hl2
        rw [show 32 - tx.length = 31 - tx.length + 1 by omega, List.replicate_succ]
      rw [this]
      exact C69_refused hfd _

/-! ## Options -/

theorem said_cons (on off o : CvOpt) (os : List CvOpt) : said on off (o :: os) =
    (said on off os).or (if o = on then some true else if o = off then some false else none) := by
  rw [said]
  cases said on off os <;> rfl

theorem sourcesOf_cons (o : CvOpt) (os : List CvOpt) : sourcesOf (o :: os) =
    (match o with | .source s => [s] | _ => []) ++ sourcesOf os := by
  cases o <;> rfl

theorem prefixesOf_cons (o : CvOpt) (os : List CvOpt) : prefixesOf (o :: os) =
    (match o with | .prefixData s => [s] | _ => []) ++ prefixesOf os := by
  cases o <;> rfl

theorem cvOptions_spec (y : CvSys) (opts : List CvOpt) (v : CvVars) :
    (∀ v', cvOptions y v opts = .ok v' →
      v'.filterOut = (said .filterOut .noFilterOut opts).or v.filterOut ∧
      v'.filterErr = (said .filterErr .noFilterErr opts).or v.filterErr ∧
      v'.source = v.source.or (sourcesOf opts).head? ∧ v'.pfx = v.pfx.or (prefixesOf opts).head? ∧
      v'.stdinSocket = (v.stdinSocket || decide (.useStdinSocket ∈ opts))) ∧
    ((∃ v', cvOptions y v opts = .ok v') ↔
      .help ∉ opts ∧ .bad ∉ opts ∧ (∀ s, .bufferSize s ∈ opts → ∃ n, CInteger s n ∧ n ≤ 2147483647) ∧
      (sourcesOf opts).length + v.source.toList.length ≤ 1 ∧ (prefixesOf opts).length + v.pfx.toList.length ≤ 1 ∧
      opts.count .useStdinSocket + v.stdinSocket.toNat ≤ 1 ∧ (.useStdinSocket ∈ opts → y.stdinStream = true)) := by
  induction opts generalizing v with
  | nil =>
    refine ⟨?_, ?_⟩
    · intro v' h
      cases h
      simp [said, sourcesOf, prefixesOf]
    · refine ⟨fun _ => ?_, fun _ => ⟨v, rfl⟩⟩
      refine ⟨by simp, by simp, by simp, ?_, ?_, ?_, by simp⟩
      · cases v.source <;> simp [sourcesOf]
      · cases v.pfx <;> simp [prefixesOf]
      · cases v.stdinSocket <;> simp
  | cons o os ih =>
    -- an option that sets something
    have step : ∀ v1, cvOption y v o = .ok v1 → cvOptions y v (o :: os) = cvOptions y v1 os := by
      intro v1 h; rw [cvOptions, h]
    have stop : ∀ st, cvOption y v o = .error st → ¬ ∃ v', cvOptions y v (o :: os) = .ok v' := by
      rintro st h ⟨v', h'⟩
      rw [cvOptions, h] at h'
      cases h'
    cases o with
    | bufferSize s =>
      cases hp : parseBufferSize s with
      | none =>
        have := stop 1 (by simp [cvOption, hp])
        refine ⟨fun v' h => absurd ⟨v', h⟩ this, iff_of_false this ?_⟩
        rintro ⟨_, _, h, _⟩
        obtain ⟨n, hn⟩ := h s (by simp)
        rw [(C74_buffer_size s n).2 hn] at hp
        cases hp
      | some n =>
        rw [step { v with bufferSize := n } (by simp [cvOption, hp])]
        obtain ⟨i1, i2⟩ := ih { v with bufferSize := n }
        refine ⟨fun v' h => ?_, ?_⟩
        · obtain ⟨a, b, c, d, e⟩ := i1 v' h
          simp [said_cons, sourcesOf_cons, prefixesOf_cons, a, b, c, d, e]
        · rw [i2]
          have hn := (C74_buffer_size s n).1 hp
          simp only [List.mem_cons, sourcesOf_cons, prefixesOf_cons, List.nil_append, List.count_cons]
          constructor
          · rintro ⟨h1, h2, h3, h4, h5, h6, h7⟩
            refine ⟨by simpa using h1, by simpa using h2, ?_, h4, h5, by simpa using h6, by simpa using h7⟩
            rintro s' (e | e)
            · cases e; exact ⟨n, hn⟩
            · exact h3 s' e
          · rintro ⟨h1, h2, h3, h4, h5, h6, h7⟩
            exact ⟨by simpa using h1, by simpa using h2, fun s' e => h3 s' (.inr e), h4, h5, by simpa using h6, by simpa using h7⟩
    | help =>
      have := stop 0 rfl
      exact ⟨fun v' h => absurd ⟨v', h⟩ this, iff_of_false this (fun h => h.1 (by simp))⟩
    | bad =>
      have := stop 2 rfl
      exact ⟨fun v' h => absurd ⟨v', h⟩ this, iff_of_false this (fun h => h.2.1 (by simp))⟩
    | filterOut =>
      rw [step _ rfl]
      obtain ⟨i1, i2⟩ := ih { v with filterOut := some true }
      refine ⟨fun v' h => ?_, ?_⟩
      · obtain ⟨a, b, c, d, e⟩ := i1 v' h
        simp [said_cons, sourcesOf_cons, prefixesOf_cons, a, b, c, d, e]
      · rw [i2]; simp [sourcesOf_cons, prefixesOf_cons, List.count_cons]
    | noFilterOut =>
      rw [step _ rfl]
      obtain ⟨i1, i2⟩ := ih { v with filterOut := some false }
      refine ⟨fun v' h => ?_, ?_⟩
      · obtain ⟨a, b, c, d, e⟩ := i1 v' h
        simp [said_cons, sourcesOf_cons, prefixesOf_cons, a, b, c, d, e]
      · rw [i2]; simp [sourcesOf_cons, prefixesOf_cons, List.count_cons]
    | filterErr =>
      rw [step _ rfl]
      obtain ⟨i1, i2⟩ := ih { v with filterErr := some true }
      refine ⟨fun v' h => ?_, ?_⟩
      · obtain ⟨a, b, c, d, e⟩ := i1 v' h
        simp [said_cons, sourcesOf_cons, prefixesOf_cons, a, b, c, d, e]
      · rw [i2]; simp [sourcesOf_cons, prefixesOf_cons, List.count_cons]
    | noFilterErr =>
      rw [step _ rfl]
      obtain ⟨i1, i2⟩ := ih { v with filterErr := some false }
      refine ⟨fun v' h => ?_, ?_⟩
      · obtain ⟨a, b, c, d, e⟩ := i1 v' h
        simp [said_cons, sourcesOf_cons, prefixesOf_cons, a, b, c, d, e]
      · rw [i2]; simp [sourcesOf_cons, prefixesOf_cons, List.count_cons]
    | agentSocket s =>
      rw [step _ rfl]
      obtain ⟨i1, i2⟩ := ih { v with path := s }
      refine ⟨fun v' h => ?_, ?_⟩
      · obtain ⟨a, b, c, d, e⟩ := i1 v' h
        simp [said_cons, sourcesOf_cons, prefixesOf_cons, a, b, c, d, e]
      · rw [i2]; simp [sourcesOf_cons, prefixesOf_cons, List.count_cons]
    | source s =>
      cases hs : v.source with
      | some s0 =>
        have := stop 2 (by simp [cvOption, hs])
        refine ⟨fun v' h => absurd ⟨v', h⟩ this, iff_of_false this ?_⟩
        rintro ⟨_, _, _, h, _⟩
        simp [sourcesOf_cons] at h
      | none =>
        rw [step { v with source := some s } (by simp [cvOption, hs])]
        obtain ⟨i1, i2⟩ := ih { v with source := some s }
        refine ⟨fun v' h => ?_, ?_⟩
        · obtain ⟨a, b, c, d, e⟩ := i1 v' h
          simp [said_cons, sourcesOf_cons, prefixesOf_cons, a, b, c, d, e]
        · rw [i2]; simp [sourcesOf_cons, prefixesOf_cons, List.count_cons]
    | prefixData s =>
      cases hs : v.pfx with
      | some s0 =>
        have := stop 2 (by simp [cvOption, hs])
        refine ⟨fun v' h => absurd ⟨v', h⟩ this, iff_of_false this ?_⟩
        rintro ⟨_, _, _, _, h, _⟩
        simp [prefixesOf_cons] at h
      | none =>
        rw [step { v with pfx := some s } (by simp [cvOption, hs])]
        obtain ⟨i1, i2⟩ := ih { v with pfx := some s }
        refine ⟨fun v' h => ?_, ?_⟩
        · obtain ⟨a, b, c, d, e⟩ := i1 v' h
          simp [said_cons, sourcesOf_cons, prefixesOf_cons, a, b, c, d, e]
        · rw [i2]; simp [sourcesOf_cons, prefixesOf_cons, List.count_cons]
    | useStdinSocket =>
      by_cases h1 : v.stdinSocket = true
      · have := stop 2 (by simp [cvOption, h1])
        refine ⟨fun v' h => absurd ⟨v', h⟩ this, iff_of_false this ?_⟩
        rintro ⟨_, _, _, _, _, h, _⟩
        simp [h1, List.count_cons] at h
      · have h1 : v.stdinSocket = false := by simpa using h1
        by_cases h2 : y.stdinStream = true
        · rw [step { v with stdinSocket := true } (by simp [cvOption, h1, h2])]
          obtain ⟨i1, i2⟩ := ih { v with stdinSocket := true }
          refine ⟨fun v' h => ?_, ?_⟩
          · obtain ⟨a, b, c, d, e⟩ := i1 v' h
            simp [said_cons, sourcesOf_cons, prefixesOf_cons, a, b, c, d, e]
          · rw [i2]; simp [sourcesOf_cons, prefixesOf_cons, List.count_cons, h1, h2]
        · have := stop 2 (by simp [cvOption, h1, h2])
          exact ⟨fun v' h => absurd ⟨v', h⟩ this, iff_of_false this (fun h => h2 (h.2.2.2.2.2.2 (by simp)))⟩

theorem cvOptions_last (y : CvSys) (opts : List CvOpt) (v v' : CvVars) (h : cvOptions y v opts = .ok v') :
    v'.path = (socketsOf opts).getLast?.getD v.path ∧
    (∀ s, (sizesOf opts).getLast? = some s → CInteger s v'.bufferSize) ∧
    ((sizesOf opts).getLast? = none → v'.bufferSize = v.bufferSize) := by
  induction opts generalizing v with
  | nil => cases h; exact ⟨rfl, (fun s h => by cases h), fun _ => rfl⟩
  | cons o os ih =>
    rw [cvOptions] at h
    cases hc : cvOption y v o with
    | error st => rw [hc] at h; cases h
    | ok v1 =>
      rw [hc] at h
      obtain ⟨i1, i2, i3⟩ := ih v1 h
      have plain : v1.path = v.path → v1.bufferSize = v.bufferSize → socketsOf (o :: os) = socketsOf os →
          sizesOf (o :: os) = sizesOf os → v'.path = (socketsOf (o :: os)).getLast?.getD v.path ∧
          (∀ s, (sizesOf (o :: os)).getLast? = some s → CInteger s v'.bufferSize) ∧
          ((sizesOf (o :: os)).getLast? = none → v'.bufferSize = v.bufferSize) := by
        intro e1 e2 e3 e4
        rw [e3, e4, ← e1, ← e2]
        exact ⟨i1, i2, i3⟩
      cases o with
      | bufferSize s =>
        simp only [cvOption] at hc
        cases hp : parseBufferSize s with
        | none => rw [hp] at hc; cases hc
        | some n =>
          rw [hp] at hc
          cases hc
          refine ⟨i1, ?_, ?_⟩
          · intro s' hs'
            rw [show sizesOf (.bufferSize s :: os) = s :: sizesOf os from rfl, List.getLast?_cons] at hs'
            cases hl : (sizesOf os).getLast? with
            | some x =>
              rw [hl] at hs'
              exact i2 s' (hl.trans hs')
            | none =>
              rw [hl] at hs'
              rw [i3 hl]
              cases hs'
              exact ((C74_buffer_size s n).1 hp).1
          · intro q
            rw [show sizesOf (.bufferSize s :: os) = s :: sizesOf os from rfl, List.getLast?_cons] at q
            cases q
      | agentSocket s =>
        cases hc
        refine ⟨?_, i2, i3⟩
        rw [show socketsOf (.agentSocket s :: os) = s :: socketsOf os from rfl, List.getLast?_cons, i1]
        rfl
      | help => cases hc
      | bad => cases hc
      | filterOut => cases hc; exact plain rfl rfl rfl rfl
      | filterErr => cases hc; exact plain rfl rfl rfl rfl
      | noFilterOut => cases hc; exact plain rfl rfl rfl rfl
      | noFilterErr => cases hc; exact plain rfl rfl rfl rfl
      | source s =>
        simp only [cvOption] at hc
        split_ifs at hc
        cases hc; exact plain rfl rfl rfl rfl
      | prefixData s =>
        simp only [cvOption] at hc
        split_ifs at hc
        cases hc; exact plain rfl rfl rfl rfl
      | useStdinSocket =>
        simp only [cvOption] at hc
        split_ifs at hc
        cases hc; exact plain rfl rfl rfl rfl

/-! ## The whole program -/

/-- What it does with the command line `opts`, `target service program…`, up to the answer of the agent. -/
theorem cvMain_sent (y : CvSys) (opts : List CvOpt) (args : List Str) :
    ((cvMain y opts args).1 ≠ none ↔ OptionsOk y.stdinStream opts ∧ 2 ≤ args.length ∧ (args.length = 2 ∨ .useStdinSocket ∉ opts) ∧
      y.connects = true) ∧
    ((cvMain y opts args).1 = none → ∃ st, (cvMain y opts args).2 = .exit st ∧ st ≤ 2) := by
  obtain ⟨i1, i2⟩ := cvOptions_spec y opts {}
  have ok : (∃ v', cvOptions y {} opts = .ok v') ↔ OptionsOk y.stdinStream opts := by
    rw [i2]; unfold OptionsOk; simp
  unfold cvMain
  cases ho : cvOptions y {} opts with
  | error st =>
    have hno : ¬ OptionsOk y.stdinStream opts := by
      rw [← ok, ho]; rintro ⟨_, h⟩; cases h
    refine ⟨by simp [hno], fun _ => ⟨st, rfl, ?_⟩⟩
    have : ∀ (os : List CvOpt) (v : CvVars), cvOptions y v os = .error st → st ≤ 2 := by
      intro os
      induction os with
      | nil => intro v h; cases h
      | cons o os ih =>
        intro v h
        rw [cvOptions] at h
        cases hc : cvOption y v o with
        | ok v1 => rw [hc] at h; exact ih v1 h
        | error st' =>
          rw [hc] at h
          cases h
          cases o <;> simp only [cvOption] at hc
          · cases hp : parseBufferSize _ <;> rw [hp] at hc <;> cases hc; decide
          all_goals first | (cases hc; decide) | (split_ifs at hc <;> cases hc <;> decide) | cases hc
    exact this _ _ ho
  | ok v =>
    have hyes : OptionsOk y.stdinStream opts := ok.1 ⟨v, ho⟩
    obtain ⟨_, _, _, _, hsock⟩ := i1 v ho
    dsimp only
    match args with
    | [] => exact ⟨by simp, fun _ => ⟨2, rfl, by decide⟩⟩
    | [a] => exact ⟨by simp, fun _ => ⟨2, rfl, by decide⟩⟩
    | target :: service :: rest =>
      dsimp only
      have hs : v.stdinSocket = decide (CvOpt.useStdinSocket ∈ opts) := by simpa using hsock
      by_cases h1 : (!rest.isEmpty && v.stdinSocket) = true
      · rw [if_pos h1]
        refine ⟨?_, fun _ => ⟨2, rfl, by decide⟩⟩
        rw [hs] at h1
        simp only [Bool.and_eq_true, Bool.not_eq_true', decide_eq_true_eq] at h1
        have : rest ≠ [] := by rintro rfl; simp at h1
        refine iff_of_false (by simp) ?_
        rintro ⟨_, _, q | q, _⟩
        · exact this (List.length_eq_zero_iff.1 (by simpa using q))
        · exact q h1.2
      · rw [if_neg h1]
        have h1' : rest = [] ∨ CvOpt.useStdinSocket ∉ opts := by
          rw [hs] at h1
          simp only [Bool.and_eq_true, Bool.not_eq_true', decide_eq_true_eq, not_and] at h1
          by_cases hr : rest = []
          · exact .inl hr
          · exact .inr (h1 (by simpa using hr))
        by_cases h2 : y.connects = true
        · rw [if_neg (by simp [h2])]
          have rhs : (OptionsOk y.stdinStream opts ∧ 2 ≤ (target :: service :: rest).length ∧
              ((target :: service :: rest).length = 2 ∨ CvOpt.useStdinSocket ∉ opts) ∧ y.connects = true) := by
            refine ⟨hyes, by simp, ?_, h2⟩
            rcases h1' with h | h
            · exact .inl (by simp [h])
            · exact .inr h
          have some_case : ∀ (p : Option (Str × Nat × Nat × Wire) × CvEnd), p.1 ≠ none →
              ((p.1 ≠ none ↔ (OptionsOk y.stdinStream opts ∧ 2 ≤ (target :: service :: rest).length ∧
              ((target :: service :: rest).length = 2 ∨ CvOpt.useStdinSocket ∉ opts) ∧ y.connects = true)) ∧
              (p.1 = none → ∃ st, p.2 = .exit st ∧ st ≤ 2)) :=
            fun p hp => ⟨iff_of_true hp rhs, fun h => absurd h hp⟩
          apply some_case
          by_cases h3 : (!y.sends) = true
          · rw [if_pos h3]; simp
          · rw [if_neg h3]
            cases y.answer with
            | none => simp
            | some a =>
              dsimp only
              by_cases h4 : a.length = 0
              · rw [if_pos h4]; simp
              rw [if_neg h4]
              by_cases h5 : a.length ≠ 8
              · rw [if_pos h5]; simp
              rw [if_neg h5]
              by_cases h6 : (!rest.isEmpty) = true
              · rw [if_pos h6]
                by_cases h7 : (!y.forks) = true
                · rw [if_pos h7]; simp
                · rw [if_neg h7]; simp
              · rw [if_neg h6]; simp
        · rw [if_pos (by simpa using h2)]
          exact ⟨by simp [h2], fun _ => ⟨1, rfl, by decide⟩⟩

/-- What is wanted of the two filters: what the last option for the stream says, and otherwise whether it is a terminal. -/
def wantFilter (said : Option Bool) (tty : Bool) : Bool := said.getD tty

/-- **C72, the program.** With options that make sense, a target and a service, and no local program together with a socket
on stdin, the program sends one message, which is the request of `C72_request` for the source given with `-s` (if any);
otherwise it sends nothing and exits with a status of at most 2. It exits with 126 exactly if the agent, having got the
message, closes the connection, and goes on exactly if it got a domain and a port; then it talks to this domain on this
port. -/
theorem C72_main (y : CvSys) (opts : List CvOpt) (args : List Str) (sent : Option (Str × Nat × Nat × Wire)) (e : CvEnd)
    (h : cvMain y opts args = (sent, e)) :
    (sent ≠ none ↔ OptionsOk y.stdinStream opts ∧ 2 ≤ args.length ∧ (args.length = 2 ∨ .useStdinSocket ∉ opts) ∧ y.connects = true) ∧
    (sent = none → ∃ st, e = .exit st ∧ st ≤ 2) ∧
    (∀ path m, sent = some (path, m) → ∃ target service rest, args = target :: service :: rest ∧
      path = (socketsOf opts).getLast?.getD c!"/var/run/qubes/qrexec-agent" ∧
      m = cvMessage (sourcesOf opts).head? target service) ∧
    (e = .exit 126 ↔ sent ≠ none ∧ y.sends = true ∧ y.answer = some []) ∧
    (∀ d p bs prog c socket pfx, e = .connected d p bs prog c socket pfx →
      sent ≠ none ∧ ∃ a, y.answer = some a ∧ a.length = 8 ∧ d = u32of a ∧ p = u32of (a.drop 4)) := by
  have hm := cvMain_sent y opts args
  rw [h] at hm
  refine ⟨hm.1, hm.2, ?_⟩
  have hnone : sent = none → e ≠ .exit 126 := by
    intro hs he
    obtain ⟨st, h1, h2⟩ := hm.2 hs
    rw [show e = .exit st from h1] at he
    cases he
    exact absurd h2 (by decide)
  have hnone' : sent = none → ∀ d p bs prog c socket pfx, e ≠ .connected d p bs prog c socket pfx := by
    intro hs d p bs prog c socket pfx he
    obtain ⟨st, h1, h2⟩ := hm.2 hs
    rw [show e = .exit st from h1] at he
    cases he
  by_cases hs : sent = none
  · refine ⟨?_, ?_, ?_⟩
    · rintro p m rfl; cases hs
    · exact iff_of_false (hnone hs) (fun h => h.1 hs)
    · intro d p bs prog c socket pfx he; exact absurd he (hnone' hs _ _ _ _ _ _ _)
  · obtain ⟨i1, i2⟩ := cvOptions_spec y opts {}
    unfold cvMain at h
    cases ho : cvOptions y {} opts with
    | error st => rw [ho] at h; cases h; exact absurd rfl hs
    | ok v =>
      obtain ⟨_, _, hsrc, _, _⟩ := i1 v ho
      have hsrc : v.source = (sourcesOf opts).head? := by simpa using hsrc
      rw [ho] at h
      dsimp only at h
      match args, h with
      | [], h => cases h; exact absurd rfl hs
      | [a], h => cases h; exact absurd rfl hs
      | target :: service :: rest, h =>
        dsimp only at h
        by_cases h1 : (!rest.isEmpty && v.stdinSocket) = true
        · rw [if_pos h1] at h; cases h; exact absurd rfl hs
        · rw [if_neg h1] at h
          by_cases h2 : (!y.connects) = true
          · rw [if_pos h2] at h; cases h; exact absurd rfl hs
          · rw [if_neg h2, hsrc] at h
            have fin : ∀ e', (some (v.path, cvMessage (sourcesOf opts).head? target service), e') = (sent, e) →
                sent = some (v.path, cvMessage (sourcesOf opts).head? target service) ∧ e = e' := by
              intro e' h; cases h; exact ⟨rfl, rfl⟩
            -- all of the rest, from the end alone
            have pack : ∀ e', (some (v.path, cvMessage (sourcesOf opts).head? target service), e') = (sent, e) →
                (e' = .exit 126 ↔ y.sends = true ∧ y.answer = some []) →
                (∀ d p bs prog c socket pfx, e' = .connected d p bs prog c socket pfx →
                  ∃ a, y.answer = some a ∧ a.length = 8 ∧ d = u32of a ∧ p = u32of (a.drop 4)) →
                (∀ path m, sent = some (path, m) → ∃ target' service' rest', target :: service :: rest = target' :: service' :: rest' ∧
                  path = (socketsOf opts).getLast?.getD c!"/var/run/qubes/qrexec-agent" ∧
                  m = cvMessage (sourcesOf opts).head? target' service') ∧
                (e = .exit 126 ↔ sent ≠ none ∧ y.sends = true ∧ y.answer = some []) ∧
                (∀ d p bs prog c socket pfx, e = .connected d p bs prog c socket pfx →
                  sent ≠ none ∧ ∃ a, y.answer = some a ∧ a.length = 8 ∧ d = u32of a ∧ p = u32of (a.drop 4)) := by
              intro e' h hi hc
              obtain ⟨e1, e2⟩ := fin e' h
              subst e2
              refine ⟨?_, ?_, fun d p bs prog c socket pfx he => ⟨hs, hc _ _ _ _ _ _ _ he⟩⟩
              · intro path m hpm
                rw [e1] at hpm
                cases hpm
                exact ⟨_, _, _, rfl, (cvOptions_last y opts _ v ho).1, rfl⟩
              · rw [hi]; exact ⟨fun q => ⟨hs, q⟩, fun q => q.2⟩
            by_cases h3 : y.sends = true
            · rw [if_neg (by simp [h3])] at h
              cases ha : y.answer with
              | none =>
                rw [ha] at h
                rw [ha] at pack
                exact pack _ h (by simp) (by simp)
              | some a =>
                rw [ha] at h
                dsimp only at h
                rw [ha] at pack
                by_cases h4 : a.length = 0
                · rw [if_pos h4] at h
                  exact pack _ h (by simp [h3, List.length_eq_zero_iff.1 h4]) (by simp)
                · rw [if_neg h4] at h
                  have hne : ¬ a = [] := fun q => h4 (by simp [q])
                  by_cases h5 : a.length = 8
                  · rw [if_neg (by simp [h5])] at h
                    have conn : ∀ prog fo fe, dataClient y v prog fo fe (u32of a) (u32of (a.drop 4)) ≠ .exit 126 ∧
                        ∀ d p bs prog' c socket pfx, dataClient y v prog fo fe (u32of a) (u32of (a.drop 4)) =
                          .connected d p bs prog' c socket pfx →
                          ∃ b, some a = some b ∧ b.length = 8 ∧ d = u32of b ∧ p = u32of (b.drop 4) := by
                      intro prog fo fe
                      unfold dataClient
                      by_cases hv : (!y.vchan) = true
                      · rw [if_pos hv]
                        exact ⟨by simp, by simp⟩
                      · rw [if_neg hv]
                        refine ⟨by simp, ?_⟩
                        intro d p bs prog' c socket pfx he
                        cases he
                        exact ⟨a, rfl, h5, rfl, rfl⟩
                    by_cases hr : (!rest.isEmpty) = true
                    · rw [if_pos hr] at h
                      by_cases hf : (!y.forks) = true
                      · rw [if_pos hf] at h
                        exact pack _ h (by simp [hne]) (by simp)
                      · rw [if_neg hf] at h
                        exact pack _ h (iff_of_false (conn _ _ _).1 (by simp [hne])) (conn _ _ _).2
                    · rw [if_neg hr] at h
                      exact pack _ h (iff_of_false (conn _ _ _).1 (by simp [hne])) (conn _ _ _).2
                  · rw [if_pos h5] at h
                    exact pack _ h (by simp [hne]) (by simp)
            · rw [if_pos (by simpa using h3)] at h
              exact pack _ h (by simp [h3]) (by simp)

/-- **C73, the options of the connection.** Once connected, output is filtered if the last of `-t` and `--no-filter-escape-chars-stdout`
says so, or, with neither, if it goes to a terminal (and not to a local program); the same for the standard error with `-T` and
its opposite; the local program is the rest of the command line; data given with `-p` are sent first; the size of the buffer
is the last one given, or 64 kB. -/
theorem C73_options (y : CvSys) (opts : List CvOpt) (target service : Str) (rest : List Str)
    (sent : Option (Str × Nat × Nat × Wire)) (d p bs : Nat) (prog : Option (List Str)) (c : IoCfg) (socket : Bool) (pfx : Str)
    (h : cvMain y opts (target :: service :: rest) = (sent, .connected d p bs prog c socket pfx)) :
    c.replaceOut = wantFilter (said .filterOut .noFilterOut opts) (y.tty1 && decide (rest = [])) ∧
    c.replaceErr = wantFilter (said .filterErr .noFilterErr opts) y.tty2 ∧
    c.isService = false ∧ c.exitOnStdinEof = false ∧ c.exitOnStdoutEof = false ∧ c.maxChunk = maxDataChunk y.version ∧
    (rest = [] → prog = none ∧ c.hasPid = false) ∧ (rest ≠ [] → prog = some rest ∧ c.hasPid = true ∧ socket = false) ∧
    (socket = true ↔ .useStdinSocket ∈ opts) ∧ pfx = (prefixesOf opts).head?.getD [] ∧
    (∃ n, (∀ s, (sizesOf opts).getLast? = some s → CInteger s n) ∧ ((sizesOf opts).getLast? = none → n = 0) ∧
      bs = if n = 0 then 65536 else n) := by
  obtain ⟨i1, _⟩ := cvOptions_spec y opts {}
  unfold cvMain at h
  cases ho : cvOptions y {} opts with
  | error st => rw [ho] at h; cases h
  | ok v =>
    obtain ⟨hfo, hfe, _, hpf, hso⟩ := i1 v ho
    have hfo : v.filterOut = said .filterOut .noFilterOut opts := by simpa using hfo
    have hfe : v.filterErr = said .filterErr .noFilterErr opts := by simpa using hfe
    have hpf : v.pfx = (prefixesOf opts).head? := by simpa using hpf
    have hso : v.stdinSocket = decide (CvOpt.useStdinSocket ∈ opts) := by simpa using hso
    rw [ho] at h
    dsimp only at h
    by_cases h1 : (!rest.isEmpty && v.stdinSocket) = true
    · rw [if_pos h1] at h; cases h
    rw [if_neg h1] at h
    by_cases h2 : (!y.connects) = true
    · rw [if_pos h2] at h; cases h
    rw [if_neg h2] at h
    by_cases h3 : (!y.sends) = true
    · rw [if_pos h3] at h; cases h
    rw [if_neg h3] at h
    cases ha : y.answer with
    | none => rw [ha] at h; cases h
    | some a =>
      rw [ha] at h
      dsimp only at h
      by_cases h4 : a.length = 0
      · rw [if_pos h4] at h; cases h
      rw [if_neg h4] at h
      by_cases h5 : a.length ≠ 8
      · rw [if_pos h5] at h; cases h
      rw [if_neg h5] at h
      have errF : ((if (v.filterErr == none && y.tty2) = true then some true else v.filterErr) == some true) =
          wantFilter (said .filterErr .noFilterErr opts) y.tty2 := by
        rw [hfe]
        unfold wantFilter
        cases said .filterErr .noFilterErr opts with
        | none => cases y.tty2 <;> rfl
        | some b => cases b <;> cases y.tty2 <;> rfl
      have outF : ((if (rest.isEmpty && v.filterOut == none && y.tty1) = true then some true else v.filterOut) == some true) =
          wantFilter (said .filterOut .noFilterOut opts) (y.tty1 && decide (rest = [])) := by
        rw [hfo]
        unfold wantFilter
        cases said .filterOut .noFilterOut opts with
        | none => cases y.tty1 <;> cases rest <;> rfl
        | some b => cases b <;> cases y.tty1 <;> cases rest <;> rfl
      by_cases hr : rest = []
      · subst hr
        rw [if_neg (by simp)] at h
        unfold dataClient at h
        by_cases h6 : (!y.vchan) = true
        · rw [if_pos h6] at h; cases h
        rw [if_neg h6] at h
        cases h
        refine ⟨outF, errF, rfl, rfl, rfl, rfl, fun _ => ⟨rfl, rfl⟩, fun q => absurd rfl q, ?_, by rw [hpf],
          ⟨v.bufferSize, (cvOptions_last y opts _ v ho).2.1, (cvOptions_last y opts _ v ho).2.2, rfl⟩⟩
        rw [hso]; simp
      · rw [if_pos (by simpa using hr)] at h
        by_cases h7 : (!y.forks) = true
        · rw [if_pos h7] at h; cases h
        rw [if_neg h7] at h
        unfold dataClient at h
        by_cases h6 : (!y.vchan) = true
        · rw [if_pos h6] at h; cases h
        rw [if_neg h6] at h
        have hsf : v.stdinSocket = false := by
          cases rest with
          | nil => exact absurd rfl hr
          | cons _ _ => simpa using h1
        cases h
        refine ⟨outF, errF, rfl, rfl, rfl, rfl, fun q => absurd q hr, fun _ => ⟨rfl, rfl, hsf⟩, ?_, by rw [hpf],
          ⟨v.bufferSize, (cvOptions_last y opts _ v ho).2.1, (cvOptions_last y opts _ v ho).2.2, rfl⟩⟩
        rw [hso]; simp

/-! ## What reaches a terminal -/

def LogSafe (s : IoSt) : Prop := ∀ ch ∈ s.logged, TerminalSafe ch

theorem LogSafe.same {s s' : IoSt} (h : LogSafe s) (k : SameIn s s') : LogSafe s' := by
  unfold LogSafe; rw [k.logged]; exact h

theorem remoteLoop_safe (c : IoCfg) (hc : c.replaceErr = true) (q : List InItem) (ks : List Sys) (s : IoSt) (h : LogSafe s) :
    LogSafe (remoteLoop c q ks s).2 := by
  induction q generalizing ks s with
  | nil => exact h
  | cons i q ih =>
    cases i with
    | broken => exact h
    | msg t d =>
      rw [remoteLoop]
      dsimp only
      by_cases h1 : d.length > c.maxChunk
      · rw [if_pos h1]; exact h
      rw [if_neg h1]
      by_cases h2 : (t == msgStdin || t == msgStdout) = true
      · rw [if_pos h2]
        by_cases h3 : (s.stdin == false) = true
        · rw [if_pos h3]; exact ih _ _ h
        rw [if_neg h3]
        by_cases h4 : (d.length == 0) = true
        · rw [if_pos h4]; exact h
        rw [if_neg h4]
        generalize writeStdin ks (if c.replaceOut = true then doReplaceChars d else d) s.buf = w
        obtain ⟨r, b, w, ks'⟩ := w
        cases r
        · exact ih _ _ h
        · exact h
        · exact h
        · exact h
      rw [if_neg h2]
      by_cases h5 : (t == msgStderr) = true
      · rw [if_pos h5]
        by_cases h6 : c.isService = true
        · rw [if_pos h6]; exact ih _ _ h
        rw [if_neg h6]
        refine ih _ _ ?_
        intro ch hch
        rw [if_pos hc] at hch
        rcases List.mem_append.1 hch with hch | hch
        · exact h ch hch
        · exact (C48_filter d).1 ch hch
      rw [if_neg h5]
      split_ifs
      · exact ih _ _ h
      all_goals exact h

theorem handleRemote_safe (c : IoCfg) (hc : c.replaceErr = true) (ks : List Sys) (s : IoSt) (h : LogSafe s) :
    LogSafe (handleRemoteData c ks s).2 := by
  unfold handleRemoteData
  split_ifs
  · exact remoteLoop_safe c hc _ _ _ h
  · generalize flushClientData ks s.buf = w
    obtain ⟨r, b, w, ks'⟩ := w
    cases r
    · exact remoteLoop_safe c hc _ _ _ h
    · exact h
    · exact h
    · exact h

theorem ioRemote_safe (c : IoCfg) (hc : c.replaceErr = true) (t : Tick) (s : IoSt) (h : LogSafe s) :
    LogSafe (ioRemote c t s).st := by
  have hs := handleRemote_safe c hc t.writes s h
  unfold ioRemote
  generalize handleRemoteData c t.writes s = r at hs
  obtain ⟨r, s1⟩ := r
  cases r
  · refine LogSafe.same ?_ (closeStdout_sameIn c _)
    split_ifs
    · exact LogSafe.same hs (sendEof_sameIn c _ _)
    · exact hs
  · exact hs
  · exact LogSafe.same hs (closeStdin_sameIn c _ _)
  · exact hs
  · exact hs

theorem ioTick_safe (c : IoCfg) (hc : c.replaceErr = true) (t : Tick) (s : IoSt) (h : LogSafe s) : LogSafe (ioTick c t s).st := by
  unfold ioTick
  dsimp only
  have h1 : LogSafe (ioReap c t { s with inbox := s.inbox ++ t.arrive }) :=
    LogSafe.same (s := { s with inbox := s.inbox ++ t.arrive }) h (ioReap_sameIn c t _)
  generalize ioReap c t { s with inbox := s.inbox ++ t.arrive } = s1 at h1
  have h2 : ∀ r, ioAllDone c t s1 = some r → LogSafe r.st := by
    intro r hr
    unfold ioAllDone at hr
    split_ifs at hr <;> cases hr <;> exact h1
  cases ha : ioAllDone c t s1 with
  | some r => exact h2 r ha
  | none =>
    show LogSafe (if (!t.vchanOpen && s1.inbox.isEmpty && s1.buf.length == 0) = true then IoStep.leave s1 else ioPoll c t (ioUsr1 c t s1)).st
    by_cases hv : (!t.vchanOpen && s1.inbox.isEmpty && s1.buf.length == 0) = true
    · rw [if_pos hv]; exact h1
    · rw [if_neg hv]
      have h3 := LogSafe.same h1 (ioUsr1_sameIn c t s1)
      generalize ioUsr1 c t s1 = s2 at h3
      unfold ioPoll
      cases t.poll with
      | eintr => exact h3
      | error => exact h3
      | ready =>
        dsimp only
        by_cases hw : t.waitFails = true
        · rw [if_pos hw]; exact h3
        rw [if_neg hw]
        have h4 : LogSafe (if (t.stdinHup && s2.stdin) = true then closeStdin c t.eofOk s2 else s2) := by
          split_ifs
          · exact LogSafe.same h3 (closeStdin_sameIn c _ _)
          · exact h3
        generalize (if (t.stdinHup && s2.stdin) = true then closeStdin c t.eofOk s2 else s2) = s3 at h4
        have h5 := ioRemote_safe c hc t s3 h4
        generalize ioRemote c t s3 = r at h5
        cases r with
        | next s4 =>
          dsimp only
          have h6 := LogSafe.same h5 (ioOut_sameIn c t (t.outReady && s2.pfx.length == 0 && s2.stdout) s4)
          generalize ioOut c t (t.outReady && s2.pfx.length == 0 && s2.stdout) s4 = r2 at h6
          cases r2 with
          | next s5 => exact LogSafe.same h6 (ioErr_sameIn c t _ s5)
          | leave s5 => exact h6
          | exit1 s5 => exact h6
          | abort s5 => exact h6
        | leave s4 => exact h5
        | exit1 s4 => exact h5
        | abort s4 => exact h5

theorem ioRun_safe (c : IoCfg) (hc : c.replaceErr = true) (ts : List Tick) (s : IoSt) (h : LogSafe s) : LogSafe (ioRun c ts s).st := by
  induction ts generalizing s with
  | nil => exact h
  | cons t ts ih =>
    have ht := ioTick_safe c hc t s h
    rw [ioRun]
    generalize ioTick c t s = r at ht ⊢
    cases r with
    | next s1 => exact ih s1 ht
    | leave s1 => exact ht
    | exit1 s1 => exact ht
    | abort s1 => exact ht

/-- **C73, the terminal.** Nobody switches filtering off, and there is no local program. Then, whatever the service sends, in
whatever way the connection goes on or breaks: if stdout is a terminal, only characters that are safe on a terminal are
written to it, and the same for stderr. -/
theorem C73_terminal (y : CvSys) (opts : List CvOpt) (target service : Str)
    (sent : Option (Str × Nat × Nat × Wire)) (d p bs : Nat) (prog : Option (List Str)) (c : IoCfg) (socket : Bool) (pfx : Str)
    (h : cvMain y opts [target, service] = (sent, .connected d p bs prog c socket pfx)) (ts : List Tick) :
    (y.tty1 = true → .noFilterOut ∉ opts → ∀ ch ∈ (ioRun c ts (ioStart c socket false [] pfx)).st.written, TerminalSafe ch) ∧
    (y.tty2 = true → .noFilterErr ∉ opts → ∀ ch ∈ (ioRun c ts (ioStart c socket false [] pfx)).st.logged, TerminalSafe ch) := by
  obtain ⟨h1, h2, _⟩ := C73_options y opts target service [] sent d p bs prog c socket pfx h
  have on : ∀ a b, b ∉ opts → said a b opts ≠ some false := by
    intro a b
    generalize opts = os
    intro hb
    induction os with
    | nil => simp [said]
    | cons o os ih =>
      rw [said_cons]
      have := ih (fun q => hb (List.mem_cons_of_mem _ q))
      cases hs : said a b os with
      | some x => rw [hs] at this; cases x <;> simp at this ⊢
      | none =>
        have hne : o ≠ b := fun q => hb (by simp [q])
        rw [Option.none_or]
        split_ifs <;> simp
  constructor
  · intro ht hn
    have hout : c.replaceOut = true := by
      rw [h1, ht]
      have := on .filterOut .noFilterOut hn
      unfold wantFilter
      cases hs : said .filterOut .noFilterOut opts with
      | none => rfl
      | some b => rw [hs] at this; cases b <;> simp at this ⊢
    have hp := (C48_prefix c socket false [] pfx ts _ rfl).2
    intro ch hch
    have := hp.subset hch
    rw [List.nil_append, hout] at this
    exact (C48_filter _).1 ch this
  · intro ht hn
    have herr : c.replaceErr = true := by
      rw [h2, ht]
      have := on .filterErr .noFilterErr hn
      unfold wantFilter
      cases hs : said .filterErr .noFilterErr opts with
      | none => rfl
      | some b => rw [hs] at this; cases b <;> simp at this ⊢
    exact ioRun_safe c herr ts _ (fun ch hch => by cases hch)

/-- **C72, the exit status.** Without a local program the status of the program is the status of the service: if the service
sends its output, the end of its output, and its exit status, and the client gets on (`C63_ends`). -/
theorem C72_status (y : CvSys) (opts : List CvOpt) (target service : Str)
    (sent : Option (Str × Nat × Nat × Wire)) (d p bs : Nat) (prog : Option (List Str)) (c : IoCfg) (socket : Bool) (pfx : Str)
    (h : cvMain y opts [target, service] = (sent, .connected d p bs prog c socket pfx)) (hp : ∀ s, .prefixData s ∉ opts)
    (msgs pre : List DMsg) (st : Nat) (hst : st ≤ 255) (e1 : msgs = pre ++ [(0x193, i32le st)])
    (e2 : ∀ m ∈ pre, (m.1 = 0x190 ∨ m.1 = 0x191 ∨ m.1 = 0x192) ∧ m.2.length ≤ c.maxChunk)
    (heof : ∃ m ∈ pre, (m.1 = 0x190 ∨ m.1 = 0x191) ∧ m.2 = [])
    (σ : Nat → Tick) (k : Nat)
    (ha : ((List.range k).map σ).flatMap Tick.arrive = msgs.map fun m => InItem.msg m.1 m.2)
    (hb : ∀ i, k ≤ i → (σ i).arrive = []) (hopen : ∀ i, i < k → (σ i).vchanOpen = true) (hcalm : ∀ i, CalmTick (σ i))
    (hfair : ∀ n, ∃ m, n ≤ m ∧ (σ m).fair = true) :
    ∃ n s, ioRun c ((List.range n).map σ) (ioStart c socket false [] pfx) = .leave s ∧
      ∀ eofOk late, exitStatus (ioFinish c eofOk late s).2 = st := by
  obtain ⟨_, _, h3, h4, h5, h6, h7, _, _, h10, _⟩ := C73_options y opts target service [] sent d p bs prog c socket pfx h
  have hpfx : pfx = [] := by
    rw [h10]
    have : prefixesOf opts = [] := by
      unfold prefixesOf
      rw [List.filterMap_eq_nil_iff]
      intro o ho
      cases o <;> first | rfl | exact absurd ho (hp _)
    rw [this]; rfl
  subst hpfx
  have hmx : 4 ≤ c.maxChunk := by
    rw [h6]; unfold maxDataChunk; split_ifs <;> omega
  obtain ⟨n, s, r1, r2⟩ := C63_ends_eventually c h3 (h7 rfl).2 h4 h5 hmx socket [] msgs pre st hst e1 e2 heof σ k ha hb hopen hcalm hfair
  refine ⟨n, s, r1, fun eofOk late => ?_⟩
  rw [r2]
  unfold exitStatus
  omega

/-! ## Example -/

/-- `qrexec-client-vm -t -s work --buffer-size=0x10 vault qubes.Gpg+x`, stderr being a terminal. -/
def cvDemoSys : CvSys := { tty2 := true, answer := some (u32le 7 ++ u32le 513) }
def cvDemoOpts : List CvOpt := [.filterOut, .source c!"work", .bufferSize c!"0x10"]

example : ∃ c, cvMain cvDemoSys cvDemoOpts [c!"vault", c!"qubes.Gpg+x"] =
    (some (c!"/var/run/qubes/qrexec-agent", cvMessage (some c!"work") c!"vault" c!"qubes.Gpg+x"),
      .connected 7 513 16 none c false []) ∧ c.replaceOut = true ∧ c.replaceErr = true := ⟨_, rfl, by decide, by decide⟩

/-- Refused by policy. -/
example : (cvMain { cvDemoSys with answer := some [] } cvDemoOpts [c!"vault", c!"qubes.Gpg+x"]).2 = .exit 126 := rfl

/-- Twice `-s`, or a size that is not a number: nothing is sent. -/
example : cvMain cvDemoSys [.source c!"a", .source c!"b"] [c!"vault", c!"x"] = (none, .exit 2) ∧
    cvMain cvDemoSys [.bufferSize c!"09"] [c!"vault", c!"x"] = (none, .exit 1) := ⟨rfl, rfl⟩

/-- A service that sends an escape sequence to the terminal. -/
example : (ioRun { isService := false, hasPid := false, replaceErr := true } [{ arrive := [.msg 0x192 [Char.ofNat 27, '[', '2', 'J']] }]
    (ioStart { isService := false, hasPid := false, replaceErr := true } false false [] [])).st.logged = c!"_[2J" := by decide

end Qrexec
