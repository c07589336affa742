import Verif.Props.VmConn
import Verif.Props.Trigger

/-! # C69: requests of clients, and the answers of the daemon -/
namespace Qrexec
open Spec

theorem digit_of {k : Nat} (h : k < 10) : tomlDigit (Char.ofNat (48 + k)) = true ∧ (Char.ofNat (48 + k)).toNat - '0'.toNat = k := by
  have : ∀ k, k < 10 → tomlDigit (Char.ofNat (48 + k)) = true ∧ (Char.ofNat (48 + k)).toNat - '0'.toNat = k := by decide
  exact this k h

theorem tomlNat_snoc (a : Str) (c : Char) : tomlNat (a ++ [c]) = 10 * tomlNat a + (c.toNat - '0'.toNat) := by
  unfold tomlNat; rw [List.foldl_append]; rfl

theorem decimalAux_spec : ∀ (fuel n : Nat), n < fuel →
    tomlNat (decimalAux fuel n) = n ∧ (∀ c ∈ decimalAux fuel n, tomlDigit c = true) ∧ decimalAux fuel n ≠ [] := by
  intro fuel
  induction fuel with
  | zero => intro n h; omega
  | succ fuel ih =>
    intro n h
    unfold decimalAux
    by_cases hn : n < 10
    · rw [if_pos hn]
      refine ⟨?_, ?_, by simp⟩
      · have := tomlNat_snoc [] (Char.ofNat (48 + n))
        rw [List.nil_append] at this
        rw [this, (digit_of hn).2]
        show 10 * 0 + n = n
        omega
      · intro c hc
        rw [List.mem_singleton] at hc
        rw [hc]; exact (digit_of hn).1
    · rw [if_neg hn]
      have hd := digit_of (Nat.mod_lt n (show 0 < 10 by decide))
      obtain ⟨h1, h2, h3⟩ := ih (n / 10) (by omega)
      refine ⟨?_, ?_, by simp⟩
      · rw [tomlNat_snoc, h1, hd.2]; omega
      · intro c hc
        rcases List.mem_append.1 hc with hc | hc
        · exact h2 c hc
        · rw [List.mem_singleton] at hc
          rw [hc]; exact hd.1

theorem decimalAux_length : ∀ (fuel n k : Nat), n < 10 ^ (k + 1) → (decimalAux fuel n).length ≤ k + 1 := by
  intro fuel
  induction fuel with
  | zero => intro n k _; exact Nat.zero_le _
  | succ fuel ih =>
    intro n k h
    unfold decimalAux
    by_cases hn : n < 10
    · rw [if_pos hn]; simp
    · rw [if_neg hn]
      cases k with
      | zero => omega
      | succ k =>
        have := ih (n / 10) k (by
          rw [Nat.pow_succ] at h
          exact Nat.div_lt_of_lt_mul (by rw [Nat.mul_comm]; exact h))
        rw [List.length_append]
        simp
        exact this

theorem printDec_spec (n : Nat) : tomlNat (printDec n) = n ∧ (∀ c ∈ printDec n, tomlDigit c = true) ∧ printDec n ≠ [] :=
  decimalAux_spec _ _ (Nat.lt_succ_self n)

theorem printDec_length {n : Nat} (h : n < 2 ^ 31) : (printDec n).length ≤ 10 :=
  decimalAux_length _ _ 9 (Nat.lt_of_lt_of_le h (by decide))

theorem digit_not {c : Char} (h : tomlDigit c = true) : cSpace c = false ∧ c ≠ '-' ∧ c ≠ '+' ∧ c ≠ '\x00' := by
  refine ⟨?_, ?_, ?_, ?_⟩
  · unfold tomlDigit at h
    unfold cSpace
    simp only [Bool.and_eq_true, decide_eq_true_eq, Char.le_def, UInt32.le_iff_toNat_le] at h
    have h0 : ('0' : Char).val.toNat = 48 := rfl
    have hne : c ≠ ' ' := by
      rintro rfl
      have : (' ' : Char).val.toNat = 32 := rfl
      omega
    have : c.toNat = c.val.toNat := rfl
    simp [hne]
    omega
  all_goals rintro rfl; revert h; decide

theorem longToInt_small {n : Nat} (h : n < 2 ^ 31) : longToInt false n = n := by
  have e : (if n ≥ 2 ^ 63 then (2 : Int) ^ 63 - 1 else (n : Int)) = n := if_neg (by omega)
  have e2 : ((n : Int) % 2 ^ 32).toNat = n := by omega
  show asInt ((if n ≥ 2 ^ 63 then (2 : Int) ^ 63 - 1 else (n : Int)) % 2 ^ 32).toNat = n
  rw [e, e2]
  exact if_pos h

/-- **C69.** The identifier of a request names the descriptor of the client: what is printed is read back. -/
theorem C69_roundtrip {n : Nat} (h : n < 2 ^ 31) : scanSocket (c!"SOCKET" ++ printDec n) = .fd n := by
  obtain ⟨h1, h2, h3⟩ := printDec_spec n
  have key : scanSocket (c!"SOCKET" ++ printDec n) = scanInt (printDec n) := by
    unfold scanSocket
    generalize printDec n = z
    rfl
  rw [key]
  cases hd : printDec n with
  | nil => exact absurd hd h3
  | cons c cs =>
    rw [hd] at h1 h2
    obtain ⟨d1, d2, d3, _⟩ := digit_not (h2 c List.mem_cons_self)
    have htw : (c :: cs).takeWhile tomlDigit = c :: cs := by
      have := List.takeWhile_append_of_pos (l₂ := []) h2
      rw [List.append_nil] at this
      rw [this]; simp
    unfold scanInt
    rw [List.dropWhile_cons, if_neg (by rw [d1]; decide)]
    dsimp only
    rw [show (c == '-') = false from beq_false_of_ne d2, show (c == '+') = false from beq_false_of_ne d3]
    simp only [Bool.or_self, Bool.false_eq_true, if_false]
    rw [htw, h1]
    simp only [List.isEmpty_cons, Bool.false_eq_true, if_false]
    congr 1
    exact longToInt_small h

/-- The text of an identifier. -/
theorem ident_text {n : Nat} (h : n < 2 ^ 31) : '\x00' ∉ c!"SOCKET" ++ printDec n ∧ (c!"SOCKET" ++ printDec n).length ≤ 16 := by
  constructor
  · intro hm
    rcases List.mem_append.1 hm with hm | hm
    · revert hm; decide
    · exact (digit_not ((printDec_spec n).2.1 _ hm)).2.2.2 rfl
  · have := printDec_length h
    rw [List.length_append]
    show 6 + _ ≤ 16
    omega

/-- **C69.** A request of a client is passed on unchanged except for the identifier, which becomes `SOCKET` and the number of
the client's descriptor; what is not a request of the current version is not passed on, and the client's descriptor is
closed. -/
theorem C69_forward {fd : Nat} (hfd : fd < 2 ^ 31) (hdr : Option (Nat × Nat)) (body : Option Wire) :
    (∀ type len b, hdr = some (type, len) → body = some b → b.length = len →
      type = 0x213 → 160 < len → len ≤ 160 + 65000 →
      ∃ b', vaTrigger fd hdr body = [.forward type len b'] ∧ b'.length = len ∧ b'.take 128 = b.take 128 ∧
        b'.drop 160 = b.drop 160 ∧ cString ((b'.drop 128).take 32) = c!"SOCKET" ++ printDec fd) ∧
    ((∀ type len, hdr = some (type, len) → ¬ (type = 0x213 ∧ 160 < len ∧ len ≤ 160 + 65000)) ∨ body = none →
      vaTrigger fd hdr body = [.closed fd]) := by
  constructor
  · rintro type len b rfl rfl hl ht h1 h2
    refine ⟨putIdent fd b, ?_, ?_⟩
    · unfold vaTrigger
      dsimp only
      rw [if_neg (by omega)]
    · obtain ⟨hn, hlen⟩ := ident_text hfd
      have hp : putIdent fd b = b.take 128 ++ ((c!"SOCKET" ++ printDec fd) ++ ['\x00']) ++
          b.drop (128 + ((c!"SOCKET" ++ printDec fd) ++ ['\x00']).length) := rfl
      rw [hp]
      generalize c!"SOCKET" ++ printDec fd = tx at hn hlen
      have l1 : (b.take 128).length = 128 := by rw [List.length_take]; omega
      have l2 : (tx ++ ['\x00']).length = tx.length + 1 := by simp
      refine ⟨?_, ?_, ?_, ?_⟩
      · simp only [List.length_append, List.length_take, List.length_drop, List.length_singleton]
        omega
      · rw [List.append_assoc, List.take_append_of_le_length (by omega), List.take_of_length_le (by omega)]
      · rw [List.append_assoc, List.drop_append, List.drop_eq_nil_of_le (by omega), List.nil_append, l1,
          List.drop_append, List.drop_eq_nil_of_le (by omega), List.nil_append, l2, List.drop_drop]
        congr 1
        omega
      · rw [List.append_assoc, List.drop_append, List.drop_eq_nil_of_le (by omega), List.nil_append, l1, Nat.sub_self,
          List.drop_zero, List.append_assoc, List.take_append, List.take_of_length_le (by omega)]
        unfold cString
        rw [List.takeWhile_append_of_pos (by
          intro c hc
          simp only [bne_iff_ne, ne_eq]
          rintro rfl
          exact hn hc)]
        have : (([ '\x00' ] ++ b.drop (128 + (tx ++ ['\x00']).length)).take (32 - tx.length)).takeWhile (· != '\x00') = [] := by
          obtain ⟨m, hm⟩ : ∃ m, 32 - tx.length = m + 1 := ⟨31 - tx.length, by omega⟩
          rw [hm]
          rfl
        rw [this, List.append_nil]
  · intro h
    unfold vaTrigger
    cases hdr with
    | none => rfl
    | some r =>
      obtain ⟨type, len⟩ := r
      dsimp only
      rcases h with h | rfl
      · rw [if_pos (by have := h type len rfl; omega)]
      · split <;> rfl

/-- **C69.** Whatever a client sends, the daemon of this qube does not end because of it. -/
theorem C69_daemon_lives {fd : Nat} (hfd : fd < 2 ^ 31) {hdr : Option (Nat × Nat)} {body : Option Wire}
    (hl : ∀ t l b, hdr = some (t, l) → body = some b → b.length = l) {type len : Nat} {b : Wire}
    (h : vaTrigger fd hdr body = [.forward type len b]) : type = 0x213 ∧ b.length = len ∧ triggerMsg 4 4 b ≠ .die := by
  cases hdr with
  | none => unfold vaTrigger at h; simp at h
  | some r =>
    obtain ⟨t, l⟩ := r
    by_cases hok : t = 0x213 ∧ 160 < l ∧ l ≤ 160 + 65000
    · cases body with
      | none => rw [(C69_forward hfd _ _).2 (Or.inr rfl)] at h; simp at h
      | some b0 =>
        obtain ⟨b', h1, h2, _⟩ := (C69_forward hfd (some (t, l)) (some b0)).1 t l b0 rfl rfl (hl _ _ _ rfl rfl) hok.1 hok.2.1 hok.2.2
        rw [h1] at h
        simp only [List.cons.injEq, and_true, VaOut.forward.injEq] at h
        obtain ⟨rfl, rfl, rfl⟩ := h
        refine ⟨hok.1, h2, ?_⟩
        intro hdie
        rw [C53_dies_iff] at hdie
        apply hdie
        exact ⟨Or.inr (Or.inr ⟨rfl, by decide⟩), Or.inr (Or.inr ⟨rfl, by omega, by omega⟩)⟩
    · rw [(C69_forward hfd _ _).2 (Or.inl fun t' l' he => by cases he; exact hok)] at h
      simp at h

end Qrexec
