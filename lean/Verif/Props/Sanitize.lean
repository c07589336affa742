import Verif.Model.Sanitize
import Verif.Lemmas.Words
import Mathlib.Tactic.Tauto

/-! # C41: name sanitizers -/
namespace Qrexec

/-- The characters both sanitizers keep. -/
def nameChars : Str := c!"abcdefghijklmnopqrstuvwxyzABCDEFGHIJKLMNOPQRSTUVWXYZ0123456789_-."

/-- The output of a sanitizer that keeps the characters `allowed`: every other character is
replaced by an underscore. -/
def Sanitized (allowed : List Char) (input output : Str) : Prop :=
  output.length = input.length ∧ ∀ i, ∀ h : i < input.length, ∀ h' : i < output.length,
    (input[i] ∈ allowed → output[i] = input[i]) ∧ (input[i] ∉ allowed → output[i] = '_')

theorem alnumChar_iff (c : Char) : alnumChar c = true ↔
    c ∈ c!"abcdefghijklmnopqrstuvwxyzABCDEFGHIJKLMNOPQRSTUVWXYZ0123456789" := by
  constructor
  · intro h
    have hlt : c.toNat < 128 := by
      unfold alnumChar at h
      simp only [Bool.or_eq_true, Bool.and_eq_true, decide_eq_true_eq, Char.le_def,
        UInt32.le_iff_toNat_le] at h
      have e : ∀ x : Char, x.val.toNat = x.toNat := fun _ => rfl
      simp only [e] at h
      rcases h with (⟨_, h⟩ | ⟨_, h⟩) | ⟨_, h⟩
      · exact Nat.lt_of_le_of_lt h (by decide)
      · exact Nat.lt_of_le_of_lt h (by decide)
      · exact Nat.lt_of_le_of_lt h (by decide)
    have hc : c = Char.ofNat c.toNat := (Char.ofNat_toNat c).symm
    revert h
    rw [hc]
    generalize c.toNat = n at hlt
    revert n
    decide
  · intro h
    simp only [List.mem_cons, List.not_mem_nil, or_false] at h
    rcases h with h | h | h | h | h | h | h | h | h | h | h | h | h | h | h | h | h | h | h | h |
      h | h | h | h | h | h | h | h | h | h | h | h | h | h | h | h | h | h | h | h | h | h | h |
      h | h | h | h | h | h | h | h | h | h | h | h | h | h | h | h | h | h | h <;> subst h <;> decide

theorem pySanitizeChar_spec (extra : List Char) (c : Char) :
    (c ∈ '@' :: nameChars ++ extra → pySanitizeChar extra c = c) ∧
    (c ∉ '@' :: nameChars ++ extra → pySanitizeChar extra c = '_') := by
  have key : (alnumChar c || [('@' : Char), '_', '-', '.'].contains c || extra.contains c) = true ↔
      c ∈ '@' :: nameChars ++ extra := by
    have e : '@' :: nameChars ++ extra = '@' ::
      (c!"abcdefghijklmnopqrstuvwxyzABCDEFGHIJKLMNOPQRSTUVWXYZ0123456789" ++ c!"_-.") ++ extra := rfl
    rw [e, Bool.or_eq_true, Bool.or_eq_true, alnumChar_iff, List.contains_iff_mem,
      List.contains_iff_mem]
    simp only [List.mem_append, List.mem_cons (a := c) (b := '@'), List.mem_cons (a := c) (b := '_'),
      List.mem_cons (a := c) (b := '-'), List.mem_cons (a := c) (b := '.')]
    tauto
  unfold pySanitizeChar
  rw [← key]
  constructor
  · intro h; rw [if_pos h]
  · intro h; rw [if_neg h]

theorem cSanitizeChar_spec (extra : List Char) (c : Char) :
    (c ∈ nameChars ++ extra → cSanitizeChar extra c = c) ∧
    (c ∉ nameChars ++ extra → cSanitizeChar extra c = '_') := by
  have key : (alnumChar c || (c == '_' || c == '-' || c == '.') || extra.contains c) = true ↔
      c ∈ nameChars ++ extra := by
    have e : nameChars ++ extra =
      (c!"abcdefghijklmnopqrstuvwxyzABCDEFGHIJKLMNOPQRSTUVWXYZ0123456789" ++ c!"_-.") ++ extra := rfl
    have h2 : (c == '_' || c == '-' || c == '.') = true ↔ c ∈ c!"_-." := by simp [or_assoc]
    rw [e, Bool.or_eq_true, Bool.or_eq_true, alnumChar_iff, List.contains_iff_mem, h2,
      List.mem_append, List.mem_append]
  have hc : cSanitizeChar extra c =
      if alnumChar c || (c == '_' || c == '-' || c == '.') || extra.contains c then c else '_' := by
    unfold cSanitizeChar
    generalize alnumChar c = x
    generalize (c == '_' || c == '-' || c == '.') = y
    generalize extra.contains c = z
    cases x <;> cases y <;> cases z <;> rfl
  rw [hc, ← key]
  constructor
  · intro h; rw [if_pos h]
  · intro h; rw [if_neg h]

theorem map_sanitized {f : Char → Char} {allowed : List Char}
    (h : ∀ c, (c ∈ allowed → f c = c) ∧ (c ∉ allowed → f c = '_')) (s : Str) :
    Sanitized allowed s (s.map f) := by
  refine ⟨List.length_map _, ?_⟩
  intro i h1 h2
  rw [List.getElem_map]
  exact h _

/-- Consequences of the specification: only allowed characters remain (when the underscore is
allowed), sanitizing again changes nothing, and the strings unchanged are the clean ones. -/
theorem sanitized_facts {allowed : List Char} (hu : '_' ∈ allowed) {input output : Str}
    (h : Sanitized allowed input output) :
    output.length = input.length ∧ (∀ c ∈ output, c ∈ allowed) ∧
    Sanitized allowed output output ∧ (output = input ↔ ∀ c ∈ input, c ∈ allowed) := by
  have hall : ∀ c ∈ output, c ∈ allowed := by
    intro c hc
    obtain ⟨i, hi, rfl⟩ := List.mem_iff_getElem.1 hc
    have hi' : i < input.length := h.1 ▸ hi
    by_cases hm : input[i] ∈ allowed
    · rw [(h.2 i hi' hi).1 hm]; exact hm
    · rw [(h.2 i hi' hi).2 hm]; exact hu
  refine ⟨h.1, hall, ⟨rfl, fun i h1 _ => ⟨fun _ => rfl, fun hn =>
    absurd (hall _ (List.getElem_mem h1)) hn⟩⟩, ?_⟩
  constructor
  · rintro rfl; exact hall
  · intro hc
    apply List.ext_getElem h.1
    intro i h1 h2
    exact (h.2 i h2 h1).1 (hc _ (List.getElem_mem h2))

/-- **C41.** The Python sanitizer of domain names keeps letters, digits and `@_-.`; the asserting
form accepts exactly the clean names. -/
theorem C41_domain (input : Str) :
    (∃ out, sanitizeDomainName input = .ok out ∧ Sanitized ('@' :: nameChars) input out) ∧
    ((∀ c ∈ input, c ∈ '@' :: nameChars) → sanitizeDomainName input true = .ok input) ∧
    ((∃ c ∈ input, c ∉ '@' :: nameChars) → sanitizeDomainName input true = .error .valueError) := by
  have hs : Sanitized ('@' :: nameChars) input (input.map (pySanitizeChar [])) :=
    map_sanitized (fun c => by have := pySanitizeChar_spec [] c; rwa [List.append_nil] at this) input
  have hf := sanitized_facts (by decide) hs
  refine ⟨⟨_, rfl, hs⟩, ?_, ?_⟩
  · intro h
    have := hf.2.2.2.2 h
    unfold sanitizeDomainName pySanitizeName
    simp only [this]
    simp
  · rintro ⟨c, hc, hn⟩
    have hne : input.map (pySanitizeChar []) ≠ input := fun e => hn (hf.2.2.2.1 e c hc)
    unfold sanitizeDomainName pySanitizeName
    simp only [Bool.true_and]
    rw [if_pos]
    simpa using fun e => hne e.symm

/-- **C41.** The same for service names, which may also contain `+`. -/
theorem C41_service (input : Str) :
    (∃ out, sanitizeServiceName input = .ok out ∧ Sanitized ('@' :: nameChars ++ ['+']) input out) ∧
    ((∀ c ∈ input, c ∈ '@' :: nameChars ++ ['+']) → sanitizeServiceName input true = .ok input) ∧
    ((∃ c ∈ input, c ∉ '@' :: nameChars ++ ['+']) →
      sanitizeServiceName input true = .error .valueError) := by
  have hs : Sanitized ('@' :: nameChars ++ ['+']) input (input.map (pySanitizeChar ['+'])) :=
    map_sanitized (pySanitizeChar_spec ['+']) input
  have hf := sanitized_facts (by decide) hs
  refine ⟨⟨_, rfl, hs⟩, ?_, ?_⟩
  · intro h
    have := hf.2.2.2.2 h
    unfold sanitizeServiceName pySanitizeName
    simp only [this]
    simp
  · rintro ⟨c, hc, hn⟩
    have hne : input.map (pySanitizeChar ['+']) ≠ input := fun e => hn (hf.2.2.2.1 e c hc)
    unfold sanitizeServiceName pySanitizeName
    simp only [Bool.true_and]
    rw [if_pos]
    simpa using fun e => hne e.symm

theorem cSanitizeBuf_eq (extra : List Char) (buf : List Char) :
    cSanitizeBuf extra buf =
      (cstr buf).map (cSanitizeChar extra) ++ buf.dropWhile (· != '\x00') := by
  induction buf with
  | nil => rfl
  | cons c cs ih =>
    unfold cSanitizeBuf cstr
    by_cases h : c = '\x00'
    · subst h; rfl
    · rw [if_neg h, ih]
      have hb : (c != '\x00') = true := by simp [h]
      rw [List.takeWhile_cons, List.dropWhile_cons, if_pos hb, if_pos hb]
      rfl

theorem cSanitizeChar_ne_nul {extra : List Char} (he : '\x00' ∉ extra) (c : Char) :
    cSanitizeChar extra c ≠ '\x00' := by
  intro h
  by_cases hc : c ∈ nameChars ++ extra
  · rw [(cSanitizeChar_spec extra c).1 hc] at h
    rw [h, List.mem_append] at hc
    rcases hc with hc | hc
    · exact absurd hc (by decide)
    · exact he hc
  · rw [(cSanitizeChar_spec extra c).2 hc] at h
    exact absurd h (by decide)

/-- **C41.** The C sanitizer does the same to the C string in its buffer, and leaves the rest of
the buffer alone. -/
theorem C41_c (extra : List Char) (he : '\x00' ∉ extra) (buf : List Char) :
    Sanitized (nameChars ++ extra) (cstr buf) (cstr (cSanitizeBuf extra buf)) ∧
    (cSanitizeBuf extra buf).length = buf.length ∧
    (cSanitizeBuf extra buf).drop (cstr buf).length = buf.drop (cstr buf).length := by
  have htd : cstr buf ++ buf.dropWhile (· != '\x00') = buf := List.takeWhile_append_dropWhile
  have hc : cstr (cSanitizeBuf extra buf) = (cstr buf).map (cSanitizeChar extra) := by
    rw [cSanitizeBuf_eq]
    unfold cstr
    rw [List.takeWhile_append_of_pos]
    · have : (buf.dropWhile (· != '\x00')).takeWhile (· != '\x00') = [] := by
        cases hd : buf.dropWhile (· != '\x00') with
        | nil => rfl
        | cons a as =>
          have hh := dropWhile_head (p := (· != '\x00')) (s := buf) (c := a) (by rw [hd]; rfl)
          rw [List.takeWhile_cons, hh]
          rfl
      rw [this, List.append_nil]
    · intro x hx
      obtain ⟨y, _, rfl⟩ := List.mem_map.1 hx
      simpa using cSanitizeChar_ne_nul he y
  refine ⟨?_, ?_, ?_⟩
  · rw [hc]; exact map_sanitized (cSanitizeChar_spec extra) _
  · rw [cSanitizeBuf_eq, List.length_append, List.length_map, ← List.length_append, htd]
  · rw [cSanitizeBuf_eq]
    have h1 : ((cstr buf).map (cSanitizeChar extra)).length = (cstr buf).length := by simp
    rw [← h1, List.drop_left]
    have h2 : buf.drop ((cstr buf).map (cSanitizeChar extra)).length =
        (cstr buf ++ buf.dropWhile (· != '\x00')).drop (cstr buf).length := by rw [h1, htd]
    rw [h2, List.drop_left]

/-- **C41.** The two implementations agree: the Python sanitizer is the C sanitizer with `@`
allowed as well. -/
theorem C41_agree (extra : List Char) (input : Str) :
    input.map (pySanitizeChar extra) = input.map (cSanitizeChar ('@' :: extra)) := by
  apply List.map_congr_left
  intro c _
  have h1 := pySanitizeChar_spec extra c
  have h2 := cSanitizeChar_spec ('@' :: extra) c
  have hm : c ∈ '@' :: nameChars ++ extra ↔ c ∈ nameChars ++ '@' :: extra := by
    simp only [List.mem_append, List.mem_cons, List.cons_append]
    tauto
  by_cases h : c ∈ '@' :: nameChars ++ extra
  · rw [h1.1 h, h2.1 (hm.1 h)]
  · rw [h1.2 h, h2.2 (fun e => h (hm.2 e))]

/-- **C41.** Sanitizing twice is sanitizing once; the result has only allowed characters and the
same length; a name is unchanged exactly when it is clean. -/
theorem C41_facts (allowed : List Char) (hu : '_' ∈ allowed) (input output : Str)
    (h : Sanitized allowed input output) :
    output.length = input.length ∧ (∀ c ∈ output, c ∈ allowed) ∧
    Sanitized allowed output output ∧ (output = input ↔ ∀ c ∈ input, c ∈ allowed) :=
  sanitized_facts hu h

example : sanitizeDomainName c!"wo rk=1" = .ok c!"wo_rk_1" := by decide
example : cSanitizeBuf c!"+" c!"a b+\n\x00z z" = c!"a_b+_\x00z z" := by decide

end Qrexec
