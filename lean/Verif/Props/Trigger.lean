import Verif.Lemmas.Trigger
import Verif.Props.CResponse

/-! # C53, C57: requests of a qube -/
namespace Qrexec
open Spec

theorem headerOk_iff {proto kind len : Nat} : headerOk proto kind len = true ↔ ProtoOk proto kind ∧
    ((kind = 2 ∧ len = 128) ∨ (kind = 3 ∧ 96 < len ∧ len ≤ 96 + 65000) ∨
      (kind = 4 ∧ 160 < len ∧ len ≤ 160 + 65000)) := by
  unfold headerOk ProtoOk
  split
  · simp
  · simp; omega
  · simp; omega
  · simp only [Bool.false_eq_true, false_iff]; rintro ⟨h | h | h, _⟩ <;> simp_all

theorem service_tail {buf s : Wire} {t : Option Wire} (hb : buf = s ++ c!"\x00") (hs : '\x00' ∉ s) :
    validServiceName buf = t → ∀ x, t = some x → s ≠ [] ∧ s.head? ≠ some '+' ∧
      cstr x = s.map (cleanByte ['+']) := by
  rintro h x rfl
  subst hb
  obtain ⟨h1, h2, rfl⟩ := (validServiceName_iff hs).1 h
  exact ⟨h1, h2, cstr_append (nul_not_mem_map (by decide) s)⟩

theorem append_split3 {α : Type} (l : List α) (a b : Nat) :
    l = l.take a ++ (l.drop a).take b ++ l.drop (a + b) := by
  rw [List.append_assoc, ← List.drop_drop, List.take_append_drop, List.take_append_drop]

/-- **C53.** A trigger message is passed on iff its kind belongs to the protocol version, it is laid
out as that kind, its identifier is well formed and the service name is not empty and does not begin
with `+`; what is passed on are its fields, every byte that is not permitted replaced by `_`. -/
theorem C53_accepted (proto kind : Nat) (data : Wire) (rs : Option Str) (t s : Str) (ident : Wire) :
    triggerMsg proto kind data = .request rs t s ident ↔
      ProtoOk proto kind ∧ ∃ rs0 t0 s0, Layout kind data rs0 t0 s0 ident ∧ IdentText ident ∧
        s0 ≠ [] ∧ s0.head? ≠ some '+' ∧ s = s0.map (cleanByte c!"+") ∧
        t = t0.map (cleanByte c!"@:") ∧ rs = rs0.map fun r => r.map (cleanByte c!"@:") := by
  have hplus : '\x00' ∉ c!"+" := by decide
  have hat : '\x00' ∉ c!"@:" := by decide
  constructor
  · intro h
    unfold triggerMsg at h
    by_cases hh : headerOk proto kind data.length = true
    rotate_left
    · rw [Bool.not_eq_true] at hh
      rw [hh] at h
      simp at h
    rw [hh] at h
    simp only [Bool.not_true, Bool.false_eq_true, if_false] at h
    obtain ⟨hp, hk⟩ := headerOk_iff.1 hh
    refine ⟨hp, ?_⟩
    rcases hk with ⟨rfl, hl⟩ | ⟨rfl, hl1, hl2⟩ | ⟨rfl, hl1, hl2⟩
    · simp only at h
      have hsl : (data.take 64).length = 64 := by rw [List.length_take]; omega
      have htl : ((data.drop 64).take 32).length = 32 := by
        rw [List.length_take, List.length_drop]; omega
      have hil : (data.drop 96).length = 32 := by rw [List.length_drop]; omega
      obtain ⟨s0, hs0⟩ := fieldText_exists (buf := data.take 64) (by
        intro e; rw [e] at hsl; simp at hsl)
      obtain ⟨t0, ht0⟩ := fieldText_exists (buf := (data.drop 64).take 32) (by
        intro e; rw [e] at htl; simp at htl)
      have hd : data = data.take 64 ++ (data.drop 64).take 32 ++ data.drop 96 := append_split3 data 64 32
      obtain ⟨rest, hrest⟩ := ensureNul_eq hs0
      have hclean : cSanitizeBuf ['+'] (ensureNul (data.take 64)) =
          s0.map (cleanByte c!"+") ++ '\x00' :: rest := by rw [hrest, cSanitizeBuf_append hs0.1]
      have hnn := nul_not_mem_map hplus s0
      rw [hclean] at h
      by_cases hid : validIdent (data.drop 96) = true
      · rw [hid] at h
        simp only [Bool.not_true, Bool.false_eq_true, if_false] at h
        split at h
        · simp at h
        · rename_i x hx
          obtain ⟨h1, h2, rfl⟩ := (validServiceName_iff hnn).1 hx
          injection h with e1 e2 e3 e4
          subst e1 e2 e3 e4
          refine ⟨none, t0, s0, ?_, validIdent_iff.1 hid, by simpa using h1,
            head_clean.1 h2, ?_, field_clean hat ht0, rfl⟩
          · have := Layout.v2 hsl htl hil hs0 ht0
            rwa [← hd] at this
          · rw [cstr_append (nul_not_mem_map hplus _), List.map_map]
            apply List.map_congr_left
            intro c _
            exact cleanByte_idem _ _
      · rw [Bool.not_eq_true] at hid
        rw [hid] at h
        simp at h
    · simp only at h
      have htl : (data.take 64).length = 64 := by rw [List.length_take]; omega
      have hil : ((data.drop 64).take 32).length = 32 := by
        rw [List.length_take, List.length_drop]; omega
      obtain ⟨t0, ht0⟩ := fieldText_exists (buf := data.take 64) (by
        intro e; rw [e] at htl; simp at htl)
      have hd : data = data.take 64 ++ (data.drop 64).take 32 ++ data.drop 96 := append_split3 data 64 32
      by_cases hid : validIdent ((data.drop 64).take 32) = true
      rotate_left
      · rw [Bool.not_eq_true] at hid
        rw [hid] at h
        simp at h
      rw [hid] at h
      simp only [Bool.not_true, Bool.false_eq_true, if_false] at h
      by_cases hex : exactCstr (data.drop 96) = true
      rotate_left
      · rw [Bool.not_eq_true] at hex
        rw [hex] at h
        simp at h
      rw [hex] at h
      simp only [Bool.not_true, Bool.false_eq_true, if_false] at h
      obtain ⟨s0, hs0, hn0⟩ := exactCstr_iff.1 hex
      split at h
      · simp at h
      · rename_i x hx
        obtain ⟨h1, h2, h3⟩ := service_tail hs0 hn0 hx x rfl
        injection h with e1 e2 e3 e4
        subst e1 e2 e3 e4
        refine ⟨none, t0, s0, ?_, validIdent_iff.1 hid, h1, h2, h3, field_clean hat ht0, rfl⟩
        have hlen : s0.length < 65000 := by
          have := congrArg List.length hs0
          rw [List.length_drop, List.length_append] at this
          simp at this
          omega
        have := Layout.v3 htl hil ht0 hn0 hlen
        rwa [← hs0, ← hd] at this
    · simp only at h
      have hrl : (data.take 64).length = 64 := by rw [List.length_take]; omega
      have htl : ((data.drop 64).take 64).length = 64 := by
        rw [List.length_take, List.length_drop]; omega
      have hil : ((data.drop 128).take 32).length = 32 := by
        rw [List.length_take, List.length_drop]; omega
      obtain ⟨r0, hr0⟩ := fieldText_exists (buf := data.take 64) (by
        intro e; rw [e] at hrl; simp at hrl)
      obtain ⟨t0, ht0⟩ := fieldText_exists (buf := (data.drop 64).take 64) (by
        intro e; rw [e] at htl; simp at htl)
      have hd : data = data.take 64 ++ (data.drop 64).take 64 ++ (data.drop 128).take 32 ++
          data.drop 160 := by
        rw [List.append_assoc, ← List.drop_drop (i := 32) (j := 128), List.take_append_drop]
        exact append_split3 data 64 64
      by_cases hid : validIdent ((data.drop 128).take 32) = true
      rotate_left
      · rw [Bool.not_eq_true] at hid
        rw [hid] at h
        simp at h
      rw [hid] at h
      simp only [Bool.not_true, Bool.false_eq_true, if_false] at h
      by_cases hex : exactCstr (data.drop 160) = true
      rotate_left
      · rw [Bool.not_eq_true] at hex
        rw [hex] at h
        simp at h
      rw [hex] at h
      simp only [Bool.not_true, Bool.false_eq_true, if_false] at h
      obtain ⟨s0, hs0, hn0⟩ := exactCstr_iff.1 hex
      split at h
      · simp at h
      · rename_i x hx
        obtain ⟨h1, h2, h3⟩ := service_tail hs0 hn0 hx x rfl
        injection h with e1 e2 e3 e4
        subst e1 e2 e3 e4
        refine ⟨some r0, t0, s0, ?_, validIdent_iff.1 hid, h1, h2, h3, field_clean hat ht0,
          congrArg some (field_clean hat hr0)⟩
        have hlen : s0.length < 65000 := by
          have := congrArg List.length hs0
          rw [List.length_drop, List.length_append] at this
          simp at this
          omega
        have := Layout.v4 hrl htl hil hr0 ht0 hn0 hlen
        rwa [← hs0, ← hd] at this
  · rintro ⟨hp, rs0, t0, s0, hl, hid, hne, hhead, rfl, rfl, rfl⟩
    have hid' := validIdent_iff.2 hid
    unfold triggerMsg
    cases hl with
    | @v2 sbuf tbuf _ _ _ h1 h2 h3 h4 h5 =>
      rw [headerOk_iff.2 ⟨hp, Or.inl ⟨rfl, by simp [h1, h2, h3]⟩⟩]
      have e1 : (sbuf ++ tbuf ++ ident).take 64 = sbuf := by
        rw [List.append_assoc, ← h1, List.take_left]
      have e2 : ((sbuf ++ tbuf ++ ident).drop 64).take 32 = tbuf := by
        rw [List.append_assoc, ← h1, List.drop_left, ← h2, List.take_left]
      have e3 : (sbuf ++ tbuf ++ ident).drop 96 = ident := by
        rw [show 96 = (sbuf ++ tbuf).length by simp [h1, h2], List.drop_left]
      simp only [Bool.not_true, Bool.false_eq_true, if_false, e1, e2, e3, hid']
      obtain ⟨rest, hrest⟩ := ensureNul_eq h4
      rw [hrest, cSanitizeBuf_append h4.1]
      have := (validServiceName_iff (rest := rest) (nul_not_mem_map hplus s0)).2
        ⟨by simpa using hne, head_clean.2 hhead, rfl⟩
      rw [this]
      simp only
      rw [cstr_append (nul_not_mem_map hplus _)]
      simp only [field_clean hat h5, Option.map_none,
        TriggerAct.request.injEq, true_and, and_true, List.map_map]
      apply List.map_congr_left
      intro c _
      exact cleanByte_idem _ _
    | @v3 tbuf _ _ _ h1 h2 h3 h4 h5 =>
      rw [headerOk_iff.2 ⟨hp, Or.inr (Or.inl ⟨rfl, by simp [h1, h2]; omega, by simp [h1, h2]; omega⟩)⟩]
      have e1 : (tbuf ++ ident ++ (s0 ++ c!"\x00")).take 64 = tbuf := by
        rw [List.append_assoc, ← h1, List.take_left]
      have e2 : ((tbuf ++ ident ++ (s0 ++ c!"\x00")).drop 64).take 32 = ident := by
        rw [List.append_assoc, ← h1, List.drop_left, ← h2, List.take_left]
      have e3 : (tbuf ++ ident ++ (s0 ++ c!"\x00")).drop 96 = s0 ++ c!"\x00" := by
        rw [show 96 = (tbuf ++ ident).length by simp [h1, h2], List.drop_left]
      simp only [Bool.not_true, Bool.false_eq_true, if_false, e1, e2, e3, hid',
        exactCstr_iff.2 ⟨s0, rfl, h4⟩]
      rw [(validServiceName_iff (rest := []) h4).2 ⟨hne, hhead, rfl⟩]
      simp only [field_clean hat h3, cstr_append (nul_not_mem_map hplus _), Option.map_none]
    | @v4 rbuf tbuf _ _ _ r0 h1 h2 h3 h4 h5 h6 h7 =>
      rw [headerOk_iff.2 ⟨hp, Or.inr (Or.inr ⟨rfl, by simp [h1, h2, h3]; omega,
        by simp [h1, h2, h3]; omega⟩)⟩]
      have e1 : (rbuf ++ tbuf ++ ident ++ (s0 ++ c!"\x00")).take 64 = rbuf := by
        rw [List.append_assoc, List.append_assoc, ← h1, List.take_left]
      have e2 : ((rbuf ++ tbuf ++ ident ++ (s0 ++ c!"\x00")).drop 64).take 64 = tbuf := by
        rw [List.append_assoc, List.append_assoc]
        conv_lhs => rw [← h1, List.drop_left, h1, ← h2, List.take_left]
      have e3 : ((rbuf ++ tbuf ++ ident ++ (s0 ++ c!"\x00")).drop 128).take 32 = ident := by
        rw [List.append_assoc (rbuf ++ tbuf), show 128 = (rbuf ++ tbuf).length by simp [h1, h2],
          List.drop_left, ← h3, List.take_left]
      have e4 : (rbuf ++ tbuf ++ ident ++ (s0 ++ c!"\x00")).drop 160 = s0 ++ c!"\x00" := by
        rw [show 160 = (rbuf ++ tbuf ++ ident).length by simp [h1, h2, h3], List.drop_left]
      simp only [Bool.not_true, Bool.false_eq_true, if_false, e1, e2, e3, e4, hid',
        exactCstr_iff.2 ⟨s0, rfl, h6⟩]
      rw [(validServiceName_iff (rest := []) h6).2 ⟨hne, hhead, rfl⟩]
      simp only [field_clean hat h4, field_clean hat h5, cstr_append (nul_not_mem_map hplus _),
        Option.map_some]

/-- **C53.** The daemon of a qube ends only when the message is not one of the protocol version's
kinds or has a length no message of its kind can have. -/
theorem C53_dies_iff (proto kind : Nat) (data : Wire) :
    triggerMsg proto kind data = .die ↔ ¬ (ProtoOk proto kind ∧
      ((kind = 2 ∧ data.length = 128) ∨ (kind = 3 ∧ 96 < data.length ∧ data.length ≤ 65096) ∨
        (kind = 4 ∧ 160 < data.length ∧ data.length ≤ 65160))) := by
  have hh := headerOk_iff (proto := proto) (kind := kind) (len := data.length)
  simp only [Nat.reduceAdd] at hh
  rw [← hh]
  unfold triggerMsg
  cases hok : headerOk proto kind data.length with
  | false => simp
  | true =>
    simp only [Bool.not_true, Bool.false_eq_true, if_false, not_true, iff_false]
    intro h
    split at h
    · split_ifs at h
      split at h <;> simp at h
    · split_ifs at h
      split at h <;> simp at h
    · split_ifs at h
      split at h <;> simp at h

/-- **C53.** Every other message is refused, and the refusal carries the identifier of the message,
so that the agent can tell which of its calls was refused. -/
theorem C53_refused (proto kind : Nat) (data ident : Wire)
    (h : triggerMsg proto kind data = .refuse ident) :
    ident.length = 32 ∧ ident = (data.drop (if kind = 2 then 96 else if kind = 3 then 64 else 128)).take 32 := by
  have hd : ¬ (¬ _) := (not_congr (C53_dies_iff proto kind data)).1 (by rw [h]; simp)
  rw [not_not] at hd
  unfold triggerMsg at h
  split_ifs at h
  rcases hd with ⟨_, ⟨rfl, hl⟩ | ⟨rfl, h1, h2⟩ | ⟨rfl, h1, h2⟩⟩
  · simp only at h
    have : ident = data.drop 96 := by
      split_ifs at h
      · injection h with h; exact h.symm
      · split at h
        · injection h with h; exact h.symm
        · simp at h
    subst this
    have hl' : (data.drop 96).length = 32 := by rw [List.length_drop]; omega
    exact ⟨hl', by rw [if_pos rfl, List.take_of_length_le (by omega)]⟩
  · simp only at h
    have : ident = (data.drop 64).take 32 := by
      split_ifs at h
      · injection h with h; exact h.symm
      · injection h with h; exact h.symm
      · split at h
        · injection h with h; exact h.symm
        · simp at h
    subst this
    refine ⟨by rw [List.length_take, List.length_drop]; omega, ?_⟩
    rw [if_neg (by decide), if_pos rfl]
  · simp only at h
    have : ident = (data.drop 128).take 32 := by
      split_ifs at h
      · injection h with h; exact h.symm
      · injection h with h; exact h.symm
      · split at h
        · injection h with h; exact h.symm
        · simp at h
    subst this
    refine ⟨by rw [List.length_take, List.length_drop]; omega, ?_⟩
    rw [if_neg (by decide), if_neg (by decide)]

theorem fieldText_length {buf s : Wire} (h : FieldText buf s) : s.length < buf.length := by
  rcases h with ⟨_, ⟨r, rfl⟩ | ⟨c, _, rfl⟩⟩
  · simp
  · simp

/-- **C53.** Whatever a qube sends, the strings passed to the policy engine consist of permitted
characters only, the service is not empty, and all are short. -/
theorem C53_safe (proto kind : Nat) (data : Wire) (rs : Option Str) (t s : Str) (ident : Wire)
    (h : triggerMsg proto kind data = .request rs t s ident) :
    (∀ c ∈ s, c ∈ plainChars ++ c!"+") ∧ (∀ c ∈ t, c ∈ plainChars ++ c!"@:") ∧
    (∀ r ∈ rs, (∀ c ∈ r, c ∈ plainChars ++ c!"@:") ∧ r.length < 64) ∧
    s ≠ [] ∧ s.head? ≠ some '+' ∧ s.length < 65000 ∧ t.length < 64 := by
  obtain ⟨_, rs0, t0, s0, hl, _, hne, hh, rfl, rfl, rfl⟩ := (C53_accepted _ _ _ _ _ _ _).1 h
  have hm : ∀ (e : List Char) (l : Wire), ∀ c ∈ l.map (cleanByte e), c ∈ plainChars ++ e := by
    intro e l c hc
    obtain ⟨x, _, rfl⟩ := List.mem_map.1 hc
    exact List.mem_append.2 (cleanByte_mem e x)
  have hlen : s0.length < 65000 ∧ t0.length < 64 ∧ ∀ r ∈ rs0, r.length < 64 := by
    cases hl with
    | v2 h1 h2 h3 h4 h5 =>
      have a := fieldText_length h4
      have b := fieldText_length h5
      exact ⟨by omega, by omega, by simp⟩
    | v3 h1 h2 h3 h4 h5 =>
      have b := fieldText_length h3
      exact ⟨by omega, by omega, by simp⟩
    | v4 h1 h2 h3 h4 h5 h6 h7 =>
      have a := fieldText_length h4
      have b := fieldText_length h5
      refine ⟨by omega, by omega, ?_⟩
      intro r hr
      cases hr
      omega
  refine ⟨hm _ _, hm _ _, ?_, by simpa using hne, head_clean.2 hh, by simpa using hlen.1,
    by simpa using hlen.2.1⟩
  intro r hr
  cases rs0 with
  | none => simp at hr
  | some r0 =>
    simp only [Option.map_some, Option.mem_def, Option.some.injEq] at hr
    subst hr
    exact ⟨hm _ _, by simpa using hlen.2.2 r0 rfl⟩

theorem plain_ascii (e : List Char) (he : ∀ c ∈ e, c.toNat < 128 ∧ c ≠ '\n') :
    ∀ c ∈ plainChars ++ e, c.toNat < 128 ∧ c ≠ '\n' := by
  intro c hc
  rcases List.mem_append.1 hc with h | h
  · exact (by decide : ∀ c ∈ plainChars, c.toNat < 128 ∧ c ≠ '\n') c h
  · exact he c h

theorem validRequest_of {fs : List (Str × Str)} (K : List Str) (hk : fs.map (·.1) = K)
    (hK : K = [c!"source", c!"intended_target", c!"service_and_arg"] ∨
      K = [c!"source", c!"requested_source", c!"intended_target", c!"service_and_arg"])
    (hv : ∀ f ∈ fs, (∀ c ∈ f.2, c.toNat < 128) ∧ '\n' ∉ f.2 ∧ f.2.length ≤ 65000) :
    ValidRequest fs := by
  have facts : K.Nodup ∧ (∀ k ∈ K, k ∈ [c!"source", c!"intended_target", c!"service_and_arg",
      c!"assume_yes_for_ask", c!"just_evaluate", c!"requested_source"] ∧
      k ≠ c!"assume_yes_for_ask" ∧ k ≠ c!"just_evaluate" ∧ k.length ≤ 20) ∧
      ∀ k ∈ [c!"source", c!"intended_target", c!"service_and_arg"], k ∈ K := by
    rcases hK with rfl | rfl <;> decide
  have hin : ∀ f ∈ fs, f.1 ∈ K := fun f hf => hk ▸ List.mem_map_of_mem hf
  refine ⟨hk ▸ facts.1, fun f hf => (facts.2.1 _ (hin f hf)).1, fun k h => hk ▸ facts.2.2 k h, ?_,
    fun f hf => ⟨(hv f hf).1, (hv f hf).2.1⟩, ?_⟩
  · intro f hf h
    have := facts.2.1 _ (hin f hf)
    rcases h with h | h
    · exact absurd h this.2.1
    · exact absurd h this.2.2.1
  · intro f hf
    have h1 := (facts.2.1 _ (hin f hf)).2.2.2
    have h2 := (hv f hf).2.2
    omega

/-- **C53.** The request sent to the policy daemon for a trigger message has exactly the intended
fields: nothing in the message can add, replace or cut a field. -/
theorem C53_no_injection (proto kind : Nat) (data : Wire) (rs : Option Str) (t s : Str)
    (ident : Wire) (remote : Str) (h : triggerMsg proto kind data = .request rs t s ident)
    (hr : (∀ c ∈ remote, c.toNat < 128) ∧ '\n' ∉ remote ∧ remote.length ≤ 65000) :
    Sends (requestText remote rs t s) (requestFields remote rs t s) ∧
    ValidRequest (requestFields remote rs t s) := by
  obtain ⟨h1, h2, h3, _, _, h6, h7⟩ := C53_safe _ _ _ _ _ _ _ h
  have hs := fun c hc => plain_ascii c!"+" (by decide) c (h1 c hc)
  have ht := fun c hc => plain_ascii c!"@:" (by decide) c (h2 c hc)
  have hb : ∀ (a : Str), (∀ c ∈ a, c.toNat < 128 ∧ c ≠ '\n') → a.length ≤ 65000 →
      (∀ c ∈ a, c.toNat < 128) ∧ '\n' ∉ a ∧ a.length ≤ 65000 :=
    fun a ha hl => ⟨fun c hc => (ha c hc).1, fun hc => (ha _ hc).2 rfl, hl⟩
  have bs := hb s hs (by omega)
  have bt := hb t ht (by omega)
  constructor
  · left
    refine ⟨[], ?_⟩
    unfold requestText requestFields fieldsText
    cases rs with
    | none => simp [List.flatMap_cons]
    | some r => simp [List.flatMap_cons]
  · cases rs with
    | none =>
      refine validRequest_of _ rfl (Or.inl rfl) ?_
      intro f hf
      rcases List.mem_cons.1 hf with rfl | hf
      · exact hr
      rcases List.mem_cons.1 hf with rfl | hf
      · exact bt
      rcases List.mem_cons.1 hf with rfl | hf
      · exact bs
      · simp at hf
    | some r =>
      have hr3 := h3 r rfl
      have br := hb r (fun c hc => plain_ascii c!"@:" (by decide) c (hr3.1 c hc)) (by omega)
      refine validRequest_of _ rfl (Or.inr rfl) ?_
      intro f hf
      rcases List.mem_cons.1 hf with rfl | hf
      · exact hr
      rcases List.mem_cons.1 hf with rfl | hf
      · exact br
      rcases List.mem_cons.1 hf with rfl | hf
      · exact bt
      rcases List.mem_cons.1 hf with rfl | hf
      · exact bs
      · simp at hf

theorem engineAnswer_request (sys : Option Info) (policy : Except Err (List Rule)) (agent : Agent)
    (remote : Str) (rs : Option Str) (t s : Str) :
    engineAnswer sys policy agent (requestFields remote rs t s) =
      handleRequest sys policy agent {} remote t s (rs.getD []) := by
  cases rs <;> rfl

/-- **C53.** The policy daemon answers a trigger message with the decision for the qube the message
came from and the cleaned values of its fields. -/
theorem C53_evaluated (sys : Option Info) (policy : Except Err (List Rule)) (agent : Agent)
    (proto kind : Nat) (data : Wire) (rs : Option Str) (t s : Str)
    (ident : Wire) (remote : Str) (h : triggerMsg proto kind data = .request rs t s ident)
    (hr : (∀ c ∈ remote, c.toNat < 128) ∧ '\n' ∉ remote ∧ remote.length ≤ 65000) (b : Wire) :
    (handleClient sys policy agent (requestText remote rs t s)).2 = some b ↔
      (handleRequest sys policy agent {} remote t s (rs.getD [])).2 = .ok b ∧
        ∀ c ∈ b, c.toNat < 128 := by
  obtain ⟨h1, h2⟩ := C53_no_injection _ _ _ _ _ _ _ _ h hr
  rw [(C38_answered sys policy agent _ _ h1 h2).2 b, engineAnswer_request]

set_option maxRecDepth 20000 in
/-- An accepted message, with a byte replaced. -/
example :
    let field := fun (n : Nat) (s : Str) => s ++ List.replicate (n - s.length) '\x00'
    triggerMsg 3 3 (field 64 c!"vault" ++ field 32 c!"SOCKET1" ++ c!"my.Copy+a\nb\x00") =
      .request none c!"vault" c!"my.Copy+a_b" (field 32 c!"SOCKET1") ∧
    triggerMsg 3 3 (field 64 c!"vault" ++ field 32 c!"SOCKET1" ++ c!"+arg\x00") =
      .refuse (field 32 c!"SOCKET1") ∧
    triggerMsg 4 4 (field 64 c!"far" ++ field 64 c!"@dispvm:a=b" ++ field 32 c!"SOCKET1" ++
      c!"svc\x00") = .request (some c!"far") c!"@dispvm:a_b" c!"svc" (field 32 c!"SOCKET1") ∧
    triggerMsg 3 2 (field 64 c!"svc" ++ field 32 c!"vault" ++ field 32 c!"S") = .die := by
  decide

/-! ## C57: nothing is run unless granted -/

/-- **C57.** From the bytes of a qube's message to the command: while the policy daemon answers, a
command is executed only if the policy grants the call of exactly this qube, target, service and
argument; it is then the command of the granted target.  Assumptions on the system state and the
rules as in C21. -/
theorem C57_executed_only_if_granted (info : Info) (rules : List Rule) (agent : Agent)
    (proto kind : Nat) (data : Wire) (rs : Option Str) (t s : Str) (ident : Wire) (remote : Str)
    (h : triggerMsg proto kind data = .request rs t s ident)
    (hr : (∀ c ∈ remote, c.toNat < 128) ∧ '\n' ∉ remote ∧ remote.length ≤ 65000)
    (hn : OrdinaryNames info ∧ NoNewlines info)
    (hrules : ∀ r ∈ rules, IsRule r ∧
      ∀ u t d n b, (r.action = .allow t (some u) n b ∨ r.action = .ask t d (some u) n b) →
        '\n' ∉ u)
    (answer : Wire) (hans : (handleClient (some info) (.ok rules) agent
      (requestText remote rs t s)).2 = some answer) (hnul : '\x00' ∉ answer) :
    agentCall (some info) (.ok rules) agent remote rs t s = .refuse ∨
    ∃ req r user autostart out fs p, requestOf s remote t info (rs.getD []) = .ok req ∧
      Granted rules req {} agent r user autostart out ∧ AnswerFor req user autostart out fs ∧
      Holds fs p ∧
      agentCall (some info) (.ok rules) agent remote rs t s = childAction remote s p := by
  obtain ⟨hans', hascii⟩ := (C53_evaluated _ _ _ _ _ _ _ _ _ _ _ h hr answer).1 hans
  have hs := (C53_safe _ _ _ _ _ _ _ h).1
  have hsn : '\n' ∉ s := fun hc => (plain_ascii c!"+" (by decide) _ (hs _ hc)).2 rfl
  rcases hrun : handleRequest (some info) (.ok rules) agent {} remote t s (rs.getD []) with ⟨evs, e⟩
  rw [hrun] at hans'
  simp only at hans'
  subst hans'
  have hcall : agentCall (some info) (.ok rules) agent remote rs t s =
      serviceChild remote s ⟨some answer, policyExec (some info) (.ok rules) agent remote t s⟩ := by
    unfold agentCall
    rw [hans]
    rfl
  rcases C22_engine_answer_understood (some info) (.ok rules) agent {} remote t s (rs.getD [])
      (fun i hi => by cases hi; exact hn) (fun x hx => by cases hx; exact hrules) hsn rfl evs answer
      hrun hnul with ⟨hden, hp⟩ | ⟨info', rules', req, r, user, autostart, out, fs, p, h1, h2, h3, h4, h5,
        _, _, hp, hh⟩
  · left
    rw [hcall]
    unfold serviceChild connectDaemon
    simp only [hp]
  · right
    cases h1; cases h2
    refine ⟨req, r, user, autostart, out, fs, p, h3, h4, h5, hh, ?_⟩
    rw [hcall]
    unfold serviceChild connectDaemon
    simp only [hp]

/-- The hypotheses are met: the message of the example above, sent by `work` to `relay`, is executed
there. -/
example :
    let rules := [exAllowAll]
    (handleClient (some exInfo2) (.ok rules) exAgent (requestText c!"work" none c!"relay" c!"svc+a")).2 =
      some c!"user=DEFAULT\nresult=allow\ntarget=relay\ntarget_uuid=uuid:u1\nautostart=True\nrequested_target=relay" ∧
    agentCall (some exInfo2) (.ok rules) exAgent c!"work" none c!"relay" c!"svc+a" =
      .runVm c!"uuid:u1" true true c!"DEFAULT:QUBESRPC svc+a work" := by
  decide

end Qrexec
