import Verif.Spec.Handshake
import Verif.Props.DataOut

/-! C70: the two ends of a connection agree on the version of the protocol. -/
namespace Qrexec

/-- What is left to do at any moment of the two orders. -/
def HsTodo (t : List HsAct) : Prop :=
  t ∈ [[HsAct.sendHdr, .sendBody, .readHdr, .readBody], [.sendBody, .readHdr, .readBody], [.readHdr, .readBody],
    [.readBody], [], [.readHdr, .readBody, .sendHdr, .sendBody], [.readBody, .sendHdr, .sendBody],
    [.sendHdr, .sendBody], [.sendBody]]

def hsSent (t : List HsAct) : Nat :=
  12 - (if HsAct.sendHdr ∈ t then 8 else 0) - (if HsAct.sendBody ∈ t then 4 else 0)

def hsRead (t : List HsAct) : Nat :=
  12 - (if HsAct.readHdr ∈ t then 8 else 0) - (if HsAct.readBody ∈ t then 4 else 0)

theorem hello_length (v : Nat) : (hello v).length = 12 := rfl

theorem hello_take8 (v : Nat) : (hello v).take 8 = u32le 0x300 ++ u32le 4 := rfl

theorem hello_drop8 (v : Nat) : (hello v).drop 8 = u32le v := rfl

/-- What the other end sees of an end: `n` bytes of its HELLO and, when that is complete, data. -/
def hsWire (v n : Nat) (r : Nat) (l : Str) : Str := ((hello v).take n).drop r ++ l

theorem hsAct_ok {own v n : Nat} {p p' : HsParty} {inp' out l : Str} (hv : 2 ≤ v) (hv' : v < 4294967296)
    (ho : 2 ≤ own) (ht : HsTodo p.todo) (hn : n = 0 ∨ n = 8 ∨ n = 12) (hl : l ≠ [] → n = 12) (hr : hsRead p.todo ≤ n)
    (hf : p.failed = false) (hact : HsAct.readBody ∉ p.todo → p.actual = min own v)
    (h : hsAct (dataEnd own) p (hsWire v n (hsRead p.todo) l) = some (p', inp', out)) :
    HsTodo p'.todo ∧ p'.failed = false ∧ inp' = hsWire v n (hsRead p'.todo) l ∧ hsRead p'.todo ≤ n ∧
    (hello own).take (hsSent p'.todo) = (hello own).take (hsSent p.todo) ++ out ∧
    (HsAct.readBody ∉ p'.todo → p'.actual = min own v) ∧ p'.todo.length + 1 = p.todo.length ∧ p'.later = p.later ∧
    (∃ x, p.todo = x :: p'.todo) := by
  obtain ⟨todo, ver, actual, failed, later⟩ := p
  dsimp only at *
  unfold HsTodo at ht
  simp only [List.mem_cons, List.not_mem_nil, or_false] at ht
  have sendH : ∀ t, hsSent (.sendHdr :: t) = 0 → hsSent t = 8 →
      (hello own).take (hsSent t) = (hello own).take (hsSent (.sendHdr :: t)) ++ (u32le 0x300 ++ u32le 4) := by
    intro t h1 h2; rw [h1, h2]; rfl
  have sendB : ∀ t, hsSent (.sendBody :: t) = 8 → hsSent t = 12 →
      (hello own).take (hsSent t) = (hello own).take (hsSent (.sendBody :: t)) ++ u32le own := by
    intro t h1 h2; rw [h1, h2]; rfl
  have hlen : ∀ r, (hsWire v n r l).length = (n - r) + l.length := by
    intro r; unfold hsWire
    simp only [List.length_append, List.length_drop, List.length_take, hello_length]
    rcases hn with rfl | rfl | rfl <;> rfl
  have rdH : ∀ t, hsRead (.readHdr :: t) = 0 → hsRead t = 8 →
      hsAct (dataEnd own) ⟨.readHdr :: t, ver, actual, failed, later⟩ (hsWire v n (hsRead (.readHdr :: t)) l) =
        some (p', inp', out) → 8 ≤ n ∧ p' = ⟨t, ver, actual, failed, later⟩ ∧ inp' = hsWire v n (hsRead t) l ∧
          out = [] := by
    intro t h1 h2 h
    rw [h1] at h
    simp only [hsAct] at h
    by_cases hc : (hsWire v n 0 l).length < 8
    · rw [if_pos hc] at h; cases h
    rw [if_neg hc] at h
    have h8 : n = 8 ∨ n = 12 := by
      rcases hn with rfl | rfl | rfl
      · have : l = [] := by by_contra hq; exact absurd (hl hq) (by decide)
        subst this
        exact absurd (show (0 : Nat) < 8 by decide) hc
      · exact .inl rfl
      · exact .inr rfl
    have e1 : u32of (hsWire v n 0 l) = 0x300 := by
      rcases h8 with rfl | rfl <;> (unfold hsWire hello; exact u32of_u32le 0x300 (by decide) _)
    have e2 : u32of ((hsWire v n 0 l).drop 4) = 4 := by
      rcases h8 with rfl | rfl <;> (unfold hsWire hello; exact u32of_u32le 4 (by decide) _)
    have e3 : (hsWire v n 0 l).drop 8 = hsWire v n 8 l := by
      rcases h8 with rfl | rfl <;> rfl
    rw [if_neg (by rw [e1, e2]; decide), e3] at h
    simp only [Option.some.injEq, Prod.mk.injEq] at h
    obtain ⟨rfl, rfl, rfl⟩ := h
    exact ⟨by omega, rfl, by rw [h2], rfl⟩
  have rdB : ∀ t, hsRead (.readBody :: t) = 8 → hsRead t = 12 →
      hsAct (dataEnd own) ⟨.readBody :: t, ver, actual, failed, later⟩ (hsWire v n (hsRead (.readBody :: t)) l) =
        some (p', inp', out) → n = 12 ∧ p' = ⟨t, v, min own v, failed, later⟩ ∧ inp' = hsWire v n (hsRead t) l ∧
          out = [] := by
    intro t h1 h2 h
    rw [h1] at h
    simp only [hsAct] at h
    by_cases hc : (hsWire v n 8 l).length < 4
    · rw [if_pos hc] at h; cases h
    rw [if_neg hc] at h
    have h12 : n = 12 := by
      by_contra hq
      have : l = [] := by by_contra hq'; exact hq (hl hq')
      subst this
      apply hc; rw [hlen]; simp; omega
    subst h12
    have e1 : u32of (hsWire v 12 8 l) = v := u32of_u32le v hv' l
    have e3 : (hsWire v 12 8 l).drop 4 = hsWire v 12 12 l := rfl
    rw [e1, e3] at h
    have e4 : (if v < (dataEnd own).limit then v else (dataEnd own).limit) = min own v := by
      show (if v < own then v else own) = _
      split_ifs <;> omega
    rw [e4, if_neg (by show ¬ min own v < 2; omega)] at h
    simp only [Option.some.injEq, Prod.mk.injEq] at h
    obtain ⟨rfl, rfl, rfl⟩ := h
    exact ⟨rfl, rfl, by rw [h2], rfl⟩
  have snH : ∀ t, hsAct (dataEnd own) ⟨.sendHdr :: t, ver, actual, failed, later⟩ (hsWire v n (hsRead (.sendHdr :: t)) l) =
        some (p', inp', out) → p' = ⟨t, ver, actual, failed, later⟩ ∧ inp' = hsWire v n (hsRead (.sendHdr :: t)) l ∧
          out = u32le 0x300 ++ u32le 4 := by
    intro t h
    simp only [hsAct, Option.some.injEq, Prod.mk.injEq] at h
    obtain ⟨rfl, rfl, rfl⟩ := h
    exact ⟨rfl, rfl, rfl⟩
  have snB : ∀ t, hsAct (dataEnd own) ⟨.sendBody :: t, ver, actual, failed, later⟩ (hsWire v n (hsRead (.sendBody :: t)) l) =
        some (p', inp', out) → p' = ⟨t, ver, actual, failed, later⟩ ∧ inp' = hsWire v n (hsRead (.sendBody :: t)) l ∧
          out = u32le own := by
    intro t h
    simp only [hsAct, Option.some.injEq, Prod.mk.injEq] at h
    obtain ⟨rfl, rfl, rfl⟩ := h
    exact ⟨rfl, rfl, rfl⟩
  rcases ht with rfl | rfl | rfl | rfl | rfl | rfl | rfl | rfl | rfl
  · obtain ⟨rfl, rfl, rfl⟩ := snH _ h
    exact ⟨by simp [HsTodo], hf, rfl, hr, sendH _ rfl rfl, hact ∘ fun h => by simpa using h, rfl, rfl, _, rfl⟩
  · obtain ⟨rfl, rfl, rfl⟩ := snB _ h
    exact ⟨by simp [HsTodo], hf, rfl, hr, sendB _ rfl rfl, hact ∘ fun h => by simpa using h, rfl, rfl, _, rfl⟩
  · obtain ⟨h8, rfl, rfl, rfl⟩ := rdH _ rfl rfl h
    exact ⟨by simp [HsTodo], hf, rfl, h8, by simp [hsSent], hact ∘ fun h => by simpa using h, rfl, rfl, _, rfl⟩
  · obtain ⟨h8, rfl, rfl, rfl⟩ := rdB _ rfl rfl h
    exact ⟨by simp [HsTodo], hf, rfl, (by rw [h8]; exact Nat.le_of_ble_eq_true rfl), by simp [hsSent], fun _ => rfl, rfl, rfl, _, rfl⟩
  · cases h
  · obtain ⟨h8, rfl, rfl, rfl⟩ := rdH _ rfl rfl h
    exact ⟨by simp [HsTodo], hf, rfl, h8, by simp [hsSent], hact ∘ fun h => by simpa using h, rfl, rfl, _, rfl⟩
  · obtain ⟨h8, rfl, rfl, rfl⟩ := rdB _ rfl rfl h
    exact ⟨by simp [HsTodo], hf, rfl, (by rw [h8]; exact Nat.le_of_ble_eq_true rfl), by simp [hsSent], fun _ => rfl, rfl, rfl, _, rfl⟩
  · obtain ⟨rfl, rfl, rfl⟩ := snH _ h
    exact ⟨by simp [HsTodo], hf, rfl, hr, sendH _ rfl rfl, hact ∘ fun h => by simpa using h, rfl, rfl, _, rfl⟩
  · obtain ⟨rfl, rfl, rfl⟩ := snB _ h
    exact ⟨by simp [HsTodo], hf, rfl, hr, sendB _ rfl rfl, hact ∘ fun h => by simpa using h, rfl, rfl, _, rfl⟩

theorem hsAct_wait {own v n : Nat} {p : HsParty} {l : Str} (ht : HsTodo p.todo) (hn : n = 0 ∨ n = 8 ∨ n = 12)
    (hr : hsRead p.todo ≤ n) (hne : p.todo ≠ [])
    (h : hsAct (dataEnd own) p (hsWire v n (hsRead p.todo) l) = none) :
    n = hsRead p.todo ∧ n < 12 ∧ (hsSent p.todo = 12 ∨ hsSent p.todo = 0 ∧
      p.todo <:+ [.readHdr, .readBody, .sendHdr, .sendBody]) := by
  obtain ⟨todo, ver, actual, failed, later⟩ := p
  dsimp only at *
  unfold HsTodo at ht
  simp only [List.mem_cons, List.not_mem_nil, or_false] at ht
  have hlen : ∀ r, (hsWire v n r l).length = (n - r) + l.length := by
    intro r; unfold hsWire
    simp only [List.length_append, List.length_drop, List.length_take, hello_length]
    rcases hn with rfl | rfl | rfl <;> rfl
  have rdH : ∀ t, hsRead (.readHdr :: t) = 0 →
      hsAct (dataEnd own) ⟨.readHdr :: t, ver, actual, failed, later⟩ (hsWire v n (hsRead (.readHdr :: t)) l) = none →
        n = 0 := by
    intro t h1 h
    rw [h1] at h
    simp only [hsAct] at h
    by_cases hc : (hsWire v n 0 l).length < 8
    · rw [hlen] at hc; omega
    · rw [if_neg hc] at h
      split_ifs at h
  have rdB : ∀ t, hsRead (.readBody :: t) = 8 →
      hsAct (dataEnd own) ⟨.readBody :: t, ver, actual, failed, later⟩ (hsWire v n (hsRead (.readBody :: t)) l) = none →
        8 ≤ n → n = 8 := by
    intro t h1 h h8
    rw [h1] at h
    simp only [hsAct] at h
    by_cases hc : (hsWire v n 8 l).length < 4
    · rw [hlen] at hc; omega
    · rw [if_neg hc] at h
      split_ifs at h
  rcases ht with rfl | rfl | rfl | rfl | rfl | rfl | rfl | rfl | rfl
  · simp [hsAct] at h
  · simp [hsAct] at h
  · have := rdH _ rfl h; exact ⟨this, by omega, .inl rfl⟩
  · have := rdB _ rfl h hr; exact ⟨this, by omega, .inl rfl⟩
  · exact absurd rfl hne
  · have := rdH _ rfl h; exact ⟨this, by omega, .inr ⟨rfl, List.suffix_refl _⟩⟩
  · have := rdB _ rfl h hr; exact ⟨this, by omega, .inr ⟨rfl, List.suffix_cons _ _⟩⟩
  · simp [hsAct] at h
  · simp [hsAct] at h

/-- The two orders. -/
def HsPlan (p : List HsAct) : Prop :=
  p = [.sendHdr, .sendBody, .readHdr, .readBody] ∨ p = [.readHdr, .readBody, .sendHdr, .sendBody]

structure HsInv (va vb : Nat) (pa pb : List HsAct) (s : HsSys) : Prop where
  todoA : HsTodo s.a.todo
  todoB : HsTodo s.b.todo
  sufA : s.a.todo <:+ pa
  sufB : s.b.todo <:+ pb
  okA : s.a.failed = false
  okB : s.b.failed = false
  laterA : s.a.later ≠ [] → s.a.todo = []
  laterB : s.b.later ≠ [] → s.b.todo = []
  rdA : hsRead s.a.todo ≤ hsSent s.b.todo
  rdB : hsRead s.b.todo ≤ hsSent s.a.todo
  actA : HsAct.readBody ∉ s.a.todo → s.a.actual = min va vb
  actB : HsAct.readBody ∉ s.b.todo → s.b.actual = min vb va
  wireAB : s.ab = hsWire va (hsSent s.a.todo) (hsRead s.b.todo) s.a.later
  wireBA : s.ba = hsWire vb (hsSent s.b.todo) (hsRead s.a.todo) s.b.later

theorem hsSent_cases {t : List HsAct} (h : HsTodo t) : hsSent t = 0 ∨ hsSent t = 8 ∨ hsSent t = 12 := by
  unfold HsTodo at h
  simp only [List.mem_cons, List.not_mem_nil, or_false] at h
  rcases h with rfl | rfl | rfl | rfl | rfl | rfl | rfl | rfl | rfl <;> decide

theorem hsSent_le {t : List HsAct} : hsSent t ≤ 12 := by unfold hsSent; omega

theorem hsPlan_start {p : List HsAct} (h : HsPlan p) : HsTodo p ∧ hsSent p = 0 ∧ hsRead p = 0 ∧ .readBody ∈ p := by
  rcases h with rfl | rfl <;> exact ⟨by simp [HsTodo], rfl, rfl, by simp⟩

theorem hsInv_start {va vb : Nat} {pa pb : List HsAct} (ha : HsPlan pa) (hb : HsPlan pb) :
    HsInv va vb pa pb { a := hsInit pa, b := hsInit pb } := by
  obtain ⟨a1, a2, a3, a4⟩ := hsPlan_start ha
  obtain ⟨b1, b2, b3, b4⟩ := hsPlan_start hb
  refine ⟨a1, b1, List.suffix_refl _, List.suffix_refl _, rfl, rfl, (fun h => absurd rfl h), (fun h => absurd rfl h),
    ?_, ?_, (fun h => absurd a4 h), (fun h => absurd b4 h), ?_, ?_⟩
  · show hsRead pa ≤ _; rw [a3]; exact Nat.zero_le _
  · show hsRead pb ≤ _; rw [b3]; exact Nat.zero_le _
  · show [] = hsWire va (hsSent pa) (hsRead pb) []; rw [a2, b3]; rfl
  · show [] = hsWire vb (hsSent pb) (hsRead pa) []; rw [b2, a3]; rfl

theorem hsWire_grow {v n n' r : Nat} {out : Str} (hr : r ≤ n) (hn : n ≤ 12)
    (h : (hello v).take n' = (hello v).take n ++ out) : hsWire v n r [] ++ out = hsWire v n' r [] := by
  unfold hsWire
  rw [h, List.drop_append_of_le_length (by simp [hello_length]; omega)]
  simp

theorem hsWire_later {v n r : Nat} {l x : Str} : hsWire v n r l ++ x = hsWire v n r (l ++ x) := by
  unfold hsWire; rw [List.append_assoc]

theorem hsRead_nil : hsRead [] = 12 := rfl
theorem hsSent_nil : hsSent [] = 12 := rfl

theorem hsSent_of_grow {v : Nat} {t t' : List HsAct} {out : Str}
    (h : (hello v).take (hsSent t') = (hello v).take (hsSent t) ++ out) : hsSent t ≤ hsSent t' := by
  have := congrArg List.length h
  simp only [List.length_append, List.length_take, hello_length] at this
  have := @hsSent_le t; have := @hsSent_le t'
  omega

theorem hsInv_step {va vb : Nat} (h2a : 2 ≤ va) (h2b : 2 ≤ vb) (ha : va < 4294967296) (hb : vb < 4294967296)
    {pa pb : List HsAct} {s t : HsSys} (hi : HsInv va vb pa pb s) (h : HsStep (dataEnd va) (dataEnd vb) s t) :
    HsInv va vb pa pb t := by
  obtain ⟨i1, i2, i3, i4, i5, i6, i7, i8, i9, i10, i11, i12, i13, i14⟩ := hi
  cases h with
  | left h =>
    rename_i p inp out
    rw [i14] at h
    obtain ⟨e1, e2, e3, e4, e5, e6, e7, e8, x, e9⟩ := hsAct_ok h2b hb h2a i1 (hsSent_cases i2)
      (fun hl => by rw [i8 hl]; rfl) i9 i5 i11 h
    have hnl : s.a.later = [] := by
      by_contra hq; rw [i7 hq] at e9; cases e9
    refine ⟨e1, i2, ?_, i4, e2, i6, ?_, i8, e4, ?_, e6, i12, ?_, e3⟩
    · exact (List.suffix_cons x _).trans (e9 ▸ i3)
    · intro hq; rw [e8] at hq; exact absurd hnl hq
    · exact Nat.le_trans i10 (hsSent_of_grow e5)
    · show s.ab ++ out = hsWire va (hsSent p.todo) (hsRead s.b.todo) p.later
      rw [i13, e8, hnl]
      exact hsWire_grow i10 hsSent_le e5
  | right h =>
    rename_i p inp out
    rw [i13] at h
    obtain ⟨e1, e2, e3, e4, e5, e6, e7, e8, x, e9⟩ := hsAct_ok h2a ha h2b i2 (hsSent_cases i1)
      (fun hl => by rw [i7 hl]; rfl) i10 i6 i12 h
    have hnl : s.b.later = [] := by
      by_contra hq; rw [i8 hq] at e9; cases e9
    refine ⟨i1, e1, i3, ?_, i5, e2, i7, ?_, ?_, e4, i11, e6, e3, ?_⟩
    · exact (List.suffix_cons x _).trans (e9 ▸ i4)
    · intro hq; rw [e8] at hq; exact absurd hnl hq
    · exact Nat.le_trans i9 (hsSent_of_grow e5)
    · show s.ba ++ out = hsWire vb (hsSent p.todo) (hsRead s.a.todo) p.later
      rw [i14, e8, hnl]
      exact hsWire_grow i9 hsSent_le e5
  | dataLeft x h1 h2 =>
    refine ⟨i1, i2, i3, i4, i5, i6, fun _ => h1, i8, i9, i10, i11, i12, ?_, i14⟩
    show s.ab ++ x = hsWire va (hsSent s.a.todo) (hsRead s.b.todo) (s.a.later ++ x)
    rw [i13, hsWire_later]
  | dataRight x h1 h2 =>
    refine ⟨i1, i2, i3, i4, i5, i6, i7, fun _ => h1, i9, i10, i11, i12, i13, ?_⟩
    show s.ba ++ x = hsWire vb (hsSent s.b.todo) (hsRead s.a.todo) (s.b.later ++ x)
    rw [i14, hsWire_later]

theorem hsInv_reach {va vb : Nat} (h2a : 2 ≤ va) (h2b : 2 ≤ vb) (ha : va < 4294967296) (hb : vb < 4294967296)
    {pa pb : List HsAct} (hpa : HsPlan pa) (hpb : HsPlan pb) {s : HsSys}
    (h : HsReach (dataEnd va) (dataEnd vb) pa pb s) : HsInv va vb pa pb s := by
  unfold HsReach at h
  generalize hz : ({ a := hsInit pa, b := hsInit pb } : HsSys) = z at h
  induction h with
  | refl => subst hz; exact hsInv_start hpa hpb
  | tail _ h ih => exact hsInv_step h2a h2b ha hb ih h

theorem agentPlan_is : HsPlan agentPlan := .inl rfl

theorem dom0Plan_is (r : Bool) : HsPlan (dom0Plan r) := by
  cases r
  · exact .inl (by decide)
  · exact .inr (by decide)

/-- The pairs of ends between which data connections are opened: a qube and another qube, and a qube and dom0, which
sends second when it runs the service and first when it is the caller. -/
inductive HsPair : List HsAct → List HsAct → Prop
  | qubes : HsPair agentPlan agentPlan
  | dom0 (r : Bool) : HsPair (dom0Plan r) agentPlan
  | dom0' (r : Bool) : HsPair agentPlan (dom0Plan r)

theorem HsPair.plans {pa pb : List HsAct} (h : HsPair pa pb) : HsPlan pa ∧ HsPlan pb ∧
    (pa = [.sendHdr, .sendBody, .readHdr, .readBody] ∨ pb = [.sendHdr, .sendBody, .readHdr, .readBody]) := by
  cases h with
  | qubes => exact ⟨agentPlan_is, agentPlan_is, .inl rfl⟩
  | dom0 r => exact ⟨dom0Plan_is r, agentPlan_is, .inr rfl⟩
  | dom0' r => exact ⟨agentPlan_is, dom0Plan_is r, .inl rfl⟩

/-- **C70.** Two ends of a data connection that speak versions `va` and `vb` (at least 2), in any interleaving of their
reads and writes, even when one already sends data while the other has not finished: no end ever gives up; an end that
has finished uses the smaller of the two versions; and what it finds in its input from then on is exactly what the
other end has sent after its HELLO. -/
theorem C70_agree {va vb : Nat} (h2a : 2 ≤ va) (h2b : 2 ≤ vb) (ha : va < 4294967296) (hb : vb < 4294967296)
    {pa pb : List HsAct} (hp : HsPair pa pb) {s : HsSys} (h : HsReach (dataEnd va) (dataEnd vb) pa pb s) :
    s.a.failed = false ∧ s.b.failed = false ∧
    (s.a.ready → s.a.actual = min va vb) ∧ (s.b.ready → s.b.actual = min va vb) ∧
    (s.a.ready → s.ba = s.b.later) ∧ (s.b.ready → s.ab = s.a.later) := by
  have hi := hsInv_reach h2a h2b ha hb hp.plans.1 hp.plans.2.1 h
  refine ⟨hi.okA, hi.okB, ?_, ?_, ?_, ?_⟩
  · rintro ⟨h1, _⟩; exact hi.actA (by simp [h1])
  · rintro ⟨h1, _⟩; rw [hi.actB (by simp [h1]), Nat.min_comm]
  · rintro ⟨h1, _⟩
    have hsent : hsSent s.b.todo = 12 := by
      have := hi.rdA; rw [h1, hsRead_nil] at this
      have := @hsSent_le s.b.todo; omega
    rw [hi.wireBA, h1, hsent]; rfl
  · rintro ⟨h1, _⟩
    have hsent : hsSent s.a.todo = 12 := by
      have := hi.rdB; rw [h1, hsRead_nil] at this
      have := @hsSent_le s.a.todo; omega
    rw [hi.wireAB, h1, hsent]; rfl

/-- **C70, no deadlock.** As long as one of them has not finished, one of the two can go on; and they finish after at
most 8 reads and writes. -/
theorem C70_progress {va vb : Nat} (h2a : 2 ≤ va) (h2b : 2 ≤ vb) (ha : va < 4294967296) (hb : vb < 4294967296)
    {pa pb : List HsAct} (hp : HsPair pa pb) {s : HsSys} (h : HsReach (dataEnd va) (dataEnd vb) pa pb s) :
    (s.a.ready ∧ s.b.ready) ∨
    (∃ r, hsAct (dataEnd va) s.a s.ba = some r ∧ r.1.todo.length < s.a.todo.length) ∨
    (∃ r, hsAct (dataEnd vb) s.b s.ab = some r ∧ r.1.todo.length < s.b.todo.length) := by
  have hi := hsInv_reach h2a h2b ha hb hp.plans.1 hp.plans.2.1 h
  have okA : ∀ r, hsAct (dataEnd va) s.a s.ba = some r → r.1.todo.length < s.a.todo.length := by
    rintro ⟨p, i, o⟩ h
    rw [hi.wireBA] at h
    obtain ⟨_, _, _, _, _, _, e, _⟩ := hsAct_ok h2b hb h2a hi.todoA (hsSent_cases hi.todoB)
      (fun hl => by rw [hi.laterB hl]; rfl) hi.rdA hi.okA hi.actA h
    show p.todo.length < _
    omega
  have okB : ∀ r, hsAct (dataEnd vb) s.b s.ab = some r → r.1.todo.length < s.b.todo.length := by
    rintro ⟨p, i, o⟩ h
    rw [hi.wireAB] at h
    obtain ⟨_, _, _, _, _, _, e, _⟩ := hsAct_ok h2a ha h2b hi.todoB (hsSent_cases hi.todoA)
      (fun hl => by rw [hi.laterA hl]; rfl) hi.rdB hi.okB hi.actB h
    show p.todo.length < _
    omega
  cases ea : hsAct (dataEnd va) s.a s.ba with
  | some r => exact .inr (.inl ⟨r, rfl, okA r ea⟩)
  | none =>
    cases eb : hsAct (dataEnd vb) s.b s.ab with
    | some r => exact .inr (.inr ⟨r, rfl, okB r eb⟩)
    | none =>
      refine .inl ?_
      rw [hi.wireBA] at ea
      rw [hi.wireAB] at eb
      by_cases na : s.a.todo = []
      · by_cases nb : s.b.todo = []
        · exact ⟨⟨na, hi.okA⟩, ⟨nb, hi.okB⟩⟩
        · obtain ⟨_, h2, _⟩ := hsAct_wait hi.todoB (hsSent_cases hi.todoA) hi.rdB nb eb
          rw [na, hsSent_nil] at h2; omega
      · obtain ⟨a1, a2, a3⟩ := hsAct_wait hi.todoA (hsSent_cases hi.todoB) hi.rdA na ea
        by_cases nb : s.b.todo = []
        · rw [nb, hsSent_nil] at a2; omega
        · obtain ⟨b1, b2, b3⟩ := hsAct_wait hi.todoB (hsSent_cases hi.todoA) hi.rdB nb eb
          exfalso
          have no : ∀ t : List HsAct, t <:+ [.sendHdr, .sendBody, .readHdr, .readBody] →
              t <:+ [.readHdr, .readBody, .sendHdr, .sendBody] → t = [] := by
            intro t h1 h2
            simp only [List.suffix_cons_iff, List.suffix_nil] at h1 h2
            rcases h1 with rfl | rfl | rfl | rfl | rfl <;> simp at h2 ⊢
          rcases a3 with a3 | ⟨a3, a4⟩
          · omega
          rcases b3 with b3 | ⟨b3, b4⟩
          · omega
          rcases hp.plans.2.2 with e | e
          · exact na (no _ (e ▸ hi.sufA) a4)
          · exact nb (no _ (e ▸ hi.sufB) b4)

/-- **C70, both ends cut the data in the same way.** After the handshake the largest message either end sends, and the
largest it accepts, is 4096 bytes if one of them speaks version 2, and 65536 bytes if both speak a later version. -/
theorem C70_chunk {va vb : Nat} (h2a : 2 ≤ va) (h2b : 2 ≤ vb) (ha : va < 4294967296) (hb : vb < 4294967296)
    {pa pb : List HsAct} (hp : HsPair pa pb) {s : HsSys} (h : HsReach (dataEnd va) (dataEnd vb) pa pb s)
    (hra : s.a.ready) (hrb : s.b.ready) :
    maxDataChunk s.a.actual = maxDataChunk s.b.actual ∧
    (va = 2 ∨ vb = 2 → maxDataChunk s.a.actual = 4096) ∧ (3 ≤ va → 3 ≤ vb → maxDataChunk s.a.actual = 65536) := by
  obtain ⟨_, _, e1, e2, _⟩ := C70_agree h2a h2b ha hb hp h
  rw [e1 hra, e2 hrb]
  refine ⟨rfl, fun hq => ?_, fun h3 h3' => ?_⟩
  · exact if_pos (by omega)
  · exact if_neg (by omega)


/-- **C70, and the data.** Two ends that have shaken hands and cut and accept messages according to the version they
have found: what the one reads from its process is what the other writes to its process (`C49_end_to_end_partial`, whose
assumption of a common version is what the handshake provides). -/
theorem C70_data {va vb : Nat} (h2a : 2 ≤ va) (h2b : 2 ≤ vb) (ha : va < 4294967296) (hb : vb < 4294967296)
    {pa pb : List HsAct} (hp : HsPair pa pb) {h : HsSys} (hh : HsReach (dataEnd va) (dataEnd vb) pa pb h)
    (hra : h.a.ready) (hrb : h.b.ready)
    (c : IoCfg) (socket hasErr : Bool) (buf pfx : Str) (ts : List Tick) (s : IoSt)
    (hv : c.maxChunk = maxDataChunk h.a.actual) (he : c.isService = false → hasErr = false)
    (hr : ioRun c ts (ioStart c socket hasErr buf pfx) = .next s ∨
      ioRun c ts (ioStart c socket hasErr buf pfx) = .leave s)
    (hpf : pfx = [] ∨ c.exitOnStdinEof = false ∧
      (c.isService = true ∨ ∀ t ∈ ts, ∀ d, InItem.msg 0x193 d ∉ t.arrive))
    (hu : socket = true ∨ ∀ t ∈ ts, t.usr1 = false) (hok : s.sendOk = true)
    (c' : IoCfg) (hv' : c'.maxChunk = maxDataChunk h.b.actual) (socket' hasErr' : Bool) (buf' pfx' : Str)
    (ts' : List Tick) (r : IoStep) (hr' : ioRun c' ts' (ioStart c' socket' hasErr' buf' pfx') = r)
    (harr : ts'.flatMap Tick.arrive <+: s.sent.map fun m => InItem.msg m.1 m.2) :
    r.st.written <+: buf' ++ conv c'.replaceOut (pfx ++ s.readOut) := by
  obtain ⟨_, _, e1, e2, _⟩ := C70_agree h2a h2b ha hb hp hh
  rw [e1 hra] at hv
  rw [e2 hrb] at hv'
  exact (C49_end_to_end_partial c (min va vb) socket hasErr buf pfx ts s hv he hr hpf hu hok c' hv' socket' hasErr' buf' pfx'
    ts' r hr' harr).1

/-! ## One end, whatever the other sends -/

theorem toNat_lt_ofNat {c : Char} (h : c.toNat < 256) : Char.ofNat c.toNat = c := by simp

theorem u32le_u32of {s : Str} (h : ∀ c ∈ s, c.toNat < 256) (hl : 4 ≤ s.length) :
    u32le (u32of s) ++ s.drop 4 = s ∧ u32of s < 4294967296 := by
  match s, hl with
  | a :: b :: c :: d :: r, _ =>
    have ha := h a (by simp); have hb := h b (by simp); have hc := h c (by simp); have hd := h d (by simp)
    have e : u32of (a :: b :: c :: d :: r) = a.toNat + 256 * b.toNat + 65536 * c.toNat + 16777216 * d.toNat := rfl
    refine ⟨?_, by rw [e]; omega⟩
    rw [e]
    unfold u32le
    have e1 : (a.toNat + 256 * b.toNat + 65536 * c.toNat + 16777216 * d.toNat) % 256 = a.toNat := by omega
    have e2 : (a.toNat + 256 * b.toNat + 65536 * c.toNat + 16777216 * d.toNat) / 256 % 256 = b.toNat := by omega
    have e3 : (a.toNat + 256 * b.toNat + 65536 * c.toNat + 16777216 * d.toNat) / 65536 % 256 = c.toNat := by omega
    have e4 : (a.toNat + 256 * b.toNat + 65536 * c.toNat + 16777216 * d.toNat) / 16777216 % 256 = d.toNat := by omega
    rw [e1, e2, e3, e4]
    simp

/-- The bytes of a HELLO with a version the end accepts. -/
def HsGood (e : HsEnd) (inp : Str) : Prop :=
  12 ≤ inp.length ∧ u32of inp = 0x300 ∧ u32of (inp.drop 4) = 4 ∧ e.least ≤ min (u32of (inp.drop 8)) e.limit

theorem hsGood_iff {e : HsEnd} {inp : Str} (h : ∀ c ∈ inp, c.toNat < 256) (hle : e.least ≤ e.limit) :
    HsGood e inp ↔ ∃ w rest, inp = hello w ++ rest ∧ e.least ≤ w ∧ w < 4294967296 := by
  constructor
  · rintro ⟨h1, h2, h3, h4⟩
    obtain ⟨a1, _⟩ := u32le_u32of h (by omega)
    obtain ⟨b1, _⟩ := u32le_u32of (s := inp.drop 4) (fun c hc => h c (List.mem_of_mem_drop hc)) (by simp; omega)
    obtain ⟨c1, c2⟩ := u32le_u32of (s := inp.drop 8) (fun c hc => h c (List.mem_of_mem_drop hc)) (by simp; omega)
    refine ⟨u32of (inp.drop 8), inp.drop 12, ?_, by omega, c2⟩
    rw [h2] at a1; rw [h3] at b1
    rw [List.drop_drop] at b1 c1
    unfold hello
    rw [List.append_assoc, List.append_assoc, c1, b1, a1]
  · rintro ⟨w, rest, rfl, h1, h2⟩
    have e3 : u32of ((hello w ++ rest).drop 8) = w := u32of_u32le w h2 rest
    refine ⟨by simp [hello_length], ?_, ?_, by rw [e3]; omega⟩
    · unfold hello; rw [List.append_assoc, List.append_assoc]; exact u32of_u32le 0x300 (by decide) _
    · exact u32of_u32le 4 (by decide) (u32le w ++ rest)

/-- The run of an end that sends first. -/
theorem hsRun_send (e : HsEnd) (he : e.echo = false) (inp : Str) :
    ((hsRun e [.sendHdr, .sendBody, .readHdr, .readBody] inp).1.ready ↔ HsGood e inp) ∧
    (hsRun e [.sendHdr, .sendBody, .readHdr, .readBody] inp).2.2 = hello e.own ∧
    (HsGood e inp → (hsRun e [.sendHdr, .sendBody, .readHdr, .readBody] inp).1.actual =
      min (u32of (inp.drop 8)) e.limit ∧
      (hsRun e [.sendHdr, .sendBody, .readHdr, .readBody] inp).2.1 = inp.drop 12) := by
  have emin : (if u32of (inp.drop 8) < e.limit then u32of (inp.drop 8) else e.limit) =
      min (u32of (inp.drop 8)) e.limit := by split_ifs <;> omega
  by_cases h8 : inp.length < 8
  · simp [hsRun, hsInit, hsAlone, hsAct, h8, he, HsParty.ready, HsGood, hello, List.append_assoc]; omega
  by_cases hh : u32of inp ≠ 0x300 ∨ u32of (inp.drop 4) ≠ 4
  · rw [HsGood]
    have hn : ¬ HsGood e inp := by rintro ⟨_, a, b, _⟩; rcases hh with hh | hh <;> contradiction
    simp only [hsRun, hsInit, hsAlone, hsAct, if_neg h8, if_pos hh, he, List.length]
    refine ⟨⟨(fun h => by cases h.2), fun h => absurd h hn⟩, ?_, fun h => absurd h hn⟩
    simp [hello]
  have hh' := hh
  simp only [not_or, ne_eq, Decidable.not_not] at hh'
  by_cases h4 : (inp.drop 8).length < 4
  · have hn : ¬ HsGood e inp := by rintro ⟨a, _, _, _⟩; simp at h4; omega
    simp only [hsRun, hsInit, hsAlone, hsAct, if_neg h8, if_neg hh, he, List.length, if_pos h4]
    refine ⟨⟨(fun h => by cases h.2), fun h => absurd h hn⟩, ?_, fun h => absurd h hn⟩
    simp [hello]
  by_cases hv : min (u32of (inp.drop 8)) e.limit < e.least
  · have hn : ¬ HsGood e inp := by rintro ⟨_, _, _, a⟩; omega
    simp only [hsRun, hsInit, hsAlone, hsAct, if_neg h8, if_neg hh, he, List.length, if_neg h4, emin, if_pos hv]
    refine ⟨⟨(fun h => by cases h.2), fun h => absurd h hn⟩, ?_, fun h => absurd h hn⟩
    simp [hello]
  · have hy : HsGood e inp := ⟨by simp at h4; omega, hh'.1, hh'.2, by omega⟩
    simp only [hsRun, hsInit, hsAlone, hsAct, if_neg h8, if_neg hh, he, List.length, if_neg h4, emin, if_neg hv]
    refine ⟨⟨fun _ => hy, fun _ => ⟨rfl, rfl⟩⟩, by simp [hello], fun _ => by simp⟩

/-- The run of an end that receives first. -/
theorem hsRun_recv (e : HsEnd) (inp : Str) :
    ((hsRun e [.readHdr, .readBody, .sendHdr, .sendBody] inp).1.ready ↔ HsGood e inp) ∧
    (HsGood e inp → (hsRun e [.readHdr, .readBody, .sendHdr, .sendBody] inp).1.actual =
      min (u32of (inp.drop 8)) e.limit ∧
      (hsRun e [.readHdr, .readBody, .sendHdr, .sendBody] inp).2.1 = inp.drop 12 ∧
      (hsRun e [.readHdr, .readBody, .sendHdr, .sendBody] inp).2.2 =
        hello (if e.echo then u32of (inp.drop 8) else e.own)) ∧
    (¬ HsGood e inp → (hsRun e [.readHdr, .readBody, .sendHdr, .sendBody] inp).2.2 = []) := by
  have emin : (if u32of (inp.drop 8) < e.limit then u32of (inp.drop 8) else e.limit) =
      min (u32of (inp.drop 8)) e.limit := by split_ifs <;> omega
  by_cases h8 : inp.length < 8
  · have hn : ¬ HsGood e inp := by rintro ⟨a, _⟩; omega
    simp only [hsRun, hsInit, hsAlone, hsAct, if_pos h8, List.length]
    exact ⟨⟨(fun h => by cases h.2), fun h => absurd h hn⟩, fun h => absurd h hn, fun _ => by simp⟩
  by_cases hh : u32of inp ≠ 0x300 ∨ u32of (inp.drop 4) ≠ 4
  · have hn : ¬ HsGood e inp := by rintro ⟨_, a, b, _⟩; rcases hh with hh | hh <;> contradiction
    simp only [hsRun, hsInit, hsAlone, hsAct, if_neg h8, if_pos hh, List.length]
    exact ⟨⟨(fun h => by cases h.2), fun h => absurd h hn⟩, fun h => absurd h hn, fun _ => by simp⟩
  have hh' := hh
  simp only [not_or, ne_eq, Decidable.not_not] at hh'
  by_cases h4 : (inp.drop 8).length < 4
  · have hn : ¬ HsGood e inp := by rintro ⟨a, _, _, _⟩; simp at h4; omega
    simp only [hsRun, hsInit, hsAlone, hsAct, if_neg h8, if_neg hh, List.length, if_pos h4]
    exact ⟨⟨(fun h => by cases h.2), fun h => absurd h hn⟩, fun h => absurd h hn, fun _ => by simp⟩
  by_cases hv : min (u32of (inp.drop 8)) e.limit < e.least
  · have hn : ¬ HsGood e inp := by rintro ⟨_, _, _, a⟩; omega
    simp only [hsRun, hsInit, hsAlone, hsAct, if_neg h8, if_neg hh, List.length, if_neg h4, emin, if_pos hv]
    exact ⟨⟨(fun h => by cases h.2), fun h => absurd h hn⟩, fun h => absurd h hn, fun _ => by simp⟩
  · have hy : HsGood e inp := ⟨by simp at h4; omega, hh'.1, hh'.2, by omega⟩
    simp only [hsRun, hsInit, hsAlone, hsAct, if_neg h8, if_neg hh, List.length, if_neg h4, emin, if_neg hv]
    refine ⟨⟨fun _ => hy, fun _ => ⟨rfl, rfl⟩⟩, fun _ => by simp [hello], fun h => absurd hy h⟩

theorem hello_u32 {w : Nat} (hw : w < 4294967296) (rest : Str) : u32of ((hello w ++ rest).drop 8) = w :=
  u32of_u32le w hw rest

/-- **C70, whatever arrives.** An end of a data connection of this code that receives any bytes and then the end of the
connection goes on exactly if they begin with a HELLO of version 2 or more; it then uses the smaller of this version and
4, and has taken the 12 bytes of the HELLO and no more. -/
theorem C70_any_peer {plan : List HsAct} (hp : plan = agentPlan ∨ ∃ r, plan = dom0Plan r) (inp : Str)
    (hb : ∀ c ∈ inp, c.toNat < 256) :
    ((hsRun (dataEnd 4) plan inp).1.ready ↔ ∃ w rest, inp = hello w ++ rest ∧ 2 ≤ w ∧ w < 4294967296) ∧
    (∀ w rest, inp = hello w ++ rest → 2 ≤ w → w < 4294967296 →
      (hsRun (dataEnd 4) plan inp).1.actual = min w 4 ∧ (hsRun (dataEnd 4) plan inp).2.1 = rest ∧
      (hsRun (dataEnd 4) plan inp).2.2 = hello 4) := by
  have hpl : HsPlan plan := by
    rcases hp with rfl | ⟨r, rfl⟩
    · exact agentPlan_is
    · exact dom0Plan_is r
  have hg := hsGood_iff (e := dataEnd 4) hb (by decide)
  rcases hpl with rfl | rfl
  · obtain ⟨h1, h2, h3⟩ := hsRun_send (dataEnd 4) rfl inp
    refine ⟨h1.trans hg, ?_⟩
    intro w rest e h2w hw
    obtain ⟨a, b⟩ := h3 (hg.2 ⟨w, rest, e, h2w, hw⟩)
    refine ⟨?_, ?_, h2⟩
    · rw [a, e, hello_u32 hw]; rfl
    · rw [b, e]; rfl
  · obtain ⟨h1, h3, _⟩ := hsRun_recv (dataEnd 4) inp
    refine ⟨h1.trans hg, ?_⟩
    intro w rest e h2w hw
    obtain ⟨a, b, c⟩ := h3 (hg.2 ⟨w, rest, e, h2w, hw⟩)
    refine ⟨?_, ?_, c⟩
    · rw [a, e, hello_u32 hw]; rfl
    · rw [b, e]; rfl

/-- **C70, the control connection.** An agent of version `v` and the daemon: the daemon accepts it exactly if `v` is 2 or
more and uses the smaller of `v` and 4. It answers with the number it has received, so the agent uses `v`: the two agree
exactly if the agent is not newer than the daemon. -/
theorem C70_control (v : Nat) (hv : v < 4294967296) (rest : Str) :
    ((hsRun controlEnd controlPlan (hello v ++ rest)).1.ready ↔ 2 ≤ v) ∧
    (2 ≤ v → (hsRun controlEnd controlPlan (hello v ++ rest)).1.actual = min v 4 ∧
      (hsRun controlEnd controlPlan (hello v ++ rest)).2.1 = rest ∧
      (hsRun controlEnd controlPlan (hello v ++ rest)).2.2 = hello v ∧
      (∀ more, (hsRun (dataEnd v) agentPlan ((hsRun controlEnd controlPlan (hello v ++ rest)).2.2 ++ more)).1.ready ∧
        (hsRun (dataEnd v) agentPlan ((hsRun controlEnd controlPlan (hello v ++ rest)).2.2 ++ more)).1.actual = v ∧
        ((hsRun (dataEnd v) agentPlan ((hsRun controlEnd controlPlan (hello v ++ rest)).2.2 ++ more)).1.actual =
          (hsRun controlEnd controlPlan (hello v ++ rest)).1.actual ↔ v ≤ 4))) := by
  have good : ∀ (e : HsEnd) (rest : Str), e.least ≤ min v e.limit → HsGood e (hello v ++ rest) := by
    intro e rest h
    refine ⟨by simp [hello_length], ?_, ?_, by rw [hello_u32 hv]; exact h⟩
    · unfold hello; rw [List.append_assoc, List.append_assoc]; exact u32of_u32le 0x300 (by decide) _
    · exact u32of_u32le 4 (by decide) (u32le v ++ rest)
  obtain ⟨h1, h3, _⟩ := hsRun_recv controlEnd (hello v ++ rest)
  have hiff : (hsRun controlEnd controlPlan (hello v ++ rest)).1.ready ↔ 2 ≤ v := by
    refine h1.trans ⟨?_, fun h => good _ _ (by show 2 ≤ min v 4; omega)⟩
    rintro ⟨_, _, _, h⟩
    rw [hello_u32 hv] at h
    have : 2 ≤ min v 4 := h
    omega
  refine ⟨hiff, fun h => ?_⟩
  have hc : (hsRun controlEnd controlPlan (hello v ++ rest)).1.actual = min v 4 := by
    rw [controlPlan, (h3 (good _ _ (by show 2 ≤ min v 4; omega))).1, hello_u32 hv]; rfl
  have ho : (hsRun controlEnd controlPlan (hello v ++ rest)).2.2 = hello v := by
    rw [controlPlan, (h3 (good _ _ (by show 2 ≤ min v 4; omega))).2.2, hello_u32 hv]; rfl
  refine ⟨hc, ?_, ho, fun more => ?_⟩
  · rw [controlPlan, (h3 (good _ _ (by show 2 ≤ min v 4; omega))).2.1]; rfl
  · rw [ho, hc]
    obtain ⟨k1, _, k3⟩ := hsRun_send (dataEnd v) rfl (hello v ++ more)
    have g : HsGood (dataEnd v) (hello v ++ more) := good _ _ (by show 2 ≤ min v v; omega)
    have ka : (hsRun (dataEnd v) agentPlan (hello v ++ more)).1.actual = v := by
      rw [agentPlan, (k3 g).1, hello_u32 hv]; exact Nat.min_self v
    exact ⟨k1.2 g, ka, by rw [ka]; omega⟩

/-- **C70, the daemon's socket.** A client goes on exactly if the daemon announces version 3 or more, and the daemon
exactly if the client does; and each takes 12 bytes. So a client of this code and a daemon of this code accept each
other. -/
theorem C70_client (w : Nat) (hw : w < 4294967296) (rest : Str) :
    ((hsRun clientEnd clientPlan (hello w ++ rest)).1.ready ↔ 3 ≤ w) ∧
    ((hsRun socketEnd socketPlan (hello w ++ rest)).1.ready ↔ 3 ≤ w) ∧
    (3 ≤ w → (hsRun clientEnd clientPlan (hello w ++ rest)).2 = (rest, hello 3) ∧
      (hsRun socketEnd socketPlan (hello w ++ rest)).2 = (rest, hello 3)) := by
  have good : ∀ (e : HsEnd), e.least ≤ min w e.limit → HsGood e (hello w ++ rest) := by
    intro e h
    refine ⟨by simp [hello_length], ?_, ?_, by rw [hello_u32 hw]; exact h⟩
    · unfold hello; rw [List.append_assoc, List.append_assoc]; exact u32of_u32le 0x300 (by decide) _
    · exact u32of_u32le 4 (by decide) (u32le w ++ rest)
  have g3 : ∀ e : HsEnd, e.least = 3 → e.limit = 3 → (HsGood e (hello w ++ rest) ↔ 3 ≤ w) := by
    intro e h1 h2
    refine ⟨?_, fun h => good e (by rw [h1, h2]; omega)⟩
    rintro ⟨_, _, _, h⟩
    rw [hello_u32 hw, h1, h2] at h; omega
  obtain ⟨a1, a3, _⟩ := hsRun_recv clientEnd (hello w ++ rest)
  obtain ⟨b1, b2, b3⟩ := hsRun_send socketEnd rfl (hello w ++ rest)
  refine ⟨a1.trans (g3 clientEnd rfl rfl), b1.trans (g3 socketEnd rfl rfl), fun h => ⟨?_, ?_⟩⟩
  · have := a3 ((g3 clientEnd rfl rfl).2 h)
    refine Prod.ext ?_ ?_
    · rw [clientPlan, this.2.1]; rfl
    · rw [clientPlan, this.2.2]; rfl
  · have := b3 ((g3 socketEnd rfl rfl).2 h)
    refine Prod.ext ?_ ?_
    · rw [socketPlan, this.2]; rfl
    · rw [socketPlan, b2]; rfl

/-- A run in which dom0 (which waits) meets an agent of version 2. -/
example : HsReach (dataEnd 4) (dataEnd 2) (dom0Plan true) agentPlan
    ⟨{ todo := [], ver := 2, actual := 2 }, { todo := [], ver := 4, actual := 2 }, [], []⟩ := by
  unfold HsReach
  have r := @HsSteps.refl (dataEnd 4) (dataEnd 2) ⟨hsInit (dom0Plan true), hsInit agentPlan, [], []⟩
  have r1 := r.tail (.right rfl)
  have r2 := r1.tail (.right rfl)
  have r3 := r2.tail (.left rfl)
  have r4 := r3.tail (.left rfl)
  have r5 := r4.tail (.left rfl)
  have r6 := r5.tail (.left rfl)
  have r7 := r6.tail (.right rfl)
  exact r7.tail (.right rfl)

example : (hsRun (dataEnd 4) agentPlan (c!"junk")).1.failed = true := by decide
example : (hsRun (dataEnd 4) agentPlan (hello 1)).1.failed = true := by decide
example : (hsRun (dataEnd 4) agentPlan (hello 9 ++ c!"data")).1.actual = 4 ∧
    (hsRun (dataEnd 4) agentPlan (hello 9 ++ c!"data")).2 = (c!"data", hello 4) := by decide

/-- **C70.** An end that has finished the handshake may send its data at once, whatever the other end has done so far. -/
theorem C70_free {va vb : Nat} {pa pb : List HsAct} {s : HsSys} (h : HsReach (dataEnd va) (dataEnd vb) pa pb s) (x : Str) :
    (s.a.ready → ∃ t, HsReach (dataEnd va) (dataEnd vb) pa pb t ∧ t.ab = s.ab ++ x ∧ t.ba = s.ba ∧ t.b = s.b ∧
      t.a.later = s.a.later ++ x ∧ t.a.ready) ∧
    (s.b.ready → ∃ t, HsReach (dataEnd va) (dataEnd vb) pa pb t ∧ t.ba = s.ba ++ x ∧ t.ab = s.ab ∧ t.a = s.a ∧
      t.b.later = s.b.later ++ x ∧ t.b.ready) := by
  refine ⟨fun hr => ⟨_, h.tail (.dataLeft x hr.1 hr.2), rfl, rfl, rfl, rfl, hr⟩,
    fun hr => ⟨_, h.tail (.dataRight x hr.1 hr.2), rfl, rfl, rfl, rfl, hr⟩⟩

end Qrexec
