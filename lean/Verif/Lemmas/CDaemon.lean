import Verif.Spec.CDaemon
import Verif.Lemmas.Str
import Mathlib.Tactic.Tauto
import Mathlib.Tactic.SplitIfs

/-! # Lemmas about qrexec-daemon's bookkeeping -/
namespace Qrexec
open Spec

theorem put_same {α : Type} (f : Nat → α) (i : Nat) (x : α) : put f i x i = x := by simp [put]
theorem put_other {α : Type} (f : Nat → α) {i j : Nat} (x : α) (h : j ≠ i) : put f i x j = f j := by
  simp [put, h]

theorem scanPorts_some {ports : Nat → Int} {step : Nat} : ∀ {fuel i j : Nat},
    scanPorts ports step fuel i = some j →
      j < maxClients ∧ ports j = -1 ∧ ∃ k, j = i + k * step ∧ ∀ k' < k, ports (i + k' * step) ≠ -1 := by
  intro fuel
  induction fuel with
  | zero => intro i j h; cases h
  | succ fuel ih =>
    intro i j h
    rw [scanPorts] at h
    split_ifs at h with h1 h2
    · cases h; exact ⟨h1, h2, 0, by simp, by simp⟩
    · obtain ⟨a, b, k, hk, hall⟩ := ih h
      refine ⟨a, b, k + 1, by rw [hk, Nat.add_mul]; omega, ?_⟩
      intro k' hk'
      cases k' with
      | zero => simpa using h2
      | succ k' =>
        have := hall k' (by omega)
        rw [show i + (k' + 1) * step = i + step + k' * step by rw [Nat.add_mul]; omega]
        exact this

theorem scanPorts_none {ports : Nat → Int} {step : Nat} (hs : 0 < step) : ∀ {fuel i : Nat},
    maxClients ≤ i + fuel → scanPorts ports step fuel i = none →
      ∀ k, i + k * step < maxClients → ports (i + k * step) ≠ -1 := by
  intro fuel
  induction fuel with
  | zero => intro i hi _ k hk; omega
  | succ fuel ih =>
    intro i hi h k hk
    rw [scanPorts] at h
    split_ifs at h with h1 h2
    · cases k with
      | zero => simpa using h2
      | succ k =>
        rw [show i + (k + 1) * step = i + step + k * step by rw [Nat.add_mul]; omega] at hk ⊢
        exact ih (by omega) h k hk
    · omega

/-- The ports that may be allocated for a connection with `domain`. -/
def PortFor (remoteId domain : Int) (i : Nat) : Prop :=
  domain = 0 ∨ i % 2 = if domain > remoteId then 1 else 0

theorem allocatePort_some {r d : Int} {ports : Nat → Int} {i : Nat}
    (h : allocatePort r ports d = some i) :
    i < maxClients ∧ ports i = -1 ∧ PortFor r d i := by
  unfold allocatePort at h
  unfold PortFor
  split_ifs at h with h0 h1
  · obtain ⟨a, b, _⟩ := scanPorts_some h; exact ⟨a, b, Or.inl h0⟩
  · obtain ⟨a, b, k, hk, _⟩ := scanPorts_some h
    refine ⟨a, b, Or.inr ?_⟩
    rw [if_pos h1]; omega
  · obtain ⟨a, b, k, hk, _⟩ := scanPorts_some h
    refine ⟨a, b, Or.inr ?_⟩
    rw [if_neg h1]; omega

theorem allocatePort_none {r d : Int} {ports : Nat → Int} (h : allocatePort r ports d = none) :
    ∀ i < maxClients, PortFor r d i → ports i ≠ -1 := by
  intro i hi hp
  unfold allocatePort at h
  by_cases h0 : d = 0
  · rw [if_pos h0] at h
    have := scanPorts_none (by omega) (by omega) h i (by omega)
    simpa using this
  · rw [if_neg h0] at h
    rcases hp with hp | hp
    · exact absurd hp h0
    by_cases h1 : d > r
    · rw [if_pos h1] at h hp
      have := scanPorts_none (by omega) (by omega) h (i / 2) (by omega)
      rwa [show 1 + i / 2 * 2 = i by omega] at this
    · rw [if_neg h1] at h hp
      have := scanPorts_none (by omega) (by omega) h (i / 2) (by omega)
      rwa [show 0 + i / 2 * 2 = i by omega] at this

/-- What `MSG_SERVICE_CONNECT` does to the pending requests. -/
def Marked (s s1 : DState) (type : Nat) (buf : Wire) : Prop :=
  (type = msgConnect ∧ ∃ i, findPending s (cString buf) = some i ∧
    s1 = { s with pend := put s.pend i { s.pend i with sent := .allow } }) ∨
  (type ≠ msgConnect ∧ s1 = s)

theorem Marked.ports {s s1 : DState} {type : Nat} {buf : Wire} (h : Marked s s1 type buf) :
    s1.ports = s.ports ∧ s1.notify = s.notify ∧ s1.clients = s.clients ∧ s1.pendCount = s.pendCount := by
  rcases h with ⟨_, i, _, rfl⟩ | ⟨_, rfl⟩ <;> exact ⟨rfl, rfl, rfl, rfl⟩

/-- The text is acceptable: not empty, not too long, and ends with a NUL. -/
def GoodText (buf : Wire) : Prop := buf ≠ [] ∧ 8 + buf.length ≤ 65535 ∧ buf.getLast? = some '\x00'

theorem cmdline_cases (c : DConf) (s : DState) (fd type domain port : Nat) (buf : Wire) (w : Bool) :
    ((cmdline c s fd type domain port buf w = terminateClient s fd ∧
      ¬ ((type = msgExec ∨ type = msgJustExec ∨ type = msgConnect) ∧ GoodText buf ∧
        (type = msgConnect → findPending s (cString buf) ≠ none)))) ∨
    (type = msgExec ∨ type = msgJustExec ∨ type = msgConnect) ∧ GoodText buf ∧
      ∃ s1, Marked s s1 type buf ∧
      ((port = 0 ∧ allocatePort c.remoteId s.ports (asInt domain) = none ∧
          cmdline c s fd type domain port buf w = terminateClient s1 fd) ∨
       (port ≠ 0 ∧ ¬ (baseDataPort ≤ port ∧ port < baseDataPort + maxClients) ∧
          cmdline c s fd type domain port buf w = terminateClient s1 fd) ∨
       (port = 0 ∧ ∃ i, allocatePort c.remoteId s.ports (asInt domain) = some i ∧
          w = true ∧
            cmdline c s fd type domain port buf w =
              ({ s1 with ports := put s1.ports i (asInt domain), notify := put s1.notify i fd,
                         clients := put s1.clients fd .running },
                [.portReply fd (baseDataPort + i), forwardMsg c type domain (baseDataPort + i) buf])) ∨
       (port = 0 ∧ ∃ i, allocatePort c.remoteId s.ports (asInt domain) = some i ∧
          w = false ∧
            cmdline c s fd type domain port buf w =
              ({ s1 with clients := put s1.clients fd .invalid,
                         ports := put (put s1.ports i (asInt domain)) i (-1),
                         notify := fun p => if put s1.notify i (fd : Int) p = (fd : Int) then -1
                            else put s1.notify i (fd : Int) p },
                [.closed fd])) ∨
       (port ≠ 0 ∧ baseDataPort ≤ port ∧ port < baseDataPort + maxClients ∧
          cmdline c s fd type domain port buf w =
            ({ s1 with clients := put s1.clients fd .running }, [forwardMsg c type domain port buf]))) := by
  by_cases ht : type = msgExec ∨ type = msgJustExec ∨ type = msgConnect
  rotate_left
  · left
    refine ⟨?_, fun h => ht h.1⟩
    unfold cmdline
    rw [if_pos]
    simp only [Bool.and_eq_true, bne_iff_ne, ne_eq]
    tauto
  have ht' : (type != msgExec && type != msgJustExec && type != msgConnect) = false := by
    rw [Bool.eq_false_iff]
    simp only [ne_eq, Bool.and_eq_true, bne_iff_ne]
    tauto
  by_cases hg : GoodText buf
  rotate_left
  · left
    refine ⟨?_, fun h => hg h.2.1⟩
    unfold cmdline
    rw [ht']
    simp only [Bool.false_eq_true, if_false]
    by_cases h1 : buf.isEmpty = true ∨ 8 + buf.length > 65535
    · rw [if_pos (by simpa using h1)]
    · rw [if_neg (by simpa using h1), if_pos]
      rw [bne_iff_ne]
      intro h2
      apply hg
      refine ⟨?_, by omega, h2⟩
      rintro rfl
      simp at h1
  obtain ⟨g1, g2, g3⟩ := hg
  have hg1 : (buf.isEmpty || decide (8 + buf.length > 65535)) = false := by
    cases buf with
    | nil => exact absurd rfl g1
    | cons a as => simp only [List.isEmpty_cons, Bool.false_or, decide_eq_false_iff_not]; omega
  have hg2 : (buf.getLast? != some '\x00') = false := by rw [g3]; rfl
  by_cases hf : type = msgConnect ∧ findPending s (cString buf) = none
  · left
    refine ⟨?_, fun h => h.2.2 hf.1 hf.2⟩
    unfold cmdline
    rw [ht', hg1, hg2]
    simp only [Bool.false_eq_true, if_false]
    rw [if_pos]
    rw [hf.1, hf.2]; rfl
  right
  refine ⟨ht, ⟨g1, g2, g3⟩, ?_⟩
  have hf' : (type == msgConnect && (findPending s (cString buf)).isNone) = false := by
    rw [Bool.eq_false_iff]
    simp only [ne_eq, Bool.and_eq_true, beq_iff_eq, Option.isNone_iff_eq_none]
    exact hf
  generalize hs1 : (match findPending s (cString buf) with
    | some i => if type == msgConnect then
        { s with pend := put s.pend i { s.pend i with sent := Sent.allow } } else s
    | none => s) = s1
  have hm : Marked s s1 type buf := by
    by_cases hc : type = msgConnect
    · left
      refine ⟨hc, ?_⟩
      cases hp : findPending s (cString buf) with
      | none => exact absurd ⟨hc, hp⟩ hf
      | some i =>
        rw [hp] at hs1
        refine ⟨i, rfl, ?_⟩
        rw [← hs1, hc]; rfl
    · right
      refine ⟨hc, ?_⟩
      have hb : (type == msgConnect) = false := by simpa using hc
      cases hp : findPending s (cString buf) with
      | none => rw [hp] at hs1; exact hs1.symm
      | some i => rw [hp] at hs1; simp only [hb, Bool.false_eq_true, if_false] at hs1; exact hs1.symm
  have hcmd : cmdline c s fd type domain port buf w =
      (if port = 0 then
        match allocatePort c.remoteId s1.ports (asInt domain) with
        | none => terminateClient s1 fd
        | some i =>
          let s := { s1 with ports := put s1.ports i (asInt domain), notify := put s1.notify i fd }
          if w then
            ({ s with clients := put s.clients fd .running },
              [.portReply fd (baseDataPort + i), forwardMsg c type domain (baseDataPort + i) buf])
          else
            let (s, o) := terminateClient s fd
            let (s, o') := releasePort s i (asInt domain)
            (s, o ++ o')
      else if baseDataPort ≤ port && port < baseDataPort + maxClients then
        ({ s1 with clients := put s1.clients fd .running }, [forwardMsg c type domain port buf])
      else terminateClient s1 fd) := by
    unfold cmdline
    rw [ht', hg1, hg2]
    simp only [Bool.false_eq_true, if_false, hf']
    subst hs1
    rfl
  rw [hcmd, hm.ports.1]
  refine ⟨s1, hm, ?_⟩
  by_cases hp : port = 0
  · simp only [hp, if_true, ne_eq, not_true_eq_false, false_and, or_false, true_and, false_or]
    cases ha : allocatePort c.remoteId s.ports (asInt domain) with
    | none => left; exact ⟨rfl, rfl⟩
    | some i =>
      right
      cases w with
      | true =>
        left
        refine ⟨i, rfl, rfl, ?_⟩
        simp only [if_true, hm.ports.1]
      | false =>
        right
        refine ⟨i, rfl, rfl, ?_⟩
        simp only [Bool.false_eq_true, if_false, terminateClient, releasePort, put_same, if_true,
          ne_eq, not_true_eq_false, hm.ports.1]
        rfl
  · simp only [hp, if_false, ne_eq, not_false_eq_true, true_and, false_and, false_or]
    by_cases hr : baseDataPort ≤ port ∧ port < baseDataPort + maxClients
    · right
      rw [if_pos (by simpa using hr)]
      exact ⟨hr.1, hr.2, by rw [hm.ports.1]⟩
    · left
      rw [if_neg (by simpa using hr)]
      exact ⟨hr, rfl⟩

end Qrexec
