import Verif.Lemmas.CDaemon
import Mathlib.Tactic.ByContra
import Mathlib.Data.List.Induction

/-! # C51: vchan ports never collide -/
namespace Qrexec
open Spec

theorem terminateClient_ports (s : DState) (fd : Nat) : (terminateClient s fd).1.ports = s.ports := rfl

theorem releasePort_ports (s : DState) (i : Nat) (d : Int) (j : Nat) :
    (releasePort s i d).1.ports j = if j = i ∧ s.ports i = d then -1 else s.ports j := by
  unfold releasePort
  by_cases h : s.ports i = d
  · simp only [h, if_true, and_true]
    split
    · rw [terminateClient_ports]; simp [put]
    · simp [put]
  · simp [h]

theorem terminateAll_ports (s : DState) (n : Nat) : (terminateAll s n).1.ports = s.ports := by
  induction n with
  | zero => rfl
  | succ n ih =>
    rw [terminateAll]
    split
    rename_i s2 o he
    rw [he] at ih
    split
    · rw [← ih]; rfl
    · exact ih

theorem agentRestart_ports (s : DState) : (agentRestart s).1.ports = s.ports := by
  have h := terminateAll_ports s maxClients
  unfold agentRestart
  generalize terminateAll s maxClients = r at h
  exact h

theorem executeService_ports (s : DState) (i : Str) (pid : Nat) :
    (executeService s i pid).1.ports = s.ports := by
  unfold executeService; split <;> rfl

theorem reap_ports (s : DState) (pid : Nat) (st : Option Nat) :
    (reap s pid st).1.ports = s.ports := by
  unfold reap
  split
  · rfl
  · split <;> rfl

/-- How one step changes the table of ports. -/
theorem ports_step {c : DConf} {s s' : DState} {e : DEv} {o : List DOut}
    (h : dstep c s e = some (s', o)) (i : Nat) :
    s'.ports i = s.ports i ∨
    (∃ domain, e = .terminated domain (baseDataPort + i) ∧ s.ports i = asInt domain ∧
      s'.ports i = -1) ∨
    ∃ domain, Allocates (e, o) domain (baseDataPort + i) ∧ s.ports i = -1 ∧
      s'.ports i = asInt domain := by
  cases e with
  | newClient fd hello =>
    simp only [dstep] at h
    split_ifs at h <;> cases h <;> exact Or.inl rfl
  | clientHello fd ok =>
    simp only [dstep] at h
    split_ifs at h <;> cases h <;> exact Or.inl rfl
  | clientMsg fd type domain port buf w =>
    simp only [dstep, Option.some.injEq] at h
    rcases cmdline_cases c s fd type domain port buf w with ⟨h1, _⟩ | ⟨_, _, s1, hm, hc⟩
    · rw [h1] at h; cases h; exact Or.inl rfl
    · rcases hc with ⟨_, _, h1⟩ | ⟨_, _, h1⟩ | ⟨hp, j, ha, hw, h1⟩ | ⟨hp, j, ha, hw, h1⟩ | ⟨_, _, _, h1⟩
      · rw [h1] at h; cases h; left; exact congrFun hm.ports.1 i
      · rw [h1] at h; cases h; left; exact congrFun hm.ports.1 i
      · rw [h1] at h
        simp only [Prod.mk.injEq] at h
        obtain ⟨rfl, rfl⟩ := h
        by_cases hij : i = j
        · subst hij
          right; right
          refine ⟨domain, ⟨fd, type, buf, ?_, by simp⟩, (allocatePort_some ha).2.1, ?_⟩
          · simp only [hp, hw]
          · simp only [put_same]
        · left
          simp only [put_other _ _ hij, hm.ports.1]
      · rw [h1] at h
        simp only [Prod.mk.injEq] at h
        obtain ⟨rfl, rfl⟩ := h
        left
        by_cases hij : i = j
        · subst hij; simp only [put_same, (allocatePort_some ha).2.1]
        · simp only [put_other _ _ hij, hm.ports.1]
      · rw [h1] at h; cases h; left; exact congrFun hm.ports.1 i
  | clientGone fd => cases h; exact Or.inl rfl
  | badTrigger ident => cases h; exact Or.inl rfl
  | trigger ident pid =>
    simp only [dstep, Option.some.injEq] at h
    left; rw [← executeService_ports s ident pid, h]
  | childExit pid st =>
    simp only [dstep, Option.some.injEq] at h
    left; rw [← reap_ports s pid st, h]
  | terminated domain port =>
    simp only [dstep] at h
    split at h
    · cases h
    · rename_i hp
      simp only [Bool.or_eq_true, decide_eq_true_eq, not_or, Nat.not_lt, ge_iff_le, Nat.not_le] at hp
      simp only [Option.some.injEq] at h
      have hh := releasePort_ports s (port - baseDataPort) (asInt domain) i
      rw [h] at hh
      simp only at hh
      split at hh
      · rename_i hc
        right; left
        refine ⟨domain, ?_, ?_, hh⟩
        · have : baseDataPort + (port - baseDataPort) = port := by omega
          rw [hc.1, this]
        · rw [hc.1]; exact hc.2
      · exact Or.inl hh
  | restart =>
    simp only [dstep, Option.some.injEq] at h
    have hh := agentRestart_ports s
    rw [h] at hh
    exact Or.inl (congrFun hh i)

/-- Which ports are allocated. -/
theorem allocates_step {c : DConf} {s s' : DState} {e : DEv} {o : List DOut} {domain port : Nat}
    (h : dstep c s e = some (s', o)) (ha : Allocates (e, o) domain port) :
    ∃ i, port = baseDataPort + i ∧ i < maxClients ∧ s.ports i = -1 ∧ s'.ports i = asInt domain ∧
      PortFor c.remoteId (asInt domain) i := by
  obtain ⟨fd, type, buf, he, hr⟩ := ha
  simp only at he hr
  subst he
  simp only [dstep, Option.some.injEq] at h
  rcases cmdline_cases c s fd type domain 0 buf true with ⟨h1, _⟩ | ⟨_, _, s1, hm, hc⟩
  · rw [h1] at h; cases h; simp at hr
  · rcases hc with ⟨_, _, h1⟩ | ⟨_, _, h1⟩ | ⟨hp, j, ha, hw, h1⟩ | ⟨hp, j, ha, hw, h1⟩ | ⟨h0, _, _, h1⟩
    · rw [h1] at h; cases h; simp at hr
    · rw [h1] at h; cases h; simp at hr
    · rw [h1] at h
      simp only [Prod.mk.injEq] at h
      obtain ⟨rfl, rfl⟩ := h
      have hport : port = baseDataPort + j := by
        simp only [List.mem_cons, DOut.portReply.injEq, true_and, List.not_mem_nil, or_false] at hr
        rcases hr with hr | hr
        · exact hr
        · unfold forwardMsg at hr; simp only at hr; split at hr <;> cases hr
      obtain ⟨a1, a2, a3⟩ := allocatePort_some ha
      exact ⟨j, hport, a1, a2, by simp only [put_same], a3⟩
    · cases hw
    · exact absurd rfl h0

theorem asInt_ne {d : Nat} (h : d < 2 ^ 31) : asInt d ≠ -1 := by
  unfold asInt; rw [if_pos h]; omega

theorem asInt_inj {d e : Nat} (h : d < 2 ^ 31) (he : e < 2 ^ 32) (h' : asInt d = asInt e) : d = e := by
  unfold asInt at h'
  rw [if_pos h] at h'
  split at h' <;> omega

/-- The port is reserved: it was allocated for a connection to `domain` and no end of such a
connection was reported since. -/
def HeldFor (h : History) (domain port : Nat) : Prop :=
  ∃ pre x post, h = pre ++ x :: post ∧ Allocates x domain port ∧
    ∀ y ∈ post, ∀ d, asInt d = asInt domain → ¬ Ends y d port

theorem held_port {c : DConf} {h : History} {s : DState} (hr : DRun c h s) :
    RealDomains h → ∀ domain i, HeldFor h domain (baseDataPort + i) → s.ports i = asInt domain := by
  induction hr with
  | start => rintro _ domain i ⟨pre, x, post, h, _⟩; simp at h
  | @step tr s s' e o hrun hposs hstep ih =>
    intro hreal domain i ⟨pre, x, post, hh, ha, hpost⟩
    have hreal' : RealDomains tr := fun y hy => hreal y (by simp [hy])
    rcases List.eq_nil_or_concat post with rfl | ⟨post', y, rfl⟩
    · obtain ⟨rfl, hx⟩ := List.append_inj' hh rfl
      simp only [List.cons.injEq, and_true] at hx
      subst hx
      obtain ⟨j, hj, _, _, hs, _⟩ := allocates_step hstep ha
      have : i = j := by omega
      rw [this]; exact hs
    · have hh' : tr ++ [(e, o)] = (pre ++ x :: post') ++ [y] := by rw [hh]; simp
      obtain ⟨rfl, hx⟩ := List.append_inj' hh' rfl
      simp only [List.cons.injEq, and_true] at hx
      subst hx
      have hold := ih hreal' domain i ⟨pre, x, post', rfl, ha,
        fun y hy => hpost y (by simp [hy])⟩
      rcases ports_step hstep i with h1 | ⟨d, he, hd, _⟩ | ⟨d, hd, h1, _⟩
      · rw [h1, hold]
      · exfalso
        exact hpost (e, o) (by simp) d (by rw [← hd, hold]) (by simpa [Ends] using he)
      · exfalso
        rw [hold] at h1
        obtain ⟨fd, type, buf, hx, _⟩ := ha
        exact asInt_ne (hreal x (by simp) fd type domain 0 buf true hx) h1

/-- In every run, a step of it. -/
theorem run_split {c : DConf} {l : History} {s : DState} (hr : DRun c l s) :
    ∀ pre x post, l = pre ++ x :: post →
      ∃ s0 s1, DRun c pre s0 ∧ x.1.possible s0 = true ∧ dstep c s0 x.1 = some (s1, x.2) := by
  induction hr with
  | start => intro pre x post h; simp at h
  | @step tr s s' e o hrun hp hs ih =>
    intro pre x post h
    rcases List.eq_nil_or_concat post with rfl | ⟨post', z, rfl⟩
    · obtain ⟨rfl, hx⟩ := List.append_inj' h rfl
      simp only [List.cons.injEq, and_true] at hx
      subst hx
      exact ⟨s, s', hrun, hp, hs⟩
    · have h' : tr ++ [(e, o)] = (pre ++ x :: post') ++ [z] := by rw [h]; simp [List.concat_eq_append]
      obtain ⟨h'', _⟩ := List.append_inj' h' rfl
      exact ih pre x post' h''

/-- **C51.** A port in use is not given out again: if a port is allocated twice, then in between the
agent has reported the end of the first connection — of exactly this port and domain. -/
theorem C51_unique (c : DConf) (s : DState) (pre mid post : History) (x y : DEv × List DOut)
    (hr : DRun c (pre ++ x :: mid ++ y :: post) s)
    (hreal : RealDomains (pre ++ x :: mid ++ y :: post))
    (hu32 : ∀ z ∈ mid, ∀ d p, Ends z d p → d < 2 ^ 32)
    (d1 d2 port : Nat) (h1 : Allocates x d1 port) (h2 : Allocates y d2 port) :
    ∃ z ∈ mid, Ends z d1 port := by
  obtain ⟨s0, s1, hrun, hp, hs⟩ := run_split hr (pre ++ x :: mid) y post (by simp)
  obtain ⟨i, hi, _, hfree, _, _⟩ := allocates_step hs h2
  by_contra hno
  have hd1 : d1 < 2 ^ 31 := by
    obtain ⟨fd, type, buf, hx, _⟩ := h1
    exact hreal x (by simp) fd type d1 0 buf true hx
  have hheld : HeldFor (pre ++ x :: mid) d1 (baseDataPort + i) := by
    refine ⟨pre, x, mid, rfl, hi ▸ h1, ?_⟩
    intro z hz d hd he
    have hdd : d < 2 ^ 32 := hu32 z hz d _ he
    have : d1 = d := asInt_inj hd1 hdd hd.symm
    subst this
    exact hno ⟨z, hz, hi ▸ he⟩
  have := held_port hrun (fun z hz => hreal z (by simp only [List.mem_append, List.mem_cons] at hz ⊢; tauto))
    d1 i hheld
  rw [hfree] at this
  exact asInt_ne hd1 this.symm

/-- **C51.** Ports are in the permitted range. -/
theorem C51_range (c : DConf) (s : DState) (h : History) (hr : DRun c h s) (x : DEv × List DOut)
    (hx : x ∈ h) (domain port : Nat) (ha : Allocates x domain port) : 513 ≤ port ∧ port < 513 + 256 := by
  obtain ⟨pre, post, hh⟩ := List.append_of_mem hx
  obtain ⟨s0, s1, _, _, hs⟩ := run_split hr pre x post hh
  obtain ⟨i, hi, hlt, _⟩ := allocates_step (e := x.1) (o := x.2) hs ha
  rw [hi]
  unfold baseDataPort
  unfold maxClients at hlt
  omega

/-- **C51.** The two daemons of a pair of qubes never give out the same port for a connection between
the two. -/
theorem C51_disjoint (x y : Nat) (hx : x < 2 ^ 31) (hy : y < 2 ^ 31) (hx0 : x ≠ 0) (hy0 : y ≠ 0)
    (hxy : x ≠ y) (u v : Str) (s t : DState) (hs ht : History)
    (hrx : DRun ⟨x, u⟩ hs s) (hry : DRun ⟨y, v⟩ ht t)
    (a b : DEv × List DOut) (ha : a ∈ hs) (hb : b ∈ ht) (p q : Nat)
    (hp : Allocates a y p) (hq : Allocates b x q) : p ≠ q := by
  obtain ⟨pre, post, hh⟩ := List.append_of_mem ha
  obtain ⟨s0, s1, _, _, h1⟩ := run_split hrx pre a post hh
  obtain ⟨pre', post', hh'⟩ := List.append_of_mem hb
  obtain ⟨t0, t1, _, _, h2⟩ := run_split hry pre' b post' hh'
  obtain ⟨i, hi, _, _, _, hpi⟩ := allocates_step (e := a.1) (o := a.2) h1 hp
  obtain ⟨j, hj, _, _, _, hpj⟩ := allocates_step (e := b.1) (o := b.2) h2 hq
  rintro rfl
  have hij : i = j := by omega
  subst hij
  unfold PortFor asInt at hpi hpj
  simp only [if_pos hx, if_pos hy] at hpi hpj
  rcases hpi with h | hpi
  · omega
  rcases hpj with h | hpj
  · omega
  split_ifs at hpi hpj <;> omega

/-- **C51.** When a client asks for a port and none of those permitted for the pair is free, nothing
is sent to the agent and the client is disconnected; while one is free, the client gets one. -/
theorem C51_exhausted (c : DConf) (s : DState) (fd type domain : Nat) (buf : Wire) (w : Bool)
    (o : List DOut) (s' : DState)
    (h : dstep c s (.clientMsg fd type domain 0 buf w) = some (s', o)) :
    ((∀ i < 256, (asInt domain = 0 ∨ i % 2 = if asInt domain > c.remoteId then 1 else 0) →
        s.ports i ≠ -1) → o = [.closed fd] ∧ s'.ports = s.ports) ∧
    ((∃ i < 256, (asInt domain = 0 ∨ i % 2 = if asInt domain > c.remoteId then 1 else 0) ∧
        s.ports i = -1) → w = true →
      (type = msgExec ∨ type = msgJustExec ∨ type = msgConnect ∧ findPending s (cString buf) ≠ none) →
      GoodText buf → ∃ port, DOut.portReply fd port ∈ o) := by
  simp only [dstep, Option.some.injEq] at h
  rcases cmdline_cases c s fd type domain 0 buf w with ⟨h1, hbad⟩ | ⟨_, _, s1, hm, hc⟩
  · rw [h1] at h; cases h
    refine ⟨fun _ => ⟨rfl, rfl⟩, fun _ _ ht hg => ?_⟩
    exfalso
    apply hbad
    refine ⟨by tauto, hg, fun hcon => ?_⟩
    rcases ht with ht | ht | ht
    · rw [ht] at hcon; cases hcon
    · rw [ht] at hcon; cases hcon
    · exact ht.2
  · rcases hc with ⟨_, ha, h1⟩ | ⟨h0, _, h1⟩ | ⟨hp, j, ha, hw, h1⟩ | ⟨hp, j, ha, hw, h1⟩ | ⟨h0, _, _, h1⟩
    · rw [h1] at h; cases h
      refine ⟨fun _ => ⟨rfl, hm.ports.1⟩, ?_⟩
      rintro ⟨i, hi, hpi, hfree⟩
      exact absurd hfree (allocatePort_none ha i hi hpi)
    · exact absurd rfl h0
    · rw [h1] at h
      simp only [Prod.mk.injEq] at h
      obtain ⟨rfl, rfl⟩ := h
      obtain ⟨a1, a2, a3⟩ := allocatePort_some ha
      exact ⟨fun hall => absurd a2 (hall j a1 a3), fun _ _ _ _ => ⟨_, List.mem_cons_self⟩⟩
    · obtain ⟨a1, a2, a3⟩ := allocatePort_some ha
      refine ⟨fun hall => absurd a2 (hall j a1 a3), fun _ hw' => ?_⟩
      rw [hw] at hw'; cases hw'
    · exact absurd rfl h0

/-- How `terminate_client` changes whom to notify. -/
theorem terminateClient_notify (s : DState) (fd i : Nat) (g : Int) (h : s.notify i = g) (hg : g ≠ -1) :
    (terminateClient s fd).1.notify i = g ∨ g = fd := by
  unfold terminateClient
  simp only [h]
  by_cases hf : g = (fd : Int)
  · exact Or.inr hf
  · left; rw [if_neg hf]

theorem terminateAll_notify (s : DState) (i : Nat) (g : Nat) (h : s.notify i = (g : Int)) (n : Nat) :
    (terminateAll s n).1.notify i = (g : Int) ∨ DOut.closed g ∈ (terminateAll s n).2 := by
  induction n with
  | zero => exact Or.inl h
  | succ n ih =>
    rw [terminateAll]
    split
    rename_i s2 o he
    rw [he] at ih
    simp only at ih
    split
    · rcases ih with ih | ih
      · rcases terminateClient_notify s2 n i g ih (by omega) with h1 | h1
        · exact Or.inl h1
        · right
          have : g = n := by omega
          rw [this]
          simp [terminateClient]
      · right
        simp [ih]
    · exact ih

/-- A client to be notified stays so until it is disconnected. -/
theorem notify_step {c : DConf} {s s' : DState} {e : DEv} {o : List DOut}
    (h : dstep c s e = some (s', o)) (i g : Nat) (hn : s.notify i = (g : Int)) (hp : s.ports i ≠ -1) :
    s'.notify i = (g : Int) ∨ DOut.closed g ∈ o := by
  have hterm : ∀ (t : DState) (fd : Nat), t.notify i = (g : Int) →
      (terminateClient t fd).1.notify i = (g : Int) ∨ DOut.closed g ∈ (terminateClient t fd).2 := by
    intro t fd ht
    rcases terminateClient_notify t fd i g ht (by omega) with h1 | h1
    · exact Or.inl h1
    · right
      have : g = fd := by omega
      rw [this]; simp [terminateClient]
  cases e with
  | newClient fd hello =>
    simp only [dstep] at h
    split_ifs at h <;> cases h <;> exact Or.inl hn
  | clientHello fd ok =>
    simp only [dstep] at h
    split_ifs at h
    · cases h; exact Or.inl hn
    · have := hterm s fd hn; rw [Option.some.inj h] at this; exact this
  | clientMsg fd type domain port buf w =>
    simp only [dstep, Option.some.injEq] at h
    rcases cmdline_cases c s fd type domain port buf w with ⟨h1, _⟩ | ⟨_, _, s1, hm, hc⟩
    · have := hterm s fd hn; rw [← h1, h] at this; exact this
    · have hn1 : s1.notify i = (g : Int) := by rw [hm.ports.2.1]; exact hn
      rcases hc with ⟨_, _, h1⟩ | ⟨_, _, h1⟩ | ⟨_, j, ha, hw, h1⟩ | ⟨_, j, ha, hw, h1⟩ | ⟨_, _, _, h1⟩
      · have := hterm s1 fd hn1; rw [← h1, h] at this; exact this
      · have := hterm s1 fd hn1; rw [← h1, h] at this; exact this
      · rw [h1] at h
        simp only [Prod.mk.injEq] at h
        obtain ⟨rfl, rfl⟩ := h
        have hij : i ≠ j := fun e => hp (by rw [e]; exact (allocatePort_some ha).2.1)
        left; simp only [put_other _ _ hij, hn1]
      · rw [h1] at h
        simp only [Prod.mk.injEq] at h
        obtain ⟨rfl, rfl⟩ := h
        have hij : i ≠ j := fun e => hp (by rw [e]; exact (allocatePort_some ha).2.1)
        simp only [put_other _ _ hij, hn1]
        by_cases hf : (g : Int) = fd
        · right
          have : g = fd := by omega
          simp [this]
        · left; rw [if_neg hf]
      · rw [h1] at h
        simp only [Prod.mk.injEq] at h
        obtain ⟨rfl, rfl⟩ := h
        exact Or.inl hn1
  | clientGone fd =>
    have := hterm s fd hn
    simp only [dstep, Option.some.injEq] at h
    rw [h] at this; exact this
  | badTrigger ident => cases h; exact Or.inl hn
  | trigger ident pid =>
    simp only [dstep, Option.some.injEq] at h
    left
    have : (executeService s ident pid).1.notify = s.notify := by
      unfold executeService; split <;> rfl
    rw [h] at this; rw [this]; exact hn
  | childExit pid st =>
    simp only [dstep, Option.some.injEq] at h
    left
    have : (reap s pid st).1.notify = s.notify := by
      unfold reap
      split
      · rfl
      · split <;> rfl
    rw [h] at this; rw [this]; exact hn
  | terminated domain port =>
    simp only [dstep] at h
    split at h
    · cases h
    · simp only [Option.some.injEq] at h
      unfold releasePort at h
      split at h
      · simp only at h
        split at h
        · have := hterm { s with ports := put s.ports (port - baseDataPort) (-1) }
            (s.notify (port - baseDataPort)).toNat hn
          rw [h] at this; exact this
        · cases h; exact Or.inl hn
      · cases h; exact Or.inl hn
  | restart =>
    simp only [dstep, Option.some.injEq] at h
    have := terminateAll_notify s i g hn maxClients
    unfold agentRestart at h
    generalize terminateAll s maxClients = r at h this
    obtain ⟨r1, r2⟩ := r
    simp only [Prod.mk.injEq] at h
    obtain ⟨rfl, rfl⟩ := h
    exact this

theorem notify_held {c : DConf} {l : History} {s : DState} (hr : DRun c l s) :
    RealDomains l → ∀ pre x post fd type domain buf i, l = pre ++ x :: post →
      x.1 = .clientMsg fd type domain 0 buf true → DOut.portReply fd (baseDataPort + i) ∈ x.2 →
      (∀ y ∈ post, DOut.closed fd ∉ y.2 ∧ ∀ d, asInt d = asInt domain → ¬ Ends y d (baseDataPort + i)) →
      s.notify i = (fd : Int) := by
  induction hr with
  | start => intro _ pre x post fd type domain buf i h; simp at h
  | @step tr s s' e o hrun hposs hstep ih =>
    intro hreal pre x post fd type domain buf i hh hx hrep hpost
    have hreal' : RealDomains tr := fun y hy => hreal y (by simp [hy])
    rcases List.eq_nil_or_concat post with rfl | ⟨post', y, rfl⟩
    · obtain ⟨rfl, hxx⟩ := List.append_inj' hh rfl
      simp only [List.cons.injEq, and_true] at hxx
      subst hxx
      simp only at hx hrep
      subst hx
      simp only [dstep, Option.some.injEq] at hstep
      rcases cmdline_cases c s fd type domain 0 buf true with ⟨h1, _⟩ | ⟨_, _, s1, hm, hc⟩
      · rw [h1] at hstep; cases hstep; simp at hrep
      · rcases hc with ⟨_, _, h1⟩ | ⟨_, _, h1⟩ | ⟨hp, j, ha, hw, h1⟩ | ⟨hp, j, ha, hw, h1⟩ | ⟨h0, _, _, h1⟩
        · rw [h1] at hstep; cases hstep; simp at hrep
        · rw [h1] at hstep; cases hstep; simp at hrep
        · rw [h1] at hstep
          simp only [Prod.mk.injEq] at hstep
          obtain ⟨rfl, rfl⟩ := hstep
          have hport : baseDataPort + i = baseDataPort + j := by
            simp only [List.mem_cons, DOut.portReply.injEq, true_and, List.not_mem_nil, or_false] at hrep
            rcases hrep with hr | hr
            · exact hr
            · unfold forwardMsg at hr; simp only at hr; split at hr <;> cases hr
          have : i = j := by omega
          subst this
          simp only [put_same]
        · cases hw
        · exact absurd rfl h0
    · have hh' : tr ++ [(e, o)] = (pre ++ x :: post') ++ [y] := by rw [hh]; simp [List.concat_eq_append]
      obtain ⟨rfl, hxx⟩ := List.append_inj' hh' rfl
      simp only [List.cons.injEq, and_true] at hxx
      subst hxx
      have hpost' : ∀ y ∈ post', DOut.closed fd ∉ y.2 ∧
          ∀ d, asInt d = asInt domain → ¬ Ends y d (baseDataPort + i) :=
        fun y hy => hpost y (by simp [hy])
      have hold := ih hreal' pre x post' fd type domain buf i rfl hx hrep hpost'
      have hports := held_port hrun hreal' domain i
        ⟨pre, x, post', rfl, ⟨fd, type, buf, hx, hrep⟩, fun y hy => (hpost' y hy).2⟩
      have hdom := hreal x (by simp) fd type domain 0 buf true hx
      rcases notify_step hstep i fd hold (by rw [hports]; exact asInt_ne hdom) with h1 | h1
      · exact h1
      · exact absurd h1 (hpost (e, o) (by simp)).1

/-- **C51.** When the agent reports the end of a connection, its port is free again, and the client
that started it is disconnected, unless it already was. -/
theorem C51_end_notifies (c : DConf) (s : DState) (pre mid : History) (o1 o2 : List DOut)
    (fd type domain port : Nat) (buf : Wire)
    (hr : DRun c (pre ++ (.clientMsg fd type domain 0 buf true, o1) :: mid ++
      [(.terminated domain port, o2)]) s)
    (hreal : RealDomains (pre ++ (.clientMsg fd type domain 0 buf true, o1) :: mid))
    (halloc : DOut.portReply fd port ∈ o1)
    (hu32 : ∀ z ∈ mid, ∀ d p, Ends z d p → d < 2 ^ 32)
    (hmid : ∀ y ∈ mid, DOut.closed fd ∉ y.2 ∧ ¬ Ends y domain port) :
    o2 = [.closed fd] ∧ s.ports (port - 513) = -1 := by
  generalize hl : pre ++ (DEv.clientMsg fd type domain 0 buf true, o1) :: mid ++
      [(DEv.terminated domain port, o2)] = l at hr
  cases hr with
  | start => simp at hl
  | @step tr s0 s' e o hrun hposs hstep =>
    obtain ⟨rfl, hx⟩ := List.append_inj' hl rfl
    simp only [List.cons.injEq, and_true, Prod.mk.injEq] at hx
    obtain ⟨rfl, rfl⟩ := hx
    have hdom := hreal (.clientMsg fd type domain 0 buf true, o1) (by simp) fd type domain 0 buf true rfl
    obtain ⟨s1, s2, _, _, hs⟩ := run_split hrun pre _ mid rfl
    obtain ⟨i, rfl, hi, _⟩ := allocates_step hs ⟨fd, type, buf, rfl, halloc⟩
    have hmid' : ∀ y ∈ mid, DOut.closed fd ∉ y.2 ∧
        ∀ d, asInt d = asInt domain → ¬ Ends y d (baseDataPort + i) := by
      intro y hy
      refine ⟨(hmid y hy).1, fun d hd he => ?_⟩
      have : domain = d := asInt_inj hdom (hu32 y hy d _ he) hd.symm
      subst this
      exact (hmid y hy).2 he
    have hn := notify_held hrun hreal pre _ mid fd type domain buf i rfl rfl halloc hmid'
    have hp := held_port hrun hreal domain i ⟨pre, _, mid, rfl, ⟨fd, type, buf, rfl, halloc⟩,
      fun y hy => (hmid' y hy).2⟩
    simp only [dstep] at hstep
    rw [if_neg] at hstep
    · simp only [Option.some.injEq] at hstep
      have hsub : baseDataPort + i - baseDataPort = i := by omega
      rw [hsub] at hstep
      have hr := releasePort_ports s0 i (asInt domain) i
      rw [hstep] at hr
      simp only [hp, and_self, if_true] at hr
      refine ⟨?_, ?_⟩
      · unfold releasePort at hstep
        rw [if_pos hp] at hstep
        simp only [hn] at hstep
        rw [if_pos (by omega)] at hstep
        cases hstep
        rfl
      · have : baseDataPort + i - 513 = i := by unfold baseDataPort; omega
        rw [this]; exact hr
    · simp only [Bool.or_eq_true, decide_eq_true_eq, not_or]
      omega

/-! Examples -/

/-- The daemon of the qube with id 3. -/
def exConf : DConf := ⟨3, c!"user"⟩

/-- Run a list of events. -/
def drive (c : DConf) : DState → List DEv → Option (DState × History)
  | s, [] => some (s, [])
  | s, e :: es =>
    if e.possible s then
      match dstep c s e with
      | none => none
      | some (s', o) => (drive c s' es).map fun r => (r.1, (e, o) :: r.2)
    else none

theorem drive_run {c : DConf} : ∀ {es : List DEv} {s s' : DState} {h h' : History}, DRun c h s →
    drive c s es = some (s', h') → DRun c (h ++ h') s' := by
  intro es
  induction es with
  | nil => intro s s' h h' hr hd; cases hd; simpa using hr
  | cons e es ih =>
    intro s s' h h' hr hd
    rw [drive] at hd
    split at hd
    · rename_i hp
      split at hd
      · cases hd
      · rename_i s1 o hs
        obtain ⟨r, hr1, hr2⟩ := Option.map_eq_some_iff.1 hd
        cases hr2
        have := ih (.step hr hp hs) hr1
        simpa using this
    · cases hd

/-- Two clients; the first connection ends, and its port is used again. -/
def exEvents : List DEv :=
  [.newClient 5 true, .clientHello 5 true, .clientMsg 5 0x200 7 0 c!"u:cmd\x00" true,
   .newClient 6 true, .clientHello 6 true, .clientMsg 6 0x200 0 0 c!"DEFAULT:cmd\x00" true,
   .terminated 7 514,
   .newClient 7 true, .clientHello 7 true, .clientMsg 7 0x200 9 0 c!"u:cmd\x00" true]

example : (drive exConf DState.start exEvents).map (fun r => r.2.map Prod.snd) = some
    [[], [], [.portReply 5 514, .forward 0x200 14 7 514 c!"u:cmd\x00"],
     [], [], [.portReply 6 513, .forward 0x200 17 0 513 c!"user:cmd\x00"],
     [.closed 5],
     [], [], [.portReply 7 514, .forward 0x200 14 9 514 c!"u:cmd\x00"]] := by decide

/-- A client that gives the domain id -1 gets a port that is not reserved (this is what
`RealDomains` excludes). -/
theorem C51_needs_real_domains : (drive exConf DState.start
    [.newClient 5 true, .clientHello 5 true, .clientMsg 5 0x200 (2 ^ 32 - 1) 0 c!"u:c\x00" true,
     .newClient 6 true, .clientHello 6 true, .clientMsg 6 0x200 (2 ^ 32 - 1) 0 c!"u:c\x00" true]).map
      (fun r => r.2.map Prod.snd) = some
    [[], [], [.portReply 5 513, .forward 0x200 12 (2 ^ 32 - 1) 513 c!"u:c\x00"],
     [], [], [.portReply 6 513, .forward 0x200 12 (2 ^ 32 - 1) 513 c!"u:c\x00"]] := by decide

/-! ## Reports about ports that are not in use -/

/-- Clients wait only for the end of connections on ports in use. -/
def NotifyOk (s : DState) : Prop := ∀ i, (s.notify i = -1 ∨ 0 ≤ s.notify i) ∧ (s.ports i = -1 → s.notify i = -1)

theorem notifyOk_terminate {s : DState} (h : NotifyOk s) (fd : Nat) : NotifyOk (terminateClient s fd).1 := by
  intro i
  obtain ⟨h1, h2⟩ := h i
  show ((if s.notify i = (fd : Int) then (-1 : Int) else s.notify i) = -1 ∨
    0 ≤ (if s.notify i = (fd : Int) then (-1 : Int) else s.notify i)) ∧ (s.ports i = -1 →
      (if s.notify i = (fd : Int) then (-1 : Int) else s.notify i) = -1)
  split_ifs
  · exact ⟨.inl rfl, fun _ => rfl⟩
  · exact ⟨h1, h2⟩

theorem notifyOk_release {s : DState} (h : NotifyOk s) (i : Nat) (d : Int) : NotifyOk (releasePort s i d).1 := by
  unfold releasePort
  split
  · dsimp only
    split
    · rename_i hne
      intro j
      obtain ⟨h1, h2⟩ := h j
      obtain ⟨g1, g2⟩ := h i
      have hi : ((s.notify i).toNat : Int) = s.notify i := by
        rcases g1 with g1 | g1
        · exact absurd g1 hne
        · omega
      show ((if s.notify j = ((s.notify i).toNat : Int) then (-1 : Int) else s.notify j) = -1 ∨
        0 ≤ (if s.notify j = ((s.notify i).toNat : Int) then (-1 : Int) else s.notify j)) ∧ (put s.ports i (-1) j = -1 →
        (if s.notify j = ((s.notify i).toNat : Int) then (-1 : Int) else s.notify j) = -1)
      rw [hi]
      by_cases e : s.notify j = s.notify i
      · rw [if_pos e]; exact ⟨.inl rfl, fun _ => rfl⟩
      · rw [if_neg e]
        refine ⟨h1, fun hp => ?_⟩
        by_cases ej : j = i
        · subst ej; exact absurd rfl e
        · rw [put_other _ _ ej] at hp; exact h2 hp
    · rename_i hne
      intro j
      obtain ⟨h1, h2⟩ := h j
      refine ⟨h1, fun hp => ?_⟩
      by_cases ej : j = i
      · subst ej; simpa using hne
      · replace hp : put s.ports i (-1) j = -1 := hp
        rw [put_other _ _ ej] at hp; exact h2 hp
  · exact h

theorem notifyOk_all {s : DState} (h : NotifyOk s) (n : Nat) : NotifyOk (terminateAll s n).1 := by
  induction n with
  | zero => exact h
  | succ n ih =>
    rw [terminateAll]
    split
    rename_i s2 o he
    rw [he] at ih
    split
    · exact notifyOk_terminate ih n
    · exact ih

theorem notifyOk_step {c : DConf} {s s' : DState} {e : DEv} {o : List DOut} (h : dstep c s e = some (s', o))
    (hreal : ∀ fd type domain port buf w, e = .clientMsg fd type domain port buf w → domain < 2 ^ 31)
    (hi : NotifyOk s) : NotifyOk s' := by
  have same : s'.notify = s.notify → s'.ports = s.ports → NotifyOk s' := by
    intro h1 h2 i
    rw [h1, h2]; exact hi i
  cases e with
  | newClient fd hello =>
    simp only [dstep] at h
    split_ifs at h <;> cases h <;> exact hi
  | clientHello fd ok =>
    simp only [dstep] at h
    split_ifs at h <;> cases h
    · exact hi
    · exact notifyOk_terminate hi fd
  | clientMsg fd type domain port buf w =>
    have hd := asInt_ne (hreal fd type domain port buf w rfl)
    simp only [dstep, Option.some.injEq] at h
    rcases cmdline_cases c s fd type domain port buf w with ⟨h1, _⟩ | ⟨_, _, s1, hm, hc⟩
    · rw [h1] at h; cases h; exact notifyOk_terminate hi fd
    · have hi1 : NotifyOk s1 := by rcases hm with ⟨_, _, _, rfl⟩ | ⟨_, rfl⟩ <;> exact hi
      have hput : ∀ j, NotifyOk { s1 with ports := put s1.ports j (asInt domain), notify := put s1.notify j (fd : Int) } := by
        intro j i
        by_cases e : i = j
        · subst e
          refine ⟨.inr ?_, fun hp => ?_⟩
          · show 0 ≤ put s1.notify i (fd : Int) i
            rw [put_same]; omega
          · replace hp : put s1.ports i (asInt domain) i = -1 := hp
            rw [put_same] at hp; exact absurd hp hd
        · obtain ⟨g1, g2⟩ := hi1 i
          show (put s1.notify j (fd : Int) i = -1 ∨ 0 ≤ put s1.notify j (fd : Int) i) ∧
            (put s1.ports j (asInt domain) i = -1 → put s1.notify j (fd : Int) i = -1)
          rw [put_other _ _ e, put_other _ _ e]
          exact ⟨g1, g2⟩
      rcases hc with ⟨_, _, h1⟩ | ⟨_, _, h1⟩ | ⟨hp, j, ha, hw, h1⟩ | ⟨hp, j, ha, hw, h1⟩ | ⟨h0, _, _, h1⟩
      · rw [h1] at h; cases h; exact notifyOk_terminate hi1 fd
      · rw [h1] at h; cases h; exact notifyOk_terminate hi1 fd
      · rw [h1] at h; cases h; exact hput j
      · rw [h1] at h; cases h
        intro i
        have g := hput j i
        show ((if put s1.notify j (fd : Int) i = (fd : Int) then (-1 : Int) else put s1.notify j (fd : Int) i) = -1 ∨
            0 ≤ (if put s1.notify j (fd : Int) i = (fd : Int) then (-1 : Int) else put s1.notify j (fd : Int) i)) ∧
          (put (put s1.ports j (asInt domain)) j (-1) i = -1 →
            (if put s1.notify j (fd : Int) i = (fd : Int) then (-1 : Int) else put s1.notify j (fd : Int) i) = -1)
        by_cases e : i = j
        · subst e
          rw [put_same, if_pos rfl]; exact ⟨.inl rfl, fun _ => rfl⟩
        · replace g : (put s1.notify j (fd : Int) i = -1 ∨ 0 ≤ put s1.notify j (fd : Int) i) ∧
            (put s1.ports j (asInt domain) i = -1 → put s1.notify j (fd : Int) i = -1) := g
          rw [put_other _ _ e] at g ⊢
          rw [put_other _ _ e] at g
          rw [put_other _ _ e, put_other _ _ e]
          split_ifs
          · exact ⟨.inl rfl, fun _ => rfl⟩
          · exact g
      · rw [h1] at h; cases h; exact hi1
  | clientGone fd => simp only [dstep, Option.some.injEq] at h; cases h; exact notifyOk_terminate hi fd
  | badTrigger ident => simp only [dstep, Option.some.injEq] at h; cases h; exact hi
  | trigger ident pid =>
    simp only [dstep, Option.some.injEq] at h
    unfold executeService at h
    split at h <;> cases h <;> exact hi
  | childExit pid st =>
    simp only [dstep, Option.some.injEq] at h
    unfold reap at h
    split at h
    · cases h; exact hi
    · split at h <;> cases h <;> exact hi
  | terminated domain port =>
    simp only [dstep] at h
    split at h
    · cases h
    · simp only [Option.some.injEq] at h
      have := notifyOk_release hi (port - baseDataPort) (asInt domain)
      rw [h] at this; exact this
  | restart =>
    simp only [dstep, Option.some.injEq] at h
    have := notifyOk_all hi maxClients
    unfold agentRestart at h
    generalize terminateAll s maxClients = r at h this
    obtain ⟨r1, r2⟩ := r
    cases h
    exact this

theorem notifyOk_run {c : DConf} {h : History} {s : DState} (hr : DRun c h s) : RealDomains h → NotifyOk s := by
  induction hr with
  | start => intro _ i; exact ⟨.inl rfl, fun _ => rfl⟩
  | @step tr s s' e o hrun hposs hstep ih =>
    intro hreal
    exact notifyOk_step hstep (fun fd type domain port buf w he => hreal (e, o) (by simp) fd type domain port buf w he)
      (ih (fun y hy => hreal y (by simp [hy])))

/-- A port in use was given out, and its end has not been reported since. -/
theorem port_held {c : DConf} {h : History} {s : DState} (hr : DRun c h s) :
    ∀ i < maxClients, s.ports i ≠ -1 → ∃ d, HeldFor h d (baseDataPort + i) ∧ s.ports i = asInt d := by
  induction hr with
  | start => intro i _ h; exact absurd rfl h
  | @step tr s s' e o hrun hposs hstep ih =>
    intro i hi hp
    rcases ports_step hstep i with h1 | ⟨d, _, _, h2⟩ | ⟨d, ha, _, h2⟩
    · rw [h1] at hp ⊢
      obtain ⟨d, ⟨pre, x, post, rfl, hx, hpost⟩, hd⟩ := ih i hi hp
      refine ⟨d, ⟨pre, x, post ++ [(e, o)], by simp, hx, ?_⟩, hd⟩
      intro y hy d' hd' he
      rcases List.mem_append.1 hy with hy | hy
      · exact hpost y hy d' hd' he
      · simp only [List.mem_singleton] at hy
        subst hy
        replace he : e = .terminated d' (baseDataPort + i) := he
        subst he
        simp only [dstep] at hstep
        rw [if_neg (by simp; omega), Option.some.injEq] at hstep
        have := releasePort_ports s (baseDataPort + i - baseDataPort) (asInt d') i
        rw [hstep, if_pos ⟨by omega, by rw [Nat.add_sub_cancel_left, hd, hd']⟩, h1] at this
        exact hp this
    · exact absurd h2 hp
    · exact ⟨d, ⟨tr, (e, o), [], by simp, ha, by simp⟩, h2⟩

/-- **C51.** A report of the end of a connection that does not exist - the port is not in use, or for another qube - has no effect
on any client. -/
theorem C51_unused (c : DConf) (s : DState) (h : History) (o : List DOut) (domain port : Nat) (hd : domain < 2 ^ 32)
    (hr : DRun c (h ++ [(.terminated domain port, o)]) s) (hreal : RealDomains h) (hno : ¬ HeldFor h domain port) : o = [] := by
  obtain ⟨s0, s1, hrun, _, hs⟩ := run_split hr h _ [] rfl
  simp only [dstep] at hs
  split at hs
  · cases hs
  · rename_i hp
    simp only [Bool.or_eq_true, decide_eq_true_eq, not_or, Nat.not_lt, ge_iff_le, Nat.not_le] at hp
    simp only [Option.some.injEq] at hs
    have hport : baseDataPort + (port - baseDataPort) = port := by omega
    unfold releasePort at hs
    by_cases e : s0.ports (port - baseDataPort) = asInt domain
    · by_cases em : s0.ports (port - baseDataPort) = -1
      · have := (notifyOk_run hrun hreal (port - baseDataPort)).2 em
        rw [if_pos e] at hs
        dsimp only at hs
        rw [if_neg (by simpa using this)] at hs
        cases hs; rfl
      · obtain ⟨d, h1, h2⟩ := port_held hrun (port - baseDataPort) (by omega) em
        rw [hport] at h1
        have hd' : d < 2 ^ 31 := by
          obtain ⟨pre, x, post, hh, ⟨fd, type, buf, hx, _⟩, _⟩ := h1
          exact hreal x (by rw [hh]; simp) fd type d 0 buf true hx
        have : d = domain := asInt_inj hd' hd (by rw [← h2, e])
        subst this
        exact absurd h1 hno
    · rw [if_neg e] at hs
      cases hs; rfl

/-- The hypotheses are met: a qube reports the end of a connection it never had. -/
example : (drive exConf DState.start [.newClient 5 true, .terminated 7 513, .terminated (2 ^ 32 - 1) 514]).map
    (fun r => r.2.map Prod.snd) = some [[], [], []] := by decide

end Qrexec
