import Verif.Props.Ports

/-! # C52: requests are answered at most once, and exactly once if the children behave

`Outstanding` counts the requests that wait for an answer. -/
namespace Qrexec
open Spec

/-- The slot waits for an answer to a request with this identifier. -/
def waits (ident : Str) (p : Pending) : Bool := p.pid != 0 && p.sent == .pending && p.ident == ident

/-- How many slots wait. -/
def waiting (ident : Str) (s : DState) : Nat :=
  ((List.range maxClients).filter fun i => waits ident (s.pend i)).length

theorem count_put (q : Pending → Bool) (f : Nat → Pending) (i : Nat) (v : Pending) : ∀ n,
    ((List.range n).filter fun j => q (put f i v j)).length + (if i < n ∧ q (f i) then 1 else 0) =
    ((List.range n).filter fun j => q (f j)).length + (if i < n ∧ q v then 1 else 0) := by
  intro n
  induction n with
  | zero => simp
  | succ n ih =>
    rw [List.range_succ, List.filter_append, List.filter_append, List.length_append, List.length_append]
    by_cases hi : i = n
    · subst hi
      simp only [Nat.lt_irrefl, false_and, if_false, Nat.add_zero] at ih
      rw [ih]
      simp only [Nat.lt_succ_self, true_and, List.filter_cons, put_same, List.filter_nil]
      cases q v <;> cases q (f i) <;> simp
    · have h1 : put f i v n = f n := put_other f v (by omega)
      have h2 : (i < n + 1) ↔ i < n := by omega
      simp only [List.filter_cons, List.filter_nil, h1, h2]
      omega

theorem waiting_put (ident : Str) (s : DState) (i : Nat) (v : Pending) (hi : i < maxClients) (t : DState)
    (ht : t.pend = put s.pend i v) :
    waiting ident t + (if waits ident (s.pend i) then 1 else 0) =
      waiting ident s + (if waits ident v then 1 else 0) := by
  have := count_put (waits ident) s.pend i v maxClients
  unfold waiting
  rw [ht]
  simpa only [hi, true_and] using this

theorem findPending_some {s : DState} {ident : Str} {i : Nat} (h : findPending s ident = some i) :
    i < s.pendCount ∧ waits ident (s.pend i) = true := by
  unfold findPending at h
  have h1 := List.find?_some h
  have h2 := List.mem_of_find?_eq_some h
  exact ⟨List.mem_range.1 h2, h1⟩

theorem findPending_none {s : DState} {ident : Str} (h : findPending s ident = none) :
    ∀ i < s.pendCount, waits ident (s.pend i) = false := by
  intro i hi
  unfold findPending at h
  have := List.find?_eq_none.1 h i (List.mem_range.2 hi)
  simpa [waits] using this

theorem findSlot_some {s : DState} {i : Nat} (h : findSlot s = some i) :
    i < maxClients ∧ (s.pend i).pid = 0 := by
  unfold findSlot at h
  have h1 := List.find?_some h
  have h2 := List.mem_of_find?_eq_some h
  exact ⟨List.mem_range.1 h2, by simpa using h1⟩

theorem shrink_spec (pend : Nat → Pending) : ∀ n, shrink pend n ≤ n ∧
    ∀ i, shrink pend n ≤ i → i < n → (pend i).pid = 0 := by
  intro n
  induction n with
  | zero => exact ⟨Nat.le_refl _, fun i h1 h2 => by omega⟩
  | succ n ih =>
    cases n with
    | zero => exact ⟨by simp [shrink], fun i h1 h2 => by simp [shrink] at h1; omega⟩
    | succ n =>
      rw [shrink]
      split
      · rename_i hp
        refine ⟨by omega, fun i h1 h2 => ?_⟩
        by_cases hi : i = n + 1
        · rw [hi]; exact hp
        · exact ih.2 i h1 (by omega)
      · exact ⟨Nat.le_refl _, fun i h1 h2 => by omega⟩

/-- The outputs of an entry that are answers. -/
def answersIn (ident : Str) (o : List DOut) : Nat := (o.filter (isAnswer ident)).length

theorem answers_snoc (ident : Str) (h : History) (e : DEv) (o : List DOut) :
    answers ident (h ++ [(e, o)]) = answers ident h + answersIn ident o := by
  simp [answers, answersIn]

theorem requests_snoc (ident : Str) (h : History) (e : DEv) (o : List DOut) :
    requests ident (h ++ [(e, o)]) = requests ident h + (if isRequest ident e then 1 else 0) := by
  unfold requests
  rw [List.filter_append, List.length_append]
  simp only [List.filter_cons, List.filter_nil]
  split <;> simp

theorem isAnswer_forward (c : DConf) (ident : Str) (type domain port : Nat) (buf : Wire) :
    isAnswer ident (forwardMsg c type domain port buf) = (type == msgConnect && cString buf == ident) := by
  unfold forwardMsg
  simp only
  by_cases ht : type = msgConnect
  · rw [ht]; rfl
  · have : (type != msgConnect) = true := by simpa using ht
    have h2 : (type == msgConnect) = false := by simpa using ht
    have h3 : (type == 0x202) = false := h2
    rw [this, h2]
    simp only [Bool.true_and, Bool.false_and]
    split <;> simp only [isAnswer, h3, Bool.false_and]

theorem refused_answers (ident i : Str) :
    answersIn ident [.refused i] = if (i == ident) = true then 1 else 0 := by
  have : isAnswer ident (.refused i) = (i == ident) := rfl
  unfold answersIn
  by_cases h : (i == ident) = true
  · rw [List.filter_cons, this, if_pos h, if_pos h]; rfl
  · rw [List.filter_cons, this, if_neg h, if_neg h]; rfl

theorem closed_answers (ident : Str) (fd : Nat) : answersIn ident [.closed fd] = 0 := rfl

theorem releasePort_out (ident : Str) (s : DState) (i : Nat) (d : Int) :
    answersIn ident (releasePort s i d).2 = 0 ∧ (releasePort s i d).1.pend = s.pend ∧
      (releasePort s i d).1.pendCount = s.pendCount := by
  unfold releasePort
  split
  · simp only
    split <;> exact ⟨rfl, rfl, rfl⟩
  · exact ⟨rfl, rfl, rfl⟩

theorem terminateAll_out (ident : Str) (s : DState) (n : Nat) :
    answersIn ident (terminateAll s n).2 = 0 ∧ (terminateAll s n).1.pend = s.pend := by
  induction n with
  | zero => exact ⟨rfl, rfl⟩
  | succ n ih =>
    rw [terminateAll]
    split
    rename_i s2 o he
    rw [he] at ih
    split
    · refine ⟨?_, ih.2⟩
      have := ih.1
      unfold answersIn at this ⊢
      simp only [terminateClient, List.filter_append, List.length_append, this]
      rfl
    · exact ih

/-- What one step means for the requests with identifier `ident`. -/
theorem waiting_step {c : DConf} {s s' : DState} {e : DEv} {o : List DOut} (ident : Str)
    (hp : e.possible s = true) (hc : s.pendCount ≤ maxClients) (h : dstep c s e = some (s', o)) :
    s'.pendCount ≤ maxClients ∧
    answersIn ident o + waiting ident s' ≤ waiting ident s + (if isRequest ident e then 1 else 0) := by
  have same : ∀ {t : DState} {p : List DOut}, t.pend = s.pend → t.pendCount = s.pendCount →
      answersIn ident p = 0 →
      t.pendCount ≤ maxClients ∧ answersIn ident p + waiting ident t ≤
        waiting ident s + (if isRequest ident e then 1 else 0) := by
    intro t p h1 h2 h3
    refine ⟨by rw [h2]; exact hc, ?_⟩
    have : waiting ident t = waiting ident s := by unfold waiting; rw [h1]
    rw [h3, this]; omega
  cases e with
  | newClient fd hello =>
    simp only [dstep] at h
    split_ifs at h <;> cases h <;> exact same rfl rfl rfl
  | clientHello fd ok =>
    simp only [dstep] at h
    split_ifs at h <;> cases h <;> exact same rfl rfl rfl
  | clientGone fd => cases h; exact same rfl rfl rfl
  | terminated domain port =>
    simp only [dstep] at h
    split at h
    · cases h
    · simp only [Option.some.injEq] at h
      obtain ⟨h1, h2, h3⟩ := releasePort_out ident s (port - baseDataPort) (asInt domain)
      rw [h] at h1 h2 h3
      exact same h2 h3 h1
  | badTrigger i =>
    cases h
    refine ⟨hc, ?_⟩
    simp only [answersIn, List.filter_cons, List.filter_nil, isAnswer, isRequest]
    by_cases hx : (i == ident) = true <;> simp [hx] <;> omega
  | trigger i pid =>
    simp only [dstep, Option.some.injEq] at h
    unfold executeService at h
    cases hs : findSlot s with
    | none =>
      rw [hs] at h
      cases h
      refine ⟨hc, ?_⟩
      simp only [answersIn, List.filter_cons, List.filter_nil, isAnswer, isRequest]
      by_cases hx : (i == ident) = true <;> simp [hx] <;> omega
    | some k =>
      rw [hs] at h
      cases h
      obtain ⟨hk, hk0⟩ := findSlot_some hs
      refine ⟨by simp only; omega, ?_⟩
      have := waiting_put ident s k ⟨pid, i, .pending⟩ hk
        { s with pend := put s.pend k ⟨pid, i, .pending⟩, pendCount := max s.pendCount (k + 1) } rfl
      have hnot : waits ident (s.pend k) = false := by simp [waits, hk0]
      rw [hnot] at this
      have hw : waits ident ⟨pid, i, .pending⟩ = isRequest ident (.trigger i pid) := by
        have : (pid != 0) = true := hp
        simp only [waits, this, isRequest]
        simp
      rw [hw] at this
      simp only [Bool.false_eq_true, if_false, Nat.add_zero] at this
      rw [this]
      simp [answersIn]
  | childExit pid st =>
    simp only [dstep, Option.some.injEq] at h
    unfold reap at h
    split at h
    · cases h; exact same rfl rfl rfl
    · rename_i k hk
      have hk1 := List.find?_some hk
      have hk2 := List.mem_range.1 (List.mem_of_find?_eq_some hk)
      cases st with
      | none => cases h; exact same rfl rfl rfl
      | some code =>
        simp only [Prod.mk.injEq] at h
        obtain ⟨rfl, ho⟩ := h
        have hpid : (s.pend k).pid ≠ 0 := by
          have h0 : (pid != 0) = true := hp
          simp only [beq_iff_eq] at hk1
          rw [hk1]; simpa using h0
        refine ⟨?_, ?_⟩
        · have := (shrink_spec (put s.pend k
            ⟨0, (s.pend k).ident, if code != 0 then if (s.pend k).sent != .pending then (s.pend k).sent
              else .deny else .allow⟩) s.pendCount).1
          revert this
          simp only
          intro this
          refine Nat.le_trans ?_ hc
          convert this using 3
          split_ifs <;> rfl
        · rw [← ho]
          have hput := fun v => waiting_put ident s k ⟨0, (s.pend k).ident, v⟩ (by omega)
          have hz : ∀ v, waits ident ⟨0, (s.pend k).ident, v⟩ = false := fun v => rfl
          by_cases hcode : (code != 0) = true
          · simp only [hcode, if_true]
            by_cases hpend : ((s.pend k).sent != .pending) = true
            · simp only [hpend, if_true]
              have := hput (s.pend k).sent _ (rfl : ({ s with pend := put s.pend k ⟨0, (s.pend k).ident, (s.pend k).sent⟩, pendCount := shrink (put s.pend k ⟨0, (s.pend k).ident, (s.pend k).sent⟩) s.pendCount } : DState).pend = _)
              rw [hz] at this
              simp only [Bool.false_eq_true, if_false, Nat.add_zero] at this
              simp only [answersIn, List.filter_nil, List.length_nil]
              omega
            · simp only [hpend, Bool.false_eq_true, if_false]
              have := hput .deny _ (rfl : ({ s with pend := put s.pend k ⟨0, (s.pend k).ident, .deny⟩, pendCount := shrink (put s.pend k ⟨0, (s.pend k).ident, .deny⟩) s.pendCount } : DState).pend = _)
              rw [hz] at this
              simp only [Bool.false_eq_true, if_false, Nat.add_zero] at this
              have hw : waits ident (s.pend k) = ((s.pend k).ident == ident) := by
                unfold waits
                simp only [bne_iff_ne, ne_eq, Decidable.not_not] at hpend
                simp [hpid, hpend]
              rw [hw] at this
              rw [refused_answers]
              omega
          · simp only [hcode, Bool.false_eq_true, if_false]
            have := hput .allow _ (rfl : ({ s with pend := put s.pend k ⟨0, (s.pend k).ident, .allow⟩, pendCount := shrink (put s.pend k ⟨0, (s.pend k).ident, .allow⟩) s.pendCount } : DState).pend = _)
            rw [hz] at this
            simp only [Bool.false_eq_true, if_false, Nat.add_zero] at this
            simp only [answersIn, List.filter_nil, List.length_nil]
            omega
  | restart =>
    simp only [dstep, Option.some.injEq] at h
    obtain ⟨h1, _⟩ := terminateAll_out ident s maxClients
    unfold agentRestart at h
    generalize terminateAll s maxClients = r at h h1
    obtain ⟨r1, r2⟩ := r
    simp only [Prod.mk.injEq] at h
    obtain ⟨rfl, rfl⟩ := h
    refine ⟨Nat.zero_le _, ?_⟩
    simp only at h1
    rw [h1]
    have hz : ∀ t : DState, (∀ i < maxClients, (t.pend i).pid = 0) → waiting ident t = 0 := by
      intro t ht
      unfold waiting
      rw [List.length_eq_zero_iff, List.filter_eq_nil_iff]
      intro i hi
      simp [waits, ht i (List.mem_range.1 hi)]
    rw [hz _ (fun i hi => by simp only [if_pos hi])]
    omega
  | clientMsg fd type domain port buf w =>
    simp only [dstep, Option.some.injEq] at h
    rcases cmdline_cases c s fd type domain port buf w with ⟨h1, _⟩ | ⟨_, _, s1, hm, hcase⟩
    · rw [h1] at h; cases h; exact same rfl rfl rfl
    · -- the marking of the slot
      have hmark : waiting ident s1 + (if type = msgConnect ∧ cString buf = ident then 1 else 0) =
          waiting ident s ∧ s1.pendCount = s.pendCount := by
        refine ⟨?_, hm.ports.2.2.2⟩
        rcases hm with ⟨ht, k, hk, rfl⟩ | ⟨ht, rfl⟩
        · obtain ⟨k1, k2⟩ := findPending_some hk
          have := waiting_put ident s k { s.pend k with sent := .allow } (by omega)
            { s with pend := put s.pend k { s.pend k with sent := .allow } } rfl
          have hz : waits ident { s.pend k with sent := .allow } = false := by simp [waits]
          rw [hz] at this
          simp only [Bool.false_eq_true, if_false, Nat.add_zero] at this
          have hid : waits ident (s.pend k) = (cString buf == ident) := by
            unfold waits at k2 ⊢
            simp only [Bool.and_eq_true, beq_iff_eq] at k2
            obtain ⟨⟨k3, k4⟩, k5⟩ := k2
            rw [k3, k4, k5]; rfl
          rw [hid] at this
          simp only [ht, true_and]
          by_cases hx : cString buf = ident
          · simp only [hx, beq_self_eq_true, if_true] at this ⊢; exact this
          · have hb : (cString buf == ident) = false := by simpa using hx
            simp only [hx, hb, if_false, Bool.false_eq_true] at this ⊢; exact this
        · simp [ht]
      have hfw : ∀ q, answersIn ident [forwardMsg c type domain q buf] =
          if type = msgConnect ∧ cString buf = ident then 1 else 0 := by
        intro q
        simp only [answersIn, List.filter_cons, List.filter_nil, isAnswer_forward, Bool.and_eq_true,
          beq_iff_eq]
        split <;> rfl
      have hfw2 : ∀ q r, answersIn ident [.portReply fd r, forwardMsg c type domain q buf] =
          if type = msgConnect ∧ cString buf = ident then 1 else 0 := by
        intro q r
        rw [← hfw q]; rfl
      have hle : ∀ {t : DState} {p : List DOut}, t.pend = s1.pend → t.pendCount = s1.pendCount →
          (answersIn ident p = 0 ∨ answersIn ident p =
            if type = msgConnect ∧ cString buf = ident then 1 else 0) →
          t.pendCount ≤ maxClients ∧ answersIn ident p + waiting ident t ≤
            waiting ident s + (if isRequest ident (.clientMsg fd type domain port buf w) then 1 else 0) := by
        intro t p h1 h2 h3
        refine ⟨by rw [h2, hmark.2]; exact hc, ?_⟩
        have h4 : waiting ident t = waiting ident s1 := by unfold waiting; rw [h1]
        rw [h4, ← hmark.1]
        rcases h3 with h3 | h3 <;> rw [h3] <;> omega
      rcases hcase with ⟨_, _, h1⟩ | ⟨_, _, h1⟩ | ⟨_, j, ha, hw, h1⟩ | ⟨_, j, ha, hw, h1⟩ | ⟨_, _, _, h1⟩
      · rw [h1] at h; cases h; exact hle rfl rfl (Or.inl rfl)
      · rw [h1] at h; cases h; exact hle rfl rfl (Or.inl rfl)
      · rw [h1] at h; cases h; exact hle rfl rfl (Or.inr (hfw2 _ _))
      · rw [h1] at h; cases h; exact hle rfl rfl (Or.inl rfl)
      · rw [h1] at h; cases h; exact hle rfl rfl (Or.inr (hfw _))

theorem waiting_run {c : DConf} {h : History} {s : DState} (hr : DRun c h s) :
    s.pendCount ≤ maxClients ∧ ∀ ident, answers ident h + waiting ident s ≤ requests ident h := by
  induction hr with
  | start =>
    refine ⟨Nat.zero_le _, fun ident => ?_⟩
    have : waiting ident DState.start = 0 := by
      unfold waiting
      rw [List.length_eq_zero_iff, List.filter_eq_nil_iff]
      intro i _
      simp [waits, DState.start]
    rw [this]; simp [answers]
  | @step tr s s' e o hrun hposs hstep ih =>
    obtain ⟨h1, h2⟩ := ih
    refine ⟨(waiting_step [] hposs h1 hstep).1, fun ident => ?_⟩
    have := (waiting_step ident hposs h1 hstep).2
    have h3 := h2 ident
    rw [answers_snoc, requests_snoc]
    omega

/-- **C52.** At no time has the agent been sent more answers for an identifier than it made requests
with it, whatever clients and children do, and in whatever order. -/
theorem C52_at_most_once (c : DConf) (h : History) (s : DState) (hr : DRun c h s) (ident : Str) :
    answers ident h ≤ requests ident h := by
  have := (waiting_run hr).2 ident
  omega

/-! ## Exactly once -/

theorem alive_snoc (pid : Nat) (h : History) (e : DEv) (o : List DOut) :
    alive pid (h ++ [(e, o)]) = match e with
      | .trigger _ p => alive pid h || p == pid
      | .childExit p (some _) => alive pid h && p != pid
      | .restart => false
      | _ => alive pid h := by
  unfold alive
  rw [List.foldl_append]
  rfl

theorem reap_pend (s : DState) (pid : Nat) (st : Option Nat) :
    ((reap s pid st).1 = s ∧ (st = none ∨ ∀ i < s.pendCount, (s.pend i).pid ≠ pid)) ∨
    ∃ k sent code, st = some code ∧ k < s.pendCount ∧ (s.pend k).pid = pid ∧
      (reap s pid st).1.pend = put s.pend k ⟨0, (s.pend k).ident, sent⟩ ∧
      (reap s pid st).1.pendCount = shrink (put s.pend k ⟨0, (s.pend k).ident, sent⟩) s.pendCount ∧
      (code ≠ 0 → (s.pend k).sent = .pending → (reap s pid st).2 = [.refused (s.pend k).ident]) := by
  unfold reap
  cases hf : (List.range s.pendCount).find? (fun i => (s.pend i).pid == pid) with
  | none =>
    left
    refine ⟨rfl, Or.inr fun i hi => ?_⟩
    have := List.find?_eq_none.1 hf i (List.mem_range.2 hi)
    simpa using this
  | some k =>
    have hk1 := List.find?_some hf
    have hk2 := List.mem_range.1 (List.mem_of_find?_eq_some hf)
    simp only [beq_iff_eq] at hk1
    cases st with
    | none => left; exact ⟨rfl, Or.inl rfl⟩
    | some code =>
      right
      refine ⟨k, _, code, rfl, hk2, hk1, rfl, rfl, fun hc hp => ?_⟩
      have hc' : (code != 0) = true := by simpa using hc
      simp only [hc', if_true, hp]
      rfl

/-- How a step changes the process ids of the slots. -/
theorem pid_step {c : DConf} {s s' : DState} {e : DEv} {o : List DOut}
    (h : dstep c s e = some (s', o)) (i : Nat) :
    (s'.pend i).pid = (s.pend i).pid ∨ (s'.pend i).pid = 0 ∨
      ∃ ident p, e = .trigger ident p ∧ (s'.pend i).pid = p ∧ findSlot s = some i := by
  cases e with
  | newClient fd hello =>
    simp only [dstep] at h
    split_ifs at h <;> cases h <;> exact Or.inl rfl
  | clientHello fd ok =>
    simp only [dstep] at h
    split_ifs at h <;> cases h <;> exact Or.inl rfl
  | clientGone fd => cases h; exact Or.inl rfl
  | badTrigger ident => cases h; exact Or.inl rfl
  | terminated domain port =>
    simp only [dstep] at h
    split at h
    · cases h
    · simp only [Option.some.injEq] at h
      obtain ⟨_, h2, _⟩ := releasePort_out [] s (port - baseDataPort) (asInt domain)
      rw [h] at h2
      left; rw [h2]
  | restart =>
    simp only [dstep, Option.some.injEq] at h
    obtain ⟨_, h2⟩ := terminateAll_out [] s maxClients
    unfold agentRestart at h
    generalize terminateAll s maxClients = r at h h2
    obtain ⟨r1, r2⟩ := r
    simp only [Prod.mk.injEq] at h
    obtain ⟨rfl, rfl⟩ := h
    simp only at h2 ⊢
    rw [h2]
    split
    · right; left; rfl
    · left; rfl
  | trigger ident pid =>
    simp only [dstep, Option.some.injEq] at h
    unfold executeService at h
    cases hs : findSlot s with
    | none => rw [hs] at h; cases h; exact Or.inl rfl
    | some k =>
      rw [hs] at h; cases h
      by_cases hik : i = k
      · subst hik
        right; right
        exact ⟨ident, pid, rfl, by simp only [put_same], rfl⟩
      · left; simp only [put_other _ _ hik]
  | childExit pid st =>
    simp only [dstep, Option.some.injEq] at h
    have h1 : (reap s pid st).1 = s' := by rw [h]
    rcases reap_pend s pid st with ⟨h2, _⟩ | ⟨k, v, code, _, _, _, h2, _⟩
    · rw [← h1, h2]; exact Or.inl rfl
    · rw [← h1, h2]
      by_cases hik : i = k
      · subst hik; right; left; simp only [put_same]
      · left; simp only [put_other _ _ hik]
  | clientMsg fd type domain port buf w =>
    simp only [dstep, Option.some.injEq] at h
    left
    rcases cmdline_cases c s fd type domain port buf w with ⟨h1, _⟩ | ⟨_, _, s1, hm, hcase⟩
    · rw [h1] at h; cases h; rfl
    · have hm' : (s1.pend i).pid = (s.pend i).pid := by
        rcases hm with ⟨_, k, _, rfl⟩ | ⟨_, rfl⟩
        · by_cases hik : i = k
          · subst hik; simp only [put_same]
          · simp only [put_other _ _ hik]
        · rfl
      rw [← hm']
      rcases hcase with ⟨_, _, h1⟩ | ⟨_, _, h1⟩ | ⟨_, j, ha, hw, h1⟩ | ⟨_, j, ha, hw, h1⟩ | ⟨_, _, _, h1⟩ <;>
      · rw [h1] at h; cases h; rfl

/-- How a step changes the bound of the slots in use. -/
theorem pendCount_step {c : DConf} {s s' : DState} {e : DEv} {o : List DOut}
    (h : dstep c s e = some (s', o)) (i : Nat) (hi : i < maxClients) (hi' : i < s.pendCount)
    (hp : (s'.pend i).pid ≠ 0) : i < s'.pendCount := by
  cases e with
  | newClient fd hello =>
    simp only [dstep] at h
    split_ifs at h <;> cases h <;> exact hi'
  | clientHello fd ok =>
    simp only [dstep] at h
    split_ifs at h <;> cases h <;> exact hi'
  | clientGone fd => cases h; exact hi'
  | badTrigger ident => cases h; exact hi'
  | terminated domain port =>
    simp only [dstep] at h
    split at h
    · cases h
    · simp only [Option.some.injEq] at h
      obtain ⟨_, _, h2⟩ := releasePort_out [] s (port - baseDataPort) (asInt domain)
      rw [h] at h2
      rw [h2]; exact hi'
  | restart =>
    simp only [dstep, Option.some.injEq] at h
    unfold agentRestart at h
    generalize terminateAll s maxClients = r at h
    obtain ⟨r1, r2⟩ := r
    simp only [Prod.mk.injEq] at h
    obtain ⟨rfl, rfl⟩ := h
    simp only [if_pos hi] at hp
    exact absurd rfl hp
  | trigger ident pid =>
    simp only [dstep, Option.some.injEq] at h
    unfold executeService at h
    cases hs : findSlot s with
    | none => rw [hs] at h; cases h; exact hi'
    | some k => rw [hs] at h; cases h; simp only; omega
  | childExit pid st =>
    simp only [dstep, Option.some.injEq] at h
    have h1 : (reap s pid st).1 = s' := by rw [h]
    rcases reap_pend s pid st with ⟨h2, _⟩ | ⟨k, v, code, _, _, _, h2, h3, _⟩
    · rw [← h1, h2]; exact hi'
    · rw [← h1, h2] at hp
      rw [← h1, h3]
      by_contra hcon
      exact hp ((shrink_spec _ s.pendCount).2 i (by omega) hi')
  | clientMsg fd type domain port buf w =>
    simp only [dstep, Option.some.injEq] at h
    rcases cmdline_cases c s fd type domain port buf w with ⟨h1, _⟩ | ⟨_, _, s1, hm, hcase⟩
    · rw [h1] at h; cases h; exact hi'
    · rw [← hm.ports.2.2.2] at hi'
      rcases hcase with ⟨_, _, h1⟩ | ⟨_, _, h1⟩ | ⟨_, j, ha, hw, h1⟩ | ⟨_, j, ha, hw, h1⟩ | ⟨_, _, _, h1⟩ <;>
      · rw [h1] at h; cases h; exact hi'

theorem slots_run {c : DConf} {h : History} {s : DState} (hr : DRun c h s) :
    (∀ i < maxClients, (s.pend i).pid ≠ 0 → i < s.pendCount) ∧
    ∀ pid, pid ≠ 0 → NoReuse pid h →
      (alive pid h = false → ∀ i < maxClients, (s.pend i).pid ≠ pid) ∧
      ∀ i j, i < maxClients → j < maxClients → (s.pend i).pid = pid → (s.pend j).pid = pid → i = j := by
  induction hr with
  | start =>
    refine ⟨fun i _ hi => absurd rfl hi, fun pid hp _ => ⟨fun _ i _ h => hp h.symm, fun i j _ _ h => absurd h.symm hp⟩⟩
  | @step tr s s' e o hrun hposs hstep ih =>
    obtain ⟨ih1, ih2⟩ := ih
    refine ⟨fun i hi hp => ?_, fun pid hpid hre => ?_⟩
    · rcases pid_step hstep i with h1 | h1 | ⟨ident, p, rfl, _, hf⟩
      · exact pendCount_step hstep i hi (ih1 i hi (by rw [← h1]; exact hp)) hp
      · exact absurd h1 hp
      · simp only [dstep, executeService, hf, Option.some.injEq, Prod.mk.injEq] at hstep
        obtain ⟨rfl, _⟩ := hstep
        simp only; omega
    · have hre' : NoReuse pid tr := fun pre i o' post hh => hre pre i o' (post ++ [(e, o)]) (by rw [hh]; simp)
      obtain ⟨a1, a2⟩ := ih2 pid hpid hre'
      have hnew : ∀ ident, e = .trigger ident pid → alive pid tr = false := by
        rintro ident rfl
        exact hre tr ident o [] rfl
      have hcase : ∀ i, (s'.pend i).pid = pid → (s.pend i).pid = pid ∨
          (∃ ident, e = .trigger ident pid) ∧ findSlot s = some i := by
        intro i hi
        rcases pid_step hstep i with h1 | h1 | ⟨ident, p, h1, h2, hf⟩
        · left; rw [← h1]; exact hi
        · rw [h1] at hi; exact absurd hi.symm hpid
        · right
          rw [h2] at hi; subst hi
          exact ⟨⟨ident, h1⟩, hf⟩
      refine ⟨fun hal i hi hpi => ?_, fun i j hi hj hpi hpj => ?_⟩
      · rw [alive_snoc] at hal
        rcases hcase i hpi with h1 | ⟨⟨ident, rfl⟩, _⟩
        · by_cases hold : alive pid tr = false
          · exact a1 hold i hi h1
          · simp only [Bool.not_eq_false] at hold
            cases e with
            | restart =>
              simp only [dstep, Option.some.injEq] at hstep
              unfold agentRestart at hstep
              generalize terminateAll s maxClients = r at hstep
              obtain ⟨r1, r2⟩ := r
              simp only [Prod.mk.injEq] at hstep
              obtain ⟨rfl, rfl⟩ := hstep
              simp only [if_pos hi] at hpi
              exact hpid hpi.symm
            | childExit p st =>
              cases st with
              | none => simp only [hold] at hal; cases hal
              | some code =>
                simp only [hold, Bool.true_and, bne_eq_false_iff_eq] at hal
                subst hal
                simp only [dstep, Option.some.injEq] at hstep
                have h2 : (reap s p (some code)).1 = s' := by rw [hstep]
                rcases reap_pend s p (some code) with ⟨_, h3⟩ | ⟨k, v, _, _, hk, hkp, h3, _⟩
                · rcases h3 with h3 | h3
                  · cases h3
                  · exact h3 i (ih1 i hi (by rw [h1]; exact hpid)) h1
                · by_cases hik : i = k
                  · rw [← h2, h3, hik, put_same] at hpi
                    exact hpid hpi.symm
                  · have hkm : k < maxClients := Nat.lt_of_lt_of_le hk (waiting_run hrun).1
                    exact hik (a2 i k hi hkm h1 hkp)
            | trigger ident p => simp only [hold, Bool.true_or] at hal; cases hal
            | newClient _ _ => simp only [hold] at hal; cases hal
            | clientHello _ _ => simp only [hold] at hal; cases hal
            | clientMsg _ _ _ _ _ _ => simp only [hold] at hal; cases hal
            | clientGone _ => simp only [hold] at hal; cases hal
            | badTrigger _ => simp only [hold] at hal; cases hal
            | terminated _ _ => simp only [hold] at hal; cases hal
        · simp at hal
      · rcases hcase i hpi with h1 | ⟨⟨x, hx⟩, h1⟩
        · rcases hcase j hpj with h2 | ⟨⟨y, hy⟩, h2⟩
          · exact a2 i j hi hj h1 h2
          · exact absurd h1 (a1 (hnew y hy) i hi)
        · rcases hcase j hpj with h2 | ⟨⟨y, hy⟩, h2⟩
          · exact absurd h2 (a1 (hnew x hx) j hj)
          · rw [h1] at h2; exact Option.some.inj h2

/-- The request waits in a slot. -/
def Waits (s : DState) (x : Str) (pid : Nat) : Prop :=
  ∃ k < maxClients, s.pend k = ⟨pid, x, .pending⟩

theorem waits_step {c : DConf} {s s' : DState} {e : DEv} {o : List DOut} {x : Str} {pid : Nat}
    (hpid : pid ≠ 0) (hc : ∀ i < maxClients, (s.pend i).pid ≠ 0 → i < s.pendCount)
    (h : dstep c s e = some (s', o)) (hw : Waits s x pid)
    (hr : e ≠ .restart) (hx : ∀ code, e ≠ .childExit pid (some code))
    (hconn : Connects x e → HasPort (e, o)) :
    Waits s' x pid ∧ ¬ Connects x e ∨ Connects x e ∧ 1 ≤ answersIn x o := by
  obtain ⟨k, hk, hkp⟩ := hw
  have hkc := hc k hk (by rw [hkp]; exact hpid)
  have same : ∀ {t : DState}, t.pend = s.pend → Waits t x pid := fun h1 => ⟨k, hk, by rw [h1]; exact hkp⟩
  have noc : (∀ fd ty d p b w, e ≠ .clientMsg fd ty d p b w) → ¬ Connects x e := by
    rintro hno ⟨fd, d, p, b, w, rfl, _⟩
    exact hno _ _ _ _ _ _ rfl
  cases e with
  | newClient fd hello =>
    left
    simp only [dstep] at h
    refine ⟨?_, noc (by simp)⟩
    split_ifs at h <;> cases h <;> exact same rfl
  | clientHello fd ok =>
    left
    simp only [dstep] at h
    refine ⟨?_, noc (by simp)⟩
    split_ifs at h <;> cases h <;> exact same rfl
  | clientGone fd => left; refine ⟨?_, noc (by simp)⟩; cases h; exact same rfl
  | badTrigger ident => left; refine ⟨?_, noc (by simp)⟩; cases h; exact same rfl
  | terminated domain port =>
    left
    refine ⟨?_, noc (by simp)⟩
    simp only [dstep] at h
    split at h
    · cases h
    · simp only [Option.some.injEq] at h
      obtain ⟨_, h2, _⟩ := releasePort_out [] s (port - baseDataPort) (asInt domain)
      rw [h] at h2
      exact same h2
  | restart => exact absurd rfl hr
  | trigger ident p =>
    left
    refine ⟨?_, noc (by simp)⟩
    simp only [dstep, Option.some.injEq] at h
    unfold executeService at h
    cases hs : findSlot s with
    | none => rw [hs] at h; cases h; exact same rfl
    | some j =>
      rw [hs] at h; cases h
      refine ⟨k, hk, ?_⟩
      have : k ≠ j := by
        rintro rfl
        have := (findSlot_some hs).2
        rw [hkp] at this; exact hpid this
      simp only [put_other _ _ this, hkp]
  | childExit p st =>
    left
    refine ⟨?_, noc (by simp)⟩
    simp only [dstep, Option.some.injEq] at h
    have h1 : (reap s p st).1 = s' := by rw [h]
    rcases reap_pend s p st with ⟨h2, _⟩ | ⟨j, v, code, hst, _, hj, h2, _⟩
    · rw [← h1, h2]; exact ⟨k, hk, hkp⟩
    · refine ⟨k, hk, ?_⟩
      have : k ≠ j := by
        rintro rfl
        rw [hkp] at hj
        simp only at hj
        exact hx code (by rw [hj, hst])
      rw [← h1, h2, put_other _ _ this, hkp]
  | clientMsg fd type domain port buf w =>
    simp only [dstep, Option.some.injEq] at h
    by_cases hcon : Connects x (.clientMsg fd type domain port buf w)
    · right
      have hp := hconn hcon
      refine ⟨hcon, ?_⟩
      obtain ⟨_, _, _, _, _, he, g1, g2, g3, g4⟩ := hcon
      cases he
      have hfind : findPending s (cString buf) ≠ none := by
        intro hnone
        have := findPending_none hnone k hkc
        rw [hkp] at this
        have hcs : cString buf = x := g4
        rw [hcs] at this
        simp [waits, hpid] at this
      have hans : ∀ q, 1 ≤ answersIn x [forwardMsg c msgConnect domain q buf] := by
        intro q
        have : isAnswer x (forwardMsg c msgConnect domain q buf) = true := by
          rw [isAnswer_forward]
          have hcs : cString buf = x := g4
          simp [hcs]
        simp [answersIn, List.filter_cons, this]
      rcases cmdline_cases c s fd msgConnect domain port buf w with ⟨_, h1⟩ | ⟨_, _, s1, hm, hcase⟩
      · exact absurd ⟨Or.inr (Or.inr rfl), ⟨g1, by omega, g3⟩, fun _ => hfind⟩ h1
      · obtain ⟨_, _, _, _, _, _, he, hp⟩ := hp
        cases he
        have hb : baseDataPort = 513 := rfl
        have hm2 : maxClients = 256 := rfl
        have he2 : (cmdline c s fd msgConnect domain port buf w).2 = o := by
          show (cmdline c s fd 514 domain port buf w).2 = o
          rw [h]
        rcases hcase with ⟨p0, _, h1⟩ | ⟨p0, pr, h1⟩ | ⟨_, j, ha, hw, h1⟩ | ⟨p0, j, ha, hw, h1⟩ | ⟨_, _, _, h1⟩
        · rw [h1] at he2
          rcases hp with hp | ⟨q, hp⟩
          · omega
          · rw [← he2] at hp; simp [terminateClient] at hp
        · rw [h1] at he2
          rcases hp with hp | ⟨q, hp⟩
          · omega
          · rw [← he2] at hp; simp [terminateClient] at hp
        · rw [h1] at he2
          rw [← he2]
          exact hans _
        · rw [h1] at he2
          rcases hp with hp | ⟨q, hp⟩
          · omega
          · rw [← he2] at hp; simp at hp
        · rw [h1] at he2
          rw [← he2]
          exact hans _
    · left
      refine ⟨?_, hcon⟩
      rcases cmdline_cases c s fd type domain port buf w with ⟨h1, _⟩ | ⟨_, hg, s1, hm, hcase⟩
      · rw [h1] at h; cases h; exact same rfl
      · have hm' : s1.pend k = s.pend k := by
          rcases hm with ⟨ht, j, hj, rfl⟩ | ⟨_, rfl⟩
          · have hkj : k ≠ j := by
              rintro rfl
              have := (findPending_some hj).2
              rw [hkp] at this
              simp only [waits, Bool.and_eq_true, beq_iff_eq] at this
              refine hcon ⟨fd, domain, port, buf, w, by rw [ht]; rfl, hg.1, by have := hg.2.1; omega, hg.2.2, this.2.symm⟩
            simp only [put_other _ _ hkj]
          · rfl
        refine ⟨k, hk, ?_⟩
        rw [← hkp, ← hm']
        rcases hcase with ⟨_, _, h1⟩ | ⟨_, _, h1⟩ | ⟨_, j, ha, hw, h1⟩ | ⟨_, j, ha, hw, h1⟩ | ⟨_, _, _, h1⟩ <;>
        · rw [h1] at h; cases h; rfl

theorem answers_append (x : Str) (a b : History) : answers x (a ++ b) = answers x a + answers x b := by
  simp [answers]

theorem requests_append (x : Str) (a b : History) : requests x (a ++ b) = requests x a + requests x b := by
  simp [requests]

theorem waits_keep {c : DConf} {s s' : DState} {e : DEv} {o : List DOut} {x : Str} {pid : Nat}
    (hpid : pid ≠ 0) (hc : ∀ i < maxClients, (s.pend i).pid ≠ 0 → i < s.pendCount)
    (h : dstep c s e = some (s', o)) (hw : Waits s x pid)
    (hr : e ≠ .restart) (hx : ∀ code, e ≠ .childExit pid (some code))
    (hconn : ¬ Connects x e) : Waits s' x pid := by
  rcases waits_step hpid hc h hw hr hx (fun h => absurd h hconn) with h1 | h1
  · exact h1.1
  · exact absurd h1.1 hconn

/-- From the request on, it waits until it is answered. -/
theorem waits_until {c : DConf} {pre : History} {x : Str} {pid : Nat} {o1 : List DOut} (hpid : pid ≠ 0) :
    ∀ (mid : History) (s : DState), DRun c (pre ++ (.trigger x pid, o1) :: mid) s →
    (∀ y ∈ mid, y.1 ≠ .restart ∧ ∀ code, y.1 ≠ .childExit pid (some code)) →
    (∀ y ∈ mid, Connects x y.1 → HasPort y) →
    Waits s x pid ∧ (∀ y ∈ mid, ¬ Connects x y.1) ∨ 1 ≤ answers x ((.trigger x pid, o1) :: mid) := by
  intro mid
  induction mid using List.reverseRecOn with
  | nil =>
    intro s hr _ _
    generalize hl : pre ++ [(DEv.trigger x pid, o1)] = l at hr
    cases hr with
    | start => simp at hl
    | @step tr s0 s' e o hrun hposs hstep =>
      obtain ⟨rfl, hx⟩ := List.append_inj' hl rfl
      simp only [List.cons.injEq, and_true, Prod.mk.injEq] at hx
      obtain ⟨rfl, rfl⟩ := hx
      simp only [dstep, Option.some.injEq] at hstep
      unfold executeService at hstep
      cases hs : findSlot s0 with
      | none =>
        right
        rw [hs] at hstep
        cases hstep
        simp [answers, isAnswer]
      | some k =>
        left
        rw [hs] at hstep
        cases hstep
        exact ⟨⟨k, (findSlot_some hs).1, by simp only [put_same]⟩, by simp⟩
  | append_singleton mid y ih =>
    intro s hr h1 h2
    generalize hl : pre ++ (DEv.trigger x pid, o1) :: (mid ++ [y]) = l at hr
    cases hr with
    | start => simp at hl
    | @step tr s0 s' e o hrun hposs hstep =>
      have hl' : (pre ++ (DEv.trigger x pid, o1) :: mid) ++ [y] = tr ++ [(e, o)] := by rw [← hl]; simp
      obtain ⟨rfl, hx⟩ := List.append_inj' hl' rfl
      simp only [List.cons.injEq, and_true] at hx
      subst hx
      have hcat : answers x ((DEv.trigger x pid, o1) :: (mid ++ [(e, o)])) =
          answers x ((DEv.trigger x pid, o1) :: mid) + answersIn x o := by
        rw [← answers_snoc x _ e]; rfl
      rcases ih s0 hrun (fun y hy => h1 y (by simp [hy])) (fun y hy => h2 y (by simp [hy])) with
        ⟨hw, hn⟩ | hans
      · have h1' := h1 (e, o) (by simp)
        rcases waits_step hpid (slots_run hrun).1 hstep hw h1'.1 h1'.2 (h2 (e, o) (by simp)) with
          ⟨w1, w2⟩ | ⟨_, w⟩
        · left
          refine ⟨w1, fun y hy => ?_⟩
          simp only [List.mem_append, List.mem_singleton] at hy
          rcases hy with hy | rfl
          · exact hn y hy
          · exact w2
        · right; omega
      · right; omega

/-- **C52.** Between the request and the exit of the child that decided on it, exactly one answer is
sent for it, provided the child exits normally, with a status other than zero unless a client
connected for the request; every client that connects for it names one of the data ports, or gets one;
the agent is not restarted meanwhile; no other request with the same identifier is open; and the
kernel does not reuse the number of a running child. -/
theorem C52_exactly_once_partial (c : DConf) (pre mid : History) (x : Str) (pid code : Nat)
    (o1 o2 : List DOut) (s : DState)
    (hr : DRun c (pre ++ (.trigger x pid, o1) :: mid ++ [(.childExit pid (some code), o2)]) s)
    (hre : NoReuse pid (pre ++ (.trigger x pid, o1) :: mid))
    (hopen : answers x pre = requests x pre) (hsame : requests x mid = 0)
    (hrestart : ∀ y ∈ mid, y.1 ≠ .restart ∧ ∀ code, y.1 ≠ .childExit pid (some code))
    (hport : ∀ y ∈ mid, Connects x y.1 → HasPort y)
    (hcode : code = 0 → ∃ y ∈ mid, Connects x y.1) :
    answers x ((.trigger x pid, o1) :: mid ++ [(.childExit pid (some code), o2)]) = 1 := by
  have hle := C52_at_most_once c _ s hr x
  generalize hl : pre ++ (DEv.trigger x pid, o1) :: mid ++ [(DEv.childExit pid (some code), o2)] = l at hr
  cases hr with
  | start => simp at hl
  | @step tr s0 s' e o hrun hposs hstep =>
    obtain ⟨rfl, hx⟩ := List.append_inj' hl rfl
    simp only [List.cons.injEq, and_true, Prod.mk.injEq] at hx
    obtain ⟨rfl, rfl⟩ := hx
    have hpid : pid ≠ 0 := by simpa [DEv.possible] using hposs
    have hcat : answers x ((DEv.trigger x pid, o1) :: mid ++ [(DEv.childExit pid (some code), o2)]) =
        answers x ((DEv.trigger x pid, o1) :: mid) + answersIn x o2 := answers_snoc x _ _ _
    have hle' : answers x ((DEv.trigger x pid, o1) :: mid ++ [(DEv.childExit pid (some code), o2)]) ≤ 1 := by
      have e1 : pre ++ (DEv.trigger x pid, o1) :: mid ++ [(DEv.childExit pid (some code), o2)] =
        pre ++ ((DEv.trigger x pid, o1) :: mid ++ [(DEv.childExit pid (some code), o2)]) := by simp
      rw [e1, answers_append, requests_append, hopen, requests_snoc] at hle
      have e2 : requests x ((DEv.trigger x pid, o1) :: mid) = 1 + requests x mid := by
        have := requests_append x [(DEv.trigger x pid, o1)] mid
        simpa [requests, isRequest] using this
      rw [e2, hsame] at hle
      simp only [isRequest, Bool.false_eq_true, if_false] at hle
      omega
    suffices 1 ≤ answers x ((DEv.trigger x pid, o1) :: mid ++ [(DEv.childExit pid (some code), o2)]) by omega
    rcases waits_until hpid mid s0 hrun hrestart hport with ⟨⟨k, hk, hkp⟩, hn⟩ | hans
    · have hc0 : code ≠ 0 := fun h0 => by
        obtain ⟨y, hy, hcon⟩ := hcode h0
        exact hn y hy hcon
      obtain ⟨hs1, hs2⟩ := slots_run hrun
      have huniq := (hs2 pid hpid hre).2
      simp only [dstep, Option.some.injEq] at hstep
      have h1 : (reap s0 pid (some code)).2 = o2 := by rw [hstep]
      have hkc := hs1 k hk (by rw [hkp]; exact hpid)
      rcases reap_pend s0 pid (some code) with ⟨_, h3⟩ | ⟨j, v, code', hcc, hj, hjp, _, _, h3⟩
      · rcases h3 with h3 | h3
        · cases h3
        · exact absurd (by rw [hkp]) (h3 k hkc)
      · cases hcc
        have hjm : j < maxClients := Nat.lt_of_lt_of_le hj (waiting_run hrun).1
        have : k = j := huniq k j hk hjm (by rw [hkp]) hjp
        subst this
        have := h3 hc0 (by rw [hkp])
        rw [hkp] at this
        simp only at this
        rw [hcat, ← h1, this, refused_answers]
        simp
    · omega

/-- **C52, the limit.** If the child is killed by a signal (or never exits), and no client connects for the
request, the request stays unanswered, whatever else happens, until the agent restarts. -/
theorem C52_killed_never_answered (c : DConf) (pre mid : History) (x : Str) (pid : Nat) (s : DState)
    (hpid : pid ≠ 0) (hr : DRun c (pre ++ (.trigger x pid, []) :: mid) s)
    (hmid : ∀ y ∈ mid, y.1 ≠ .restart ∧ (∀ code, y.1 ≠ .childExit pid (some code)) ∧ ¬ Connects x y.1) :
    answers x (pre ++ (.trigger x pid, []) :: mid) < requests x (pre ++ (.trigger x pid, []) :: mid) := by
  have hw : Waits s x pid := by
    clear * - hpid hr hmid
    induction mid using List.reverseRecOn generalizing s with
    | nil =>
      rcases waits_until hpid [] s hr (by simp) (by simp) with h | h
      · exact h.1
      · simp [answers] at h
    | append_singleton mid y ih =>
      generalize hl : pre ++ (DEv.trigger x pid, []) :: (mid ++ [y]) = l at hr
      cases hr with
      | start => simp at hl
      | @step tr s0 s' e o hrun hposs hstep =>
        have hl' : (pre ++ (DEv.trigger x pid, []) :: mid) ++ [y] = tr ++ [(e, o)] := by rw [← hl]; simp
        obtain ⟨rfl, hx⟩ := List.append_inj' hl' rfl
        simp only [List.cons.injEq, and_true] at hx
        subst hx
        have hw := ih s0 hrun (fun y hy => hmid y (by simp [hy]))
        obtain ⟨m1, m2, m3⟩ := hmid (e, o) (by simp)
        exact waits_keep hpid (slots_run hrun).1 hstep hw m1 m2 m3
  have := (waiting_run hr).2 x
  obtain ⟨k, hk, hkp⟩ := hw
  have h1 : 1 ≤ waiting x s := by
    unfold waiting
    rw [Nat.one_le_iff_ne_zero, Ne, List.length_eq_zero_iff, List.filter_eq_nil_iff]
    intro hall
    have := hall k (List.mem_range.2 hk)
    rw [hkp] at this
    simp [waits, hpid] at this
  omega

/-! ## Examples -/

/-- A refused request, and an allowed one for which the child connects. -/
def exRequests : List DEv :=
  [.trigger c!"SOCKET7" 100, .childExit 100 (some 1),
   .trigger c!"SOCKET8" 101, .newClient 5 true, .clientHello 5 true,
   .clientMsg 5 0x202 7 520 c!"SOCKET8\x00" true, .childExit 101 (some 0)]

example : (drive exConf DState.start exRequests).map (fun r => r.2.map Prod.snd) = some
    [[], [.refused c!"SOCKET7"], [], [], [], [.forward 0x202 16 7 520 c!"SOCKET8\x00"], []] := by decide

theorem alive_never (pid : Nat) (h : History) (hn : ∀ y ∈ h, ∀ i, y.1 ≠ .trigger i pid) :
    alive pid h = false := by
  induction h using List.reverseRecOn with
  | nil => rfl
  | append_singleton h y ih =>
    obtain ⟨e, o⟩ := y
    have ih := ih (fun y hy => hn y (by simp [hy]))
    rw [alive_snoc]
    split
    · rename_i i p
      have := hn (.trigger i p, o) (by simp) i
      simp only [ne_eq, DEv.trigger.injEq, true_and] at this
      simp [ih, this]
    · simp [ih]
    · rfl
    · exact ih

theorem noReuse_once (pid : Nat) (a b : History) (i : Str) (o : List DOut)
    (ha : ∀ y ∈ a, ∀ i, y.1 ≠ .trigger i pid) (hb : ∀ y ∈ b, ∀ i, y.1 ≠ .trigger i pid) :
    NoReuse pid (a ++ (.trigger i pid, o) :: b) := by
  intro pre j o' post hh
  rcases List.append_eq_append_iff.1 hh with ⟨m, rfl, h2⟩ | ⟨m, rfl, h2⟩
  · cases m with
    | nil => simpa using alive_never pid a ha
    | cons y m =>
      simp only [List.cons_append, List.cons.injEq] at h2
      exact absurd rfl (hb (.trigger j pid, o') (by rw [h2.2]; simp) j)
  · cases m with
    | nil => exact alive_never pid pre (by simpa using ha)
    | cons y m =>
      simp only [List.cons_append, List.cons.injEq] at h2
      exact absurd rfl (ha (.trigger j pid, o') (by rw [← h2.1]; simp) j)

/-- The hypotheses of `C52_exactly_once_partial` are met by the second request of `exRequests`. -/
example (s : DState) (h : History) (hd : drive exConf DState.start exRequests = some (s, h)) :
    answers c!"SOCKET8" (h.drop 2) = 1 := by
  have hh : h = [(.trigger c!"SOCKET7" 100, []), (.childExit 100 (some 1), [.refused c!"SOCKET7"])] ++
      (.trigger c!"SOCKET8" 101, []) :: [(.newClient 5 true, []), (.clientHello 5 true, []),
      (.clientMsg 5 0x202 7 520 c!"SOCKET8\x00" true, [.forward 0x202 16 7 520 c!"SOCKET8\x00"])] ++
      [(.childExit 101 (some 0), [])] := by
    have : (drive exConf DState.start exRequests).map Prod.snd = some h := by rw [hd]; rfl
    have h2 : (drive exConf DState.start exRequests).map Prod.snd = some (
      [(.trigger c!"SOCKET7" 100, []), (.childExit 100 (some 1), [.refused c!"SOCKET7"])] ++
      (.trigger c!"SOCKET8" 101, []) :: [(.newClient 5 true, []), (.clientHello 5 true, []),
      (.clientMsg 5 0x202 7 520 c!"SOCKET8\x00" true, [.forward 0x202 16 7 520 c!"SOCKET8\x00"])] ++
      [(.childExit 101 (some 0), [])]) := by decide
    rw [h2] at this
    exact (Option.some.inj this).symm
  have hrun := drive_run DRun.start hd
  subst hh
  refine C52_exactly_once_partial exConf _ _ c!"SOCKET8" 101 0 [] [] s hrun ?_ (by decide) (by decide) ?_ ?_ ?_
  · exact noReuse_once 101 _ _ _ _ (by simp) (by simp)
  · simp
  · intro y hy hcon
    simp only [List.mem_cons, List.not_mem_nil, or_false] at hy
    rcases hy with rfl | rfl | rfl
    · obtain ⟨_, _, _, _, _, h, _⟩ := hcon; cases h
    · obtain ⟨_, _, _, _, _, h, _⟩ := hcon; cases h
    · exact ⟨_, _, _, _, _, _, rfl, Or.inl (by omega)⟩
  · intro _
    exact ⟨(.clientMsg 5 0x202 7 520 c!"SOCKET8\x00" true, [.forward 0x202 16 7 520 c!"SOCKET8\x00"]), by simp, 5, 7, 520, c!"SOCKET8\x00", true, rfl, by decide, by decide, by decide, by decide⟩

/-- **C52, the limit.** A child that exits with status 0 before its connection was handled leaves the
request unanswered, and the connection is then refused. -/
theorem C52_exit_before_connect : (drive exConf DState.start
    [.trigger c!"SOCKET8" 101, .newClient 5 true, .clientHello 5 true, .childExit 101 (some 0),
     .clientMsg 5 0x202 7 520 c!"SOCKET8\x00" true]).map (fun r => r.2.map Prod.snd) = some
    [[], [], [], [], [.closed 5]] := by decide

/-- **C52, the limit.** A connection with a port out of range is not passed on, but the request counts
as answered: the refusal the child's exit status asks for is not sent. -/
theorem C52_bad_port : (drive exConf DState.start
    [.trigger c!"SOCKET8" 101, .newClient 5 true, .clientHello 5 true,
     .clientMsg 5 0x202 7 1000 c!"SOCKET8\x00" true, .childExit 101 (some 1)]).map
      (fun r => r.2.map Prod.snd) = some
    [[], [], [], [.closed 5], []] := by decide

/-- **C52, bad requests.** A request that is not evaluated (C53) is refused at once. -/
theorem C52_bad_refused (c : DConf) (h : History) (s : DState) (hr : DRun c h s) (ident : Str) (o : List DOut)
    (hx : (.badTrigger ident, o) ∈ h) : o = [.refused ident] := by
  induction hr with
  | start => cases hx
  | step hr' _ hs ih =>
    rcases List.mem_append.1 hx with hx | hx
    · exact ih hx
    · rw [List.mem_singleton] at hx
      cases hx
      cases hs
      rfl

set_option maxRecDepth 20000 in
/-- **C52, the limit.** Identifiers are all that connects a client with a request: after a restart of the
agent, the child of an old request answers a new one with the same identifier. -/
theorem C52_stale_child : (drive exConf DState.start
    [.trigger c!"SOCKET8" 101, .restart, .trigger c!"SOCKET8" 102, .newClient 5 true,
     .clientHello 5 true, .clientMsg 5 0x202 7 520 c!"SOCKET8\x00" true,
     .childExit 102 (some 1)]).map (fun r => r.2.map Prod.snd) = some
    [[], [], [], [], [], [.forward 0x202 16 7 520 c!"SOCKET8\x00"], []] := by decide

end Qrexec
