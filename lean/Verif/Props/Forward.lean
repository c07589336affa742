import Verif.Props.Answered

/-! # C60: what the daemon passes on to the agent -/
namespace Qrexec
open Spec

/-- The text of a message for the agent: the client's, with the user `DEFAULT` of a command replaced. -/
def sentText (defaultUser : Str) (type : Nat) (buf : Wire) : Wire :=
  if type ≠ 0x202 ∧ c!"DEFAULT:" <+: buf then defaultUser ++ c!":" ++ buf.drop 8 else buf

theorem startsWith_prefix : ∀ (p x : Str), startsWith p x = true ↔ p <+: x := by
  intro p
  induction p with
  | nil => intro x; simp [startsWith]
  | cons a p ih =>
    intro x
    cases x with
    | nil => simp [startsWith]
    | cons b x =>
      have := ih x
      simp [startsWith] at this ⊢

theorem forward_eq (c : DConf) (type domain port : Nat) (buf : Wire) :
    forwardMsg c type domain port buf = .forward type (8 + (sentText c.defaultUser type buf).length)
      domain port (sentText c.defaultUser type buf) := by
  unfold forwardMsg sentText
  by_cases h : (type != msgConnect && startsWith c!"DEFAULT:" buf) = true
  · have h' : type ≠ 0x202 ∧ c!"DEFAULT:" <+: buf := by
      simp only [Bool.and_eq_true, bne_iff_ne, ne_eq, startsWith_prefix] at h
      exact h
    rw [if_pos h']
    simp only [h, if_true]
    obtain ⟨rest, hr⟩ := h'.2
    have e1 : buf.drop 7 = c!":" ++ buf.drop 8 := by rw [← hr]; rfl
    have e2 : buf.length = 8 + (buf.drop 8).length := by rw [← hr]; simp; omega
    rw [e1, e2]
    simp only [List.length_append, ← List.append_assoc]
    congr 1
    simp only [List.length_cons, List.length_nil]
    omega
  · have h' : ¬ (type ≠ 0x202 ∧ c!"DEFAULT:" <+: buf) := by
      simp only [Bool.and_eq_true, bne_iff_ne, ne_eq, startsWith_prefix] at h
      exact h
    rw [if_neg h']
    simp only [h, Bool.false_eq_true, if_false]

/-- **C60.** Whatever is passed on to the agent comes from one message of one client in the state for it,
is of one of the three kinds, carries the domain the client gave, one of the 256 data ports (the
client's, if it gave one), and the client's text, in which only a leading `DEFAULT:` of a command is
replaced by the user the daemon was started with; the length in the header is that of what follows;
the text is not empty and ends with a NUL. -/
theorem C60_forward (c : DConf) (h : History) (s : DState) (hr : DRun c h s)
    (e : DEv) (o : List DOut) (he : (e, o) ∈ h)
    (type len domain port : Nat) (text : Wire) (ho : DOut.forward type len domain port text ∈ o) :
    ∃ fd p buf w, e = .clientMsg fd type domain p buf w ∧
      (type = 0x200 ∨ type = 0x201 ∨ type = 0x202) ∧
      buf ≠ [] ∧ buf.length ≤ 65527 ∧ buf.getLast? = some '\x00' ∧
      text = sentText c.defaultUser type buf ∧ len = 8 + text.length ∧
      513 ≤ port ∧ port < 769 ∧ (p ≠ 0 → port = p) ∧ (p = 0 → DOut.portReply fd port ∈ o) ∧
      o.length ≤ 2 := by
  obtain ⟨pre, post, hh⟩ := List.append_of_mem he
  obtain ⟨s0, s1, _, _, hs⟩ := run_split hr pre _ post hh
  simp only at hs
  cases e with
  | newClient fd hello =>
    simp only [dstep] at hs
    split_ifs at hs <;> cases hs <;> simp at ho
  | clientHello fd ok =>
    simp only [dstep] at hs
    split_ifs at hs <;> cases hs <;> simp at ho
  | clientGone fd => cases hs; simp at ho
  | badTrigger i => cases hs; simp at ho
  | trigger i pid =>
    simp only [dstep, executeService, Option.some.injEq] at hs
    split at hs <;> cases hs <;> simp at ho
  | childExit pid st =>
    simp only [dstep, Option.some.injEq] at hs
    have : ∀ y ∈ (reap s0 pid st).2, ∃ i, y = DOut.refused i := by
      unfold reap
      intro y hy
      split at hy
      · simp at hy
      · split at hy
        · simp at hy
        · simp only at hy
          split_ifs at hy
          · simp at hy
          · simp only [List.mem_singleton] at hy; exact ⟨_, hy⟩
          · simp at hy
    rw [hs] at this
    obtain ⟨i, hi⟩ := this _ ho
    cases hi
  | terminated d p =>
    simp only [dstep] at hs
    split at hs
    · cases hs
    · simp only [Option.some.injEq] at hs
      unfold releasePort at hs
      split at hs
      · simp only at hs
        split at hs <;> cases hs <;> simp at ho
      · cases hs; simp at ho
  | restart =>
    exfalso
    have key : ∀ n, ∀ y ∈ (terminateAll s0 n).2, ∃ fd, y = DOut.closed fd := by
      intro n
      induction n with
      | zero => intro y hy; cases hy
      | succ n ih =>
        rw [terminateAll]
        split
        rename_i s2 o2 he2
        rw [he2] at ih
        split
        · intro y hy
          simp only [terminateClient, List.mem_append, List.mem_singleton] at hy
          rcases hy with hy | hy
          · exact ih y hy
          · exact ⟨_, hy⟩
        · exact ih
    have key := key maxClients
    simp only [dstep, Option.some.injEq] at hs
    unfold agentRestart at hs
    generalize terminateAll s0 maxClients = r at hs key
    obtain ⟨r1, r2⟩ := r
    simp only [Prod.mk.injEq] at hs
    obtain ⟨_, rfl⟩ := hs
    obtain ⟨fd, hfd⟩ := key _ ho
    cases hfd
  | clientMsg fd ty d p buf w =>
    simp only [dstep, Option.some.injEq] at hs
    rcases cmdline_cases c s0 fd ty d p buf w with ⟨h1, _⟩ | ⟨hty, ⟨g1, g2, g3⟩, s2, hm, hcase⟩
    · rw [h1] at hs; cases hs; simp at ho
    · have hfw : ∀ q, DOut.forward type len domain port text = forwardMsg c ty d q buf →
          type = ty ∧ domain = d ∧ port = q ∧ text = sentText c.defaultUser ty buf ∧ len = 8 + text.length := by
        intro q hq
        rw [forward_eq] at hq
        cases hq
        exact ⟨rfl, rfl, rfl, rfl, rfl⟩
      have hb : baseDataPort = 513 := rfl
      have hmx : maxClients = 256 := rfl
      rcases hcase with ⟨_, _, h1⟩ | ⟨_, _, h1⟩ | ⟨p0, j, ha, hw, h1⟩ | ⟨_, j, ha, hw, h1⟩ | ⟨p0, r1, r2, h1⟩
      · rw [h1] at hs; cases hs; simp at ho
      · rw [h1] at hs; cases hs; simp at ho
      · rw [h1] at hs
        simp only [Prod.mk.injEq] at hs
        obtain ⟨_, rfl⟩ := hs
        simp only [List.mem_cons, List.not_mem_nil, or_false, reduceCtorEq, false_or] at ho
        obtain ⟨rfl, rfl, hp, ht, hl⟩ := hfw _ ho
        have := (allocatePort_some ha).1
        exact ⟨fd, p, buf, w, rfl, hty, g1, by omega, g3, ht, hl, by omega, by omega, fun hne => absurd p0 hne,
          fun _ => by rw [hp]; simp, by simp⟩
      · rw [h1] at hs; cases hs; simp at ho
      · rw [h1] at hs
        simp only [Prod.mk.injEq] at hs
        obtain ⟨_, rfl⟩ := hs
        simp only [List.mem_cons, List.not_mem_nil, or_false] at ho
        obtain ⟨rfl, rfl, hp, ht, hl⟩ := hfw _ ho
        exact ⟨fd, p, buf, w, rfl, hty, g1, by omega, g3, ht, hl, by omega, by omega, fun _ => hp,
          fun h0 => absurd h0 p0, by simp⟩

theorem terminate_clients (s : DState) (fd g : Nat) :
    (terminateClient s fd).1.clients g = s.clients g ∨ (terminateClient s fd).1.clients g = .invalid := by
  unfold terminateClient
  by_cases h : g = fd
  · right; rw [h]; simp only [put_same]
  · left; simp only [put_other _ _ h]

theorem terminateAll_clients (s : DState) (g : Nat) : ∀ n,
    (terminateAll s n).1.clients g = s.clients g ∨ (terminateAll s n).1.clients g = .invalid := by
  intro n
  induction n with
  | zero => exact Or.inl rfl
  | succ n ih =>
    rw [terminateAll]
    split
    rename_i s2 o2 he2
    rw [he2] at ih
    split
    · rcases terminate_clients s2 n g with h | h
      · rcases ih with ih | ih
        · left; simp only at ih ⊢; rw [h, ih]
        · right; simp only at ih ⊢; rw [h, ih]
      · right; exact h
    · exact ih

/-- How a step changes the state of a client. -/
theorem clients_step {c : DConf} {s s' : DState} {e : DEv} {o : List DOut}
    (h : dstep c s e = some (s', o)) (g : Nat) :
    s'.clients g = s.clients g ∨ s'.clients g = .invalid ∨ (∃ ok, e = .newClient g ok) ∨
      (∃ ok, e = .clientHello g ok) ∨
      (∃ t d p b w, e = .clientMsg g t d p b w) ∧ s'.clients g = .running := by
  cases e with
  | newClient fd hello =>
    by_cases hg : g = fd
    · subst hg; right; right; left; exact ⟨hello, rfl⟩
    · simp only [dstep] at h
      split_ifs at h <;> cases h <;> left <;> simp only [put_other _ _ hg]
  | clientHello fd ok =>
    by_cases hg : g = fd
    · subst hg; right; right; right; left; exact ⟨ok, rfl⟩
    · simp only [dstep] at h
      split_ifs at h
      · cases h; left; simp only [put_other _ _ hg]
      · cases h
        rcases terminate_clients s fd g with h | h
        · exact Or.inl h
        · exact Or.inr (Or.inl h)
  | clientGone fd =>
    cases h
    rcases terminate_clients s fd g with h | h
    · exact Or.inl h
    · exact Or.inr (Or.inl h)
  | badTrigger i => cases h; exact Or.inl rfl
  | trigger i pid =>
    simp only [dstep, executeService, Option.some.injEq] at h
    split at h <;> cases h <;> exact Or.inl rfl
  | childExit pid st =>
    simp only [dstep, Option.some.injEq] at h
    left
    have : (reap s pid st).1.clients = s.clients := by
      unfold reap
      split
      · rfl
      · split <;> rfl
    rw [h] at this; rw [this]
  | terminated d p =>
    simp only [dstep] at h
    split at h
    · cases h
    · simp only [Option.some.injEq] at h
      unfold releasePort at h
      split at h
      · simp only at h
        split at h
        · have := terminate_clients { s with ports := put s.ports (p - baseDataPort) (-1) }
            (s.notify (p - baseDataPort)).toNat g
          rw [h] at this
          rcases this with h | h
          · exact Or.inl h
          · exact Or.inr (Or.inl h)
        · cases h; exact Or.inl rfl
      · cases h; exact Or.inl rfl
  | restart =>
    have := terminateAll_clients s g maxClients
    simp only [dstep, Option.some.injEq] at h
    unfold agentRestart at h
    generalize terminateAll s maxClients = r at h this
    obtain ⟨r1, r2⟩ := r
    simp only [Prod.mk.injEq] at h
    obtain ⟨rfl, rfl⟩ := h
    rcases this with h | h
    · exact Or.inl h
    · exact Or.inr (Or.inl h)
  | clientMsg fd ty d p buf w =>
    simp only [dstep, Option.some.injEq] at h
    have fin : ∀ (t : DState), t.clients = s.clients → ∀ {t'}, t' = put t.clients fd ClientState.running →
        s'.clients = t' → s'.clients g = s.clients g ∨ s'.clients g = .invalid ∨
        (∃ ok, DEv.clientMsg fd ty d p buf w = .newClient g ok) ∨
        (∃ ok, DEv.clientMsg fd ty d p buf w = .clientHello g ok) ∨
        (∃ t d' p' b w', DEv.clientMsg fd ty d p buf w = .clientMsg g t d' p' b w') ∧
          s'.clients g = .running := by
      intro t ht t' ht' hs'
      by_cases hg : g = fd
      · subst hg
        right; right; right; right
        exact ⟨⟨_, _, _, _, _, rfl⟩, by rw [hs', ht', put_same]⟩
      · left; rw [hs', ht', put_other _ _ hg, ht]
    have inv : ∀ t : DState, t.clients = s.clients → s'.clients = put t.clients fd ClientState.invalid →
        s'.clients g = s.clients g ∨ s'.clients g = .invalid := by
      intro t ht hs'
      by_cases hg : g = fd
      · right; rw [hs', hg, put_same]
      · left; rw [hs', put_other _ _ hg, ht]
    rcases cmdline_cases c s fd ty d p buf w with ⟨h1, _⟩ | ⟨hty, ⟨g1, g2, g3⟩, s2, hm, hcase⟩
    · rw [h1] at h; cases h
      rcases terminate_clients s fd g with h | h
      · exact Or.inl h
      · exact Or.inr (Or.inl h)
    · rcases hcase with ⟨_, _, h1⟩ | ⟨_, _, h1⟩ | ⟨p0, j, ha, hw, h1⟩ | ⟨_, j, ha, hw, h1⟩ | ⟨p0, r1, r2, h1⟩
      · rw [h1] at h
        have := inv s2 hm.ports.2.2.1 (by cases h; rfl)
        tauto
      · rw [h1] at h
        have := inv s2 hm.ports.2.2.1 (by cases h; rfl)
        tauto
      · rw [h1] at h
        exact fin s2 hm.ports.2.2.1 rfl (by cases h; rfl)
      · rw [h1] at h
        have := inv s2 hm.ports.2.2.1 (by cases h; rfl)
        tauto
      · rw [h1] at h
        exact fin s2 hm.ports.2.2.1 rfl (by cases h; rfl)

/-- After its message, a client can send no more. -/
theorem msg_clients {c : DConf} {s s' : DState} {fd ty d p : Nat} {buf : Wire} {w : Bool} {o : List DOut}
    (h : dstep c s (.clientMsg fd ty d p buf w) = some (s', o)) :
    s'.clients fd = .invalid ∨ s'.clients fd = .running := by
  simp only [dstep, Option.some.injEq] at h
  rcases cmdline_cases c s fd ty d p buf w with ⟨h1, _⟩ | ⟨hty, ⟨g1, g2, g3⟩, s2, hm, hcase⟩
  · rw [h1] at h; cases h; left; simp only [put_same]
  · rcases hcase with ⟨_, _, h1⟩ | ⟨_, _, h1⟩ | ⟨p0, j, ha, hw, h1⟩ | ⟨_, j, ha, hw, h1⟩ | ⟨p0, r1, r2, h1⟩
    · rw [h1] at h; cases h; left; simp only [put_same]
    · rw [h1] at h; cases h; left; simp only [put_same]
    · rw [h1] at h; cases h; right; simp only [put_same]
    · rw [h1] at h; cases h; left; simp only [put_same]
    · rw [h1] at h; cases h; right; simp only [put_same]

theorem quiet_run {c : DConf} {fd type domain port : Nat} {buf : Wire} {w : Bool} {o : List DOut}
    {pre : History} : ∀ (post : History) (s : DState),
    DRun c (pre ++ (.clientMsg fd type domain port buf w, o) :: post) s →
    (∀ y ∈ post, ∀ ok, y.1 ≠ .newClient fd ok) →
    s.clients fd = .invalid ∨ s.clients fd = .running := by
  intro post
  induction post using List.reverseRecOn with
  | nil =>
    intro s hr _
    generalize hl : pre ++ [(DEv.clientMsg fd type domain port buf w, o)] = l at hr
    cases hr with
    | start => simp at hl
    | @step tr s0 s' e o hrun hposs hstep =>
      obtain ⟨rfl, hx⟩ := List.append_inj' hl rfl
      simp only [List.cons.injEq, and_true, Prod.mk.injEq] at hx
      obtain ⟨rfl, rfl⟩ := hx
      exact msg_clients hstep
  | append_singleton post y ih =>
    intro s hr hn
    generalize hl : pre ++ (DEv.clientMsg fd type domain port buf w, o) :: (post ++ [y]) = l at hr
    cases hr with
    | start => simp at hl
    | @step tr s0 s' e o' hrun hposs hstep =>
      have hl' : (pre ++ (DEv.clientMsg fd type domain port buf w, o) :: post) ++ [y] = tr ++ [(e, o')] := by
        rw [← hl]; simp
      obtain ⟨rfl, hx⟩ := List.append_inj' hl' rfl
      simp only [List.cons.injEq, and_true] at hx
      subst hx
      have := ih s0 hrun (fun y hy => hn y (by simp [hy]))
      rcases clients_step hstep fd with h | h | ⟨ok, h⟩ | ⟨ok, h⟩ | ⟨_, h⟩
      · rw [h]; exact this
      · exact Or.inl h
      · exact absurd h (hn (e, o') (by simp) ok)
      · subst h
        simp only [DEv.possible, beq_iff_eq] at hposs
        rw [hposs] at this
        rcases this with h | h <;> cases h
      · exact Or.inr h

/-- **C60.** A connection gets at most one command through: after one was read from it, another is
read from a connection with the same number only after a new one was accepted. -/
theorem C60_once (c : DConf) (h : History) (s : DState) (hr : DRun c h s)
    (fd type domain port : Nat) (buf : Wire) (w : Bool) (o : List DOut) (pre mid post : History)
    (type' domain' port' : Nat) (buf' : Wire) (w' : Bool) (o' : List DOut)
    (hh : h = pre ++ (.clientMsg fd type domain port buf w, o) :: mid ++
      (.clientMsg fd type' domain' port' buf' w', o') :: post) :
    ∃ y ∈ mid, ∃ ok, y.1 = .newClient fd ok := by
  by_contra hcon
  obtain ⟨s0, s1, hr0, hp, _⟩ := run_split hr _ _ post hh
  have := quiet_run mid s0 hr0 (fun y hy ok he => hcon ⟨y, hy, ok, he⟩)
  simp only [DEv.possible, beq_iff_eq] at hp
  rw [hp] at this
  rcases this with h | h <;> cases h

/-- The event concerns the client `fd`'s protocol. -/
def Speaks (fd : Nat) (e : DEv) : Prop :=
  (∃ ok, e = .newClient fd ok) ∨ (∃ ok, e = .clientHello fd ok) ∨ ∃ t d p b w, e = .clientMsg fd t d p b w

theorem greet_run {c : DConf} {fd : Nat} {h : History} {s : DState} (hr : DRun c h s) :
    (s.clients fd = .hello → ∃ a o b, h = a ++ (.newClient fd true, o) :: b ∧ ∀ y ∈ b, ¬ Speaks fd y.1) ∧
    (s.clients fd = .cmdline → ∃ a o b o' d,
      h = a ++ (.newClient fd true, o) :: b ++ (.clientHello fd true, o') :: d ∧
        ∀ y ∈ b ++ d, ¬ Speaks fd y.1) := by
  induction hr with
  | start => exact ⟨fun h => by simp [DState.start] at h, fun h => by simp [DState.start] at h⟩
  | @step tr s s' e o hrun hposs hstep ih =>
    obtain ⟨ih1, ih2⟩ := ih
    by_cases hsp : Speaks fd e
    · rcases hsp with ⟨ok, rfl⟩ | ⟨ok, rfl⟩ | ⟨t, d, p, b, w, rfl⟩
      · simp only [dstep] at hstep
        split_ifs at hstep with h1 h2
        · cases hstep
          refine ⟨fun _ => ⟨tr, [], [], by rw [h2], by simp⟩, fun h => ?_⟩
          simp only [put_same] at h; cases h
        · cases hstep
          refine ⟨fun h => ?_, fun h => ?_⟩ <;> · simp only [put_same] at h; cases h
      · simp only [DEv.possible, beq_iff_eq] at hposs
        obtain ⟨a, o0, b, hh, hb⟩ := ih1 hposs
        simp only [dstep] at hstep
        split_ifs at hstep with h1
        · cases hstep
          refine ⟨fun h => ?_, fun _ => ⟨a, o0, b, [], [], by rw [hh, h1], by simpa using hb⟩⟩
          simp only [put_same] at h; cases h
        · cases hstep
          refine ⟨fun h => ?_, fun h => ?_⟩ <;> · simp only [put_same] at h; cases h
      · have := msg_clients hstep
        refine ⟨fun h => ?_, fun h => ?_⟩ <;> · rw [h] at this; rcases this with h | h <;> cases h
    · have hst : s'.clients fd = s.clients fd ∨ s'.clients fd = .invalid := by
        rcases clients_step hstep fd with h | h | ⟨ok, h⟩ | ⟨ok, h⟩ | ⟨⟨t, d, p, b, w, h⟩, _⟩
        · exact Or.inl h
        · exact Or.inr h
        · exact absurd (Or.inl ⟨ok, h⟩) hsp
        · exact absurd (Or.inr (Or.inl ⟨ok, h⟩)) hsp
        · exact absurd (Or.inr (Or.inr ⟨t, d, p, b, w, h⟩)) hsp
      refine ⟨fun h => ?_, fun h => ?_⟩
      · rcases hst with h' | h'
        · rw [h'] at h
          obtain ⟨a, o0, b, hh, hb⟩ := ih1 h
          refine ⟨a, o0, b ++ [(e, o)], by rw [hh]; simp, fun y hy => ?_⟩
          simp only [List.mem_append, List.mem_singleton] at hy
          rcases hy with hy | rfl
          · exact hb y hy
          · exact hsp
        · rw [h'] at h; cases h
      · rcases hst with h' | h'
        · rw [h'] at h
          obtain ⟨a, o0, b, o', d, hh, hb⟩ := ih2 h
          refine ⟨a, o0, b, o', d ++ [(e, o)], by rw [hh]; simp, fun y hy => ?_⟩
          simp only [List.mem_append, List.mem_singleton] at hy hb
          rcases hy with hy | hy | rfl
          · exact hb y (Or.inl hy)
          · exact hb y (Or.inr hy)
          · exact hsp
        · rw [h'] at h; cases h

/-- **C60.** Before a command is read from a connection, the connection was accepted and its greeting
was acceptable, and nothing else was read from it. -/
theorem C60_hello_first (c : DConf) (h : History) (s : DState) (hr : DRun c h s)
    (fd type domain port : Nat) (buf : Wire) (w : Bool) (o : List DOut) (pre post : History)
    (hh : h = pre ++ (.clientMsg fd type domain port buf w, o) :: post) :
    ∃ a o1 b o2 d, pre = a ++ (.newClient fd true, o1) :: b ++ (.clientHello fd true, o2) :: d ∧
      ∀ y ∈ b ++ d, (∀ ok, y.1 ≠ .newClient fd ok) ∧ (∀ ok, y.1 ≠ .clientHello fd ok) ∧
        ∀ t d p b w, y.1 ≠ .clientMsg fd t d p b w := by
  obtain ⟨s0, s1, hr0, hp, _⟩ := run_split hr _ _ post hh
  simp only [DEv.possible, beq_iff_eq] at hp
  obtain ⟨a, o1, b, o2, d, h1, h2⟩ := (greet_run hr0).2 hp
  refine ⟨a, o1, b, o2, d, h1, fun y hy => ⟨fun ok he => h2 y hy (Or.inl ⟨ok, he⟩),
    fun ok he => h2 y hy (Or.inr (Or.inl ⟨ok, he⟩)),
    fun t d p b w he => h2 y hy (Or.inr (Or.inr ⟨t, d, p, b, w, he⟩))⟩⟩

/-- The hypotheses are met: in the example of `C51`, the second client's command is passed on with
the default user. -/
example : ∃ s h, DRun exConf h s ∧ ∃ e o, (e, o) ∈ h ∧
    DOut.forward 0x200 17 0 513 c!"user:cmd\x00" ∈ o := by
  cases hd : drive exConf DState.start exEvents with
  | none => exact absurd hd (by decide)
  | some r =>
    have h2 : ((drive exConf DState.start exEvents).map fun r => r.2.any fun x =>
      x.2.contains (DOut.forward 0x200 17 0 513 c!"user:cmd\x00")) = some true := by decide
    rw [hd] at h2
    simp only [Option.map_some, Option.some.injEq, List.any_eq_true] at h2
    obtain ⟨⟨e, o⟩, hx, hc⟩ := h2
    exact ⟨r.1, r.2, by simpa using drive_run DRun.start hd, e, o, hx, by simpa using hc⟩

end Qrexec
