import Verif.Spec.SockDir
import Verif.Props.VmTrigger

/-!
# C90, C91: the names of a qube in dom0 lead to the daemon of this qube
-/
namespace Qrexec
open Spec

/-! ### The names -/

theorem sockName_inj {i j : Nat} (h : sockName i = sockName j) : i = j := by
  unfold sockName at h
  have h := List.append_cancel_left h
  rw [← (printDec_spec i).1, h, (printDec_spec j).1]

theorem sockByName_inj {a b : Str} (h : sockByName a = sockByName b) : a = b := List.append_cancel_left h

theorem sockByUuid_inj {a b : Str} (h : sockByUuid a = sockByUuid b) : a = b := List.append_cancel_left h

theorem name_ne_id {n : Str} {i : Nat} (h : QubeName n) : sockByName n ≠ sockName i := by
  intro e
  have e := List.append_cancel_left (show c!"qrexec." ++ n = c!"qrexec." ++ printDec i from e)
  obtain ⟨⟨c, t, rfl, hc⟩, -⟩ := h
  have := (printDec_spec i).2.1 c (by rw [← e]; simp)
  unfold tomlDigit at this
  simp only [Bool.and_eq_true, decide_eq_true_eq] at this
  have h2 : c.toNat ≤ '9'.toNat := this.2
  rcases hc with ⟨h1, -⟩ | ⟨h1, -⟩
  · have h1 : 'a'.toNat ≤ c.toNat := h1
    have e1 : 'a'.toNat = 97 := rfl
    have e2 : '9'.toNat = 57 := rfl
    omega
  · have h1 : 'A'.toNat ≤ c.toNat := h1
    have e1 : 'A'.toNat = 65 := rfl
    have e2 : '9'.toNat = 57 := rfl
    omega

theorem name_ne_uuid {n u : Str} (h : QubeName n) : sockByName n ≠ sockByUuid u := by
  intro e
  have e := List.append_cancel_left (show c!"qrexec." ++ n = c!"qrexec." ++ (c!"uuid:" ++ u) from e)
  exact h.2 (by rw [e]; simp)

theorem uuid_ne_id {u : Str} {i : Nat} : sockByUuid u ≠ sockName i := by
  intro e
  have e := List.append_cancel_left (show c!"qrexec." ++ (c!"uuid:" ++ u) = c!"qrexec." ++ printDec i from e)
  have := (printDec_spec i).2.1 'u' (by rw [← e]; simp)
  revert this; decide

/-! ### What holds in every history -/

/-- The phases in which a process may listen. -/
def Listens : DaemonPhase → Prop
  | .creating os => os = []
  | .serving => True
  | .closing os => .close ∈ os
  | .exiting _ => True
  | _ => False

/-- The operations that are left. -/
def OpsOf (d : DaemonFor) : DaemonPhase → Prop
  | .creating os => os <:+ createOps d
  | .closing os => os <:+ unlinkOps d ++ [.close]
  | .exiting os => os <:+ unlinkOps d
  | _ => True

structure Base (s : SockState) : Prop where
  links : ∀ path t, s.dir path = some (.link t) → ∃ p pr, s.procs p = some pr ∧ t = sockName pr.ident.domid ∧
    (path = sockByName pr.ident.name ∨ path = sockByUuid pr.ident.uuid)
  socks : ∀ path k, s.dir path = some (.socket k) → k < s.next ∧ ∀ p, s.listener k = some p →
    ∃ pr, s.procs p = some pr ∧ path = sockName pr.ident.domid
  lists : ∀ k p, s.listener k = some p → k < s.next ∧ ∃ pr, s.procs p = some pr ∧ Listens pr.phase
  phases : ∀ p pr, s.procs p = some pr → OpsOf pr.ident pr.phase

theorem upd_same {α β : Type} [DecidableEq α] (f : α → β) (a : α) (b : β) : upd f a b a = b := by simp [upd]

theorem upd_other {α β : Type} [DecidableEq α] {f : α → β} {a x : α} {b : β} (h : x ≠ a) : upd f a b x = f x := by
  simp [upd, h]

/-- A process gets to another phase. -/
theorem Base.goto {s : SockState} (h : Base s) {p : Nat} {d : DaemonFor} {ph : DaemonPhase}
    (hp : s.procs p = none ∨ ∃ ph0, s.procs p = some ⟨d, ph0⟩) (hl : ∀ k, s.listener k = some p → Listens ph)
    (ho : OpsOf d ph) : Base (s.goto p d ph) := by
  have key : ∀ q pr, s.procs q = some pr → ∃ pr', (s.goto p d ph).procs q = some pr' ∧ pr'.ident = pr.ident := by
    intro q pr hq
    by_cases e : q = p
    · subst e
      rcases hp with h1 | ⟨ph0, h1⟩
      · rw [h1] at hq; cases hq
      · rw [h1] at hq; cases hq
        exact ⟨⟨d, ph⟩, upd_same _ _ _, rfl⟩
    · exact ⟨pr, by rw [← hq]; exact upd_other e, rfl⟩
  refine ⟨?_, ?_, ?_, ?_⟩
  · intro path t ht
    obtain ⟨q, pr, h1, h2, h3⟩ := h.links path t ht
    obtain ⟨pr', h4, h5⟩ := key q pr h1
    exact ⟨q, pr', h4, by rw [h5]; exact h2, by rw [h5]; exact h3⟩
  · intro path k hk
    obtain ⟨h1, h2⟩ := h.socks path k hk
    refine ⟨h1, ?_⟩
    intro q hq
    obtain ⟨pr, h3, h4⟩ := h2 q hq
    obtain ⟨pr', h5, h6⟩ := key q pr h3
    exact ⟨pr', h5, by rw [h6]; exact h4⟩
  · intro k q hk
    obtain ⟨h1, pr, h2, h3⟩ := h.lists k q hk
    refine ⟨h1, ?_⟩
    by_cases e : q = p
    · subst e
      exact ⟨⟨d, ph⟩, upd_same _ _ _, hl k hk⟩
    · exact ⟨pr, by rw [← h2]; exact upd_other e, h3⟩
  · intro q pr hq
    by_cases e : q = p
    · subst e
      have : (s.goto q d ph).procs q = some ⟨d, ph⟩ := upd_same _ _ _
      rw [this] at hq; cases hq
      exact ho
    · exact h.phases q pr (by rw [← hq]; exact (upd_other e).symm)

theorem Base.mute {s : SockState} (h : Base s) (p : Nat) : Base (s.mute p) := by
  have key : ∀ k q, (s.mute p).listener k = some q → s.listener k = some q ∧ q ≠ p := by
    intro k q hk
    unfold SockState.mute at hk
    dsimp only at hk
    split_ifs at hk with h1
    exact ⟨hk, fun e => h1 (by rw [← e]; exact hk)⟩
  refine ⟨h.links, ?_, ?_, h.phases⟩
  · intro path k hk
    obtain ⟨h1, h2⟩ := h.socks path k hk
    exact ⟨h1, fun q hq => h2 q (key k q hq).1⟩
  · intro k q hk
    exact h.lists k q (key k q hk).1

theorem mute_not {s : SockState} {p k : Nat} : (s.mute p).listener k ≠ some p := by
  unfold SockState.mute
  dsimp only
  split_ifs with h1
  · simp
  · exact h1

theorem Base.unlink {s : SockState} (h : Base s) (p : Nat) (path : Str) : Base (s.op p (.unlink path)).1 := by
  have key : ∀ q e, (s.op p (.unlink path)).1.dir q = some e → s.dir q = some e := by
    intro q e hq
    by_cases h1 : q = path
    · subst h1
      have : (s.op p (.unlink q)).1.dir q = none := upd_same _ _ _
      rw [this] at hq; cases hq
    · rw [← hq]; exact (upd_other h1).symm
  exact ⟨fun q t ht => h.links q t (key q _ ht), fun q k hk => h.socks q k (key q _ hk), h.lists, h.phases⟩

theorem Base.symlink {s : SockState} (h : Base s) {p : Nat} {d : DaemonFor} {ph : DaemonPhase} {path : Str}
    (hp : s.procs p = some ⟨d, ph⟩) (hq : path = sockByName d.name ∨ path = sockByUuid d.uuid) :
    Base (s.op p (.symlink (sockName d.domid) path)).1 := by
  cases hd : s.dir path with
  | some e =>
    have : (s.op p (.symlink (sockName d.domid) path)).1 = s := by simp only [SockState.op, hd]
    rw [this]; exact h
  | none =>
    have : (s.op p (.symlink (sockName d.domid) path)).1 =
        { s with dir := upd s.dir path (some (.link (sockName d.domid))) } := by simp only [SockState.op, hd]
    rw [this]
    refine ⟨?_, ?_, h.lists, h.phases⟩
    · intro q t ht
      by_cases e : q = path
      · subst e
        have h1 : upd s.dir q (some (.link (sockName d.domid))) q = some (.link t) := ht
        rw [upd_same] at h1
        cases h1
        exact ⟨p, _, hp, rfl, hq⟩
      · have h1 : upd s.dir path (some (.link (sockName d.domid))) q = some (.link t) := ht
        rw [upd_other e] at h1
        exact h.links q t h1
    · intro q k hk
      by_cases e : q = path
      · subst e
        have h1 : upd s.dir q (some (.link (sockName d.domid))) q = some (.socket k) := hk
        rw [upd_same] at h1
        cases h1
      · have h1 : upd s.dir path (some (.link (sockName d.domid))) q = some (.socket k) := hk
        rw [upd_other e] at h1
        exact h.socks q k h1

/-- `bind` and the step to the phase behind it. -/
theorem Base.bind {s : SockState} (h : Base s) {p : Nat} {d : DaemonFor} {ph : DaemonPhase}
    (hp : s.procs p = some ⟨d, ph⟩) (hd : s.dir (sockName d.domid) = none) :
    Base ((s.op p (.bind (sockName d.domid))).1.goto p d (.creating [])) := by
  have e : (s.op p (.bind (sockName d.domid))).1 = { s with
      dir := upd s.dir (sockName d.domid) (some (.socket s.next)), listener := upd s.listener s.next (some p),
      next := s.next + 1 } := by simp only [SockState.op, hd]
  rw [e]
  have key : ∀ q pr, s.procs q = some pr → ∃ pr', upd s.procs p (some ⟨d, .creating []⟩) q = some pr' ∧ pr'.ident = pr.ident := by
    intro q pr hq
    by_cases e : q = p
    · subst e
      rw [hp] at hq; cases hq
      exact ⟨⟨d, .creating []⟩, upd_same _ _ _, rfl⟩
    · exact ⟨pr, by rw [← hq]; exact upd_other e, rfl⟩
  refine ⟨?_, ?_, ?_, ?_⟩
  · intro q t ht
    have ht : upd s.dir (sockName d.domid) (some (.socket s.next)) q = some (.link t) := ht
    by_cases e : q = sockName d.domid
    · subst e; rw [upd_same] at ht; cases ht
    · rw [upd_other e] at ht
      obtain ⟨q, pr, h1, h2, h3⟩ := h.links _ _ ht
      obtain ⟨pr', h4, h5⟩ := key q pr h1
      exact ⟨q, pr', h4, by rw [h5]; exact h2, by rw [h5]; exact h3⟩
  · intro q k hk
    have hk : upd s.dir (sockName d.domid) (some (.socket s.next)) q = some (.socket k) := hk
    by_cases e : q = sockName d.domid
    · subst e; rw [upd_same] at hk; cases hk
      refine ⟨Nat.lt_succ_self _, ?_⟩
      intro x hx
      have hx : upd s.listener s.next (some p) s.next = some x := hx
      rw [upd_same] at hx; cases hx
      exact ⟨_, upd_same _ _ _, rfl⟩
    · rw [upd_other e] at hk
      obtain ⟨h1, h2⟩ := h.socks _ _ hk
      refine ⟨Nat.lt_succ_of_lt h1, ?_⟩
      intro x hx
      have hx : upd s.listener s.next (some p) k = some x := hx
      rw [upd_other (Nat.ne_of_lt h1)] at hx
      obtain ⟨pr, h3, h4⟩ := h2 x hx
      obtain ⟨pr', h5, h6⟩ := key x pr h3
      exact ⟨pr', h5, by rw [h6]; exact h4⟩
  · intro k x hx
    have hx : upd s.listener s.next (some p) k = some x := hx
    by_cases e : k = s.next
    · subst e; rw [upd_same] at hx; cases hx
      exact ⟨Nat.lt_succ_self _, _, upd_same _ _ _, rfl⟩
    · rw [upd_other e] at hx
      obtain ⟨h1, pr, h2, h3⟩ := h.lists k x hx
      refine ⟨Nat.lt_succ_of_lt h1, ?_⟩
      by_cases e : x = p
      · subst e
        exact ⟨_, upd_same _ _ _, rfl⟩
      · exact ⟨pr, by rw [← h2]; exact upd_other e, h3⟩
  · intro q pr hq
    have hq : upd s.procs p (some ⟨d, .creating []⟩) q = some pr := hq
    by_cases e : q = p
    · subst e; rw [upd_same] at hq; cases hq
      exact List.nil_suffix
    · rw [upd_other e] at hq
      exact h.phases q pr hq

theorem suffix_six {α : Type} {a b c d e f : α} {l : List α} (h : l <:+ [a, b, c, d, e, f]) :
    l = [a, b, c, d, e, f] ∨ l = [b, c, d, e, f] ∨ l = [c, d, e, f] ∨ l = [d, e, f] ∨ l = [e, f] ∨ l = [f] ∨ l = [] := by
  rw [List.suffix_cons_iff, List.suffix_cons_iff, List.suffix_cons_iff, List.suffix_cons_iff, List.suffix_cons_iff,
    List.suffix_cons_iff, List.suffix_nil] at h
  exact h

theorem suffix_four {α : Type} {a b c d : α} {l : List α} (h : l <:+ [a, b, c, d]) :
    l = [a, b, c, d] ∨ l = [b, c, d] ∨ l = [c, d] ∨ l = [d] ∨ l = [] := by
  rw [List.suffix_cons_iff, List.suffix_cons_iff, List.suffix_cons_iff, List.suffix_cons_iff, List.suffix_nil] at h
  exact h

theorem suffix_three {α : Type} {a b c : α} {l : List α} (h : l <:+ [a, b, c]) :
    l = [a, b, c] ∨ l = [b, c] ∨ l = [c] ∨ l = [] := by
  rw [List.suffix_cons_iff, List.suffix_cons_iff, List.suffix_cons_iff, List.suffix_nil] at h
  exact h

theorem Base.not_listening {s : SockState} (h : Base s) {p : Nat} {pr : DaemonProc} (hp : s.procs p = some pr)
    (hl : ¬ Listens pr.phase) (k : Nat) : s.listener k ≠ some p := by
  intro hk
  obtain ⟨-, pr', h1, h2⟩ := h.lists k p hk
  rw [hp] at h1; cases h1
  exact hl h2

theorem op_procs {s : SockState} {p : Nat} {o : SockOp} : (s.op p o).1.procs = s.procs := by
  cases o <;> simp only [SockState.op]
  · split <;> rfl
  · split <;> rfl
  · rfl

theorem Base.step {s s' : SockState} {p : Nat} (h : Base s) (hs : SockStep s p s') : Base s' := by
  cases hs with
  | start p d h0 h1 =>
    refine h.goto (.inl h0) ?_ trivial
    intro k hk
    obtain ⟨-, pr, h2, -⟩ := h.lists k _ hk
    rw [h0] at h2; cases h2
  | connected p d r hp =>
    exact h.goto (.inr ⟨_, hp⟩) (fun k hk => absurd hk (h.not_listening hp (fun hc => hc) k)) (List.suffix_refl _)
  | create p d o os hp hb =>
    have ho : o :: os <:+ createOps d := h.phases _ _ hp
    have hn : ∀ k, s.listener k ≠ some p := h.not_listening hp (fun hc => by cases hc)
    rcases suffix_six (show o :: os <:+ [_, _, _, _, _, _] from ho) with e | e | e | e | e | e | e <;> cases e
    · exact (h.unlink p _).goto (.inr ⟨_, hp⟩) (fun k hk => absurd hk (hn k)) ⟨[_], rfl⟩
    · have hl : ∀ k, (s.op p (.symlink (sockName d.domid) (sockByUuid d.uuid))).1.listener k ≠ some p := by
        intro k
        simp only [SockState.op]
        split <;> exact hn k
      exact (h.symlink hp (.inr rfl)).goto (.inr ⟨_, by rw [op_procs]; exact hp⟩) (fun k hk => absurd hk (hl k)) ⟨[_, _], rfl⟩
    · exact (h.unlink p _).goto (.inr ⟨_, hp⟩) (fun k hk => absurd hk (hn k)) ⟨[_, _, _], rfl⟩
    · have hl : ∀ k, (s.op p (.symlink (sockName d.domid) (sockByName d.name))).1.listener k ≠ some p := by
        intro k
        simp only [SockState.op]
        split <;> exact hn k
      exact (h.symlink hp (.inl rfl)).goto (.inr ⟨_, by rw [op_procs]; exact hp⟩) (fun k hk => absurd hk (hl k)) ⟨[_, _, _, _], rfl⟩
    · exact (h.unlink p _).goto (.inr ⟨_, hp⟩) (fun k hk => absurd hk (hn k)) ⟨[_, _, _, _, _], rfl⟩
    · cases hd : s.dir (sockName d.domid) with
      | none => exact h.bind hp hd
      | some e => simp only [SockState.op, hd] at hb; cases hb
  | createFails p d o os hp hb =>
    have hn : ∀ k, s.listener k ≠ some p := h.not_listening hp (fun hc => by cases hc)
    have e : (s.op p o).1 = s := by
      cases o with
      | bind path =>
        cases hd : s.dir path with
        | none => simp only [SockState.op, hd] at hb; cases hb
        | some e => simp only [SockState.op, hd]
      | unlink _ => cases hb
      | symlink _ _ => cases hb
      | close => cases hb
    rw [e]
    exact h.goto (.inr ⟨_, hp⟩) (fun k hk => absurd hk (hn k)) (List.suffix_refl _)
  | created p d hp => exact h.goto (.inr ⟨_, hp⟩) (fun _ _ => trivial) trivial
  | restart p d hp =>
    exact h.goto (.inr ⟨_, hp⟩) (fun _ _ => by show _ ∈ _; simp) (List.suffix_refl _)
  | closeOp p d o os hp =>
    have ho : o :: os <:+ unlinkOps d ++ [.close] := h.phases _ _ hp
    rcases suffix_four (show o :: os <:+ [_, _, _, _] from ho) with e | e | e | e | e <;> cases e
    · exact (h.unlink p _).goto (.inr ⟨_, hp⟩) (fun _ _ => by show _ ∈ _; simp) ⟨[_], rfl⟩
    · exact (h.unlink p _).goto (.inr ⟨_, hp⟩) (fun _ _ => by show _ ∈ _; simp) ⟨[_, _], rfl⟩
    · exact (h.unlink p _).goto (.inr ⟨_, hp⟩) (fun _ _ => by show _ ∈ _; simp) ⟨[_, _, _], rfl⟩
    · exact (h.mute p).goto (.inr ⟨_, hp⟩) (fun k hk => absurd hk mute_not) List.nil_suffix
  | closed p d hp =>
    exact h.goto (.inr ⟨_, hp⟩) (fun k hk => absurd hk (h.not_listening hp (fun hc => by cases hc) k)) trivial
  | exit p d hp => exact h.goto (.inr ⟨_, hp⟩) (fun _ _ => trivial) (List.suffix_refl _)
  | giveUp p d hp => exact h.goto (.inr ⟨_, hp⟩) (fun _ _ => trivial) (List.suffix_refl _)
  | giveUpEarly p d hp =>
    exact h.goto (.inr ⟨_, hp⟩) (fun k hk => absurd hk (h.not_listening hp (fun hc => hc) k)) trivial
  | exitOp p d o os hp =>
    have ho : o :: os <:+ unlinkOps d := h.phases _ _ hp
    rcases suffix_three (show o :: os <:+ [_, _, _] from ho) with e | e | e | e <;> cases e
    · exact (h.unlink p _).goto (.inr ⟨_, hp⟩) (fun _ _ => trivial) ⟨[_], rfl⟩
    · exact (h.unlink p _).goto (.inr ⟨_, hp⟩) (fun _ _ => trivial) ⟨[_, _], rfl⟩
    · exact (h.unlink p _).goto (.inr ⟨_, hp⟩) (fun _ _ => trivial) ⟨[_, _, _], rfl⟩
  | exited p d hp => exact (h.mute p).goto (.inr ⟨_, hp⟩) (fun k hk => absurd hk mute_not) trivial
  | killed p d ph hp => exact (h.mute p).goto (.inr ⟨_, hp⟩) (fun k hk => absurd hk mute_not) trivial
  | childExits q d c hp hc => exact h.goto (.inl hc) (fun _ _ => trivial) (List.suffix_refl _)

theorem base_of_history {P : SockState → Prop} {s : SockState} (h : SockHistory P s) : Base s := by
  induction h with
  | empty => exact ⟨fun _ _ h => (by cases h), fun _ _ h => (by cases h), fun _ _ h => (by cases h), fun _ _ h => (by cases h)⟩
  | step _ hs _ ih => exact ih.step hs

theorem history_prop {P : SockState → Prop} {s : SockState} (h : SockHistory P s) : P s := by
  cases h with
  | empty h => exact h
  | step _ _ h => exact h

/-! ### C90: only the daemon of the qube is reached -/

theorem connect_link {s : SockState} {path t : Str} {k : Nat} (h1 : s.dir path = some (.link t))
    (h2 : s.dir t = some (.socket k)) : s.connect path = s.listener k := by
  unfold SockState.connect
  rw [sockConnect, h1]
  dsimp only
  rw [sockConnect, h2]

theorem connect_socket {s : SockState} {path : Str} {k : Nat} (h : s.dir path = some (.socket k)) :
    s.connect path = s.listener k := by
  unfold SockState.connect
  rw [sockConnect, h]

theorem connect_id {s : SockState} (h : Base s) (hn : Named s) {i p n : Nat}
    (hc : sockConnect s n (sockName i) = some p) :
    ∃ pr, s.procs p = some pr ∧ Listens pr.phase ∧ pr.ident.domid = i := by
  cases n with
  | zero => cases hc
  | succ n =>
    rw [sockConnect] at hc
    cases hd : s.dir (sockName i) with
    | none => rw [hd] at hc; cases hc
    | some e =>
      rw [hd] at hc
      cases e with
      | socket k =>
        dsimp only at hc
        obtain ⟨pr, h1, h2⟩ := (h.socks _ _ hd).2 p hc
        obtain ⟨-, pr', h3, h4⟩ := h.lists k p hc
        rw [h1] at h3; cases h3
        exact ⟨pr, h1, h4, (sockName_inj h2).symm⟩
      | link t =>
        obtain ⟨q, pr, h1, -, h3⟩ := h.links _ _ hd
        rcases h3 with h3 | h3
        · exact absurd h3.symm (name_ne_id (hn q pr h1))
        · exact absurd h3.symm uuid_ne_id

theorem connect_other {s : SockState} (h : Base s) (hn : Named s) {p : Nat} {path : Str}
    (hne : ∀ i, path ≠ sockName i) (hc : s.connect path = some p) :
    ∃ pr, s.procs p = some pr ∧ Listens pr.phase ∧ ∃ q qr, s.procs q = some qr ∧ qr.ident.domid = pr.ident.domid ∧
      (path = sockByName qr.ident.name ∨ path = sockByUuid qr.ident.uuid) := by
  unfold SockState.connect at hc
  rw [sockConnect] at hc
  cases hd : s.dir path with
  | none => rw [hd] at hc; cases hc
  | some e =>
    rw [hd] at hc
    cases e with
    | socket k =>
      dsimp only at hc
      obtain ⟨pr, -, h2⟩ := (h.socks _ _ hd).2 p hc
      exact absurd h2 (hne _)
    | link t =>
      dsimp only at hc
      obtain ⟨q, qr, h1, h2, h3⟩ := h.links _ _ hd
      subst h2
      obtain ⟨pr, h4, h5, h6⟩ := connect_id h hn hc
      exact ⟨pr, h4, h5, q, qr, h1, h6.symm, h3⟩

theorem listens_phase {ph : DaemonPhase} (h : Listens ph) : ph ≠ .ended ∧ ∀ r, ph ≠ .connecting r := by
  cases ph <;> simp_all [Listens]

/-- **C90.** In every history, whoever is reached by the id, name or UUID of a qube is a daemon of this qube that has been
connected to the agent and has not ended. (Ids are not used for two qubes; for the name it is enough that its id is not.) -/
theorem C90_only {s : SockState} (h : SockHistory Named s) {p : Nat} :
    (∀ i, s.connect (sockName i) = some p → ∃ pr, s.procs p = some pr ∧ pr.ident.domid = i ∧ pr.phase ≠ .ended ∧
      ∀ r, pr.phase ≠ .connecting r) ∧
    (IdsUnique s →
      (∀ n, QubeName n → s.connect (sockByName n) = some p → ∃ pr, s.procs p = some pr ∧ pr.ident.name = n ∧
        pr.phase ≠ .ended ∧ ∀ r, pr.phase ≠ .connecting r) ∧
      (∀ u, s.connect (sockByUuid u) = some p → ∃ pr, s.procs p = some pr ∧ pr.ident.uuid = u ∧
        pr.phase ≠ .ended ∧ ∀ r, pr.phase ≠ .connecting r)) := by
  have hb := base_of_history h
  have hn := history_prop h
  refine ⟨?_, ?_⟩
  · intro i hc
    obtain ⟨pr, h1, h2, h3⟩ := connect_id hb hn hc
    exact ⟨pr, h1, h3, listens_phase h2⟩
  · intro hu
    constructor
    · intro n hq hc
      obtain ⟨pr, h1, h2, q, qr, h3, h4, h5⟩ := connect_other hb hn (fun i => name_ne_id hq) hc
      have e := hu q p qr pr h3 h1 h4
      rcases h5 with h5 | h5
      · exact ⟨pr, h1, by rw [← e]; exact (sockByName_inj h5).symm, listens_phase h2⟩
      · exact absurd h5 (name_ne_uuid hq)
    · intro u hc
      obtain ⟨pr, h1, h2, q, qr, h3, h4, h5⟩ := connect_other hb hn (fun i => uuid_ne_id) hc
      have e := hu q p qr pr h3 h1 h4
      rcases h5 with h5 | h5
      · exact absurd h5.symm (name_ne_uuid (hn q qr h3))
      · exact ⟨pr, h1, by rw [← e]; exact (sockByUuid_inj h5).symm, listens_phase h2⟩

/-! ### C91: the daemon is reached -/

/-- The names a daemon uses. -/
def Own (d : DaemonFor) (path : Str) : Prop :=
  path = sockByName d.name ∨ path = sockByUuid d.uuid ∨ path = sockName d.domid

theorem own_apart {d e : DaemonFor} (hd : QubeName d.name) (he : QubeName e.name) (h : Apart d e) {path : Str}
    (h1 : Own d path) : ¬ Own e path := by
  intro h2
  obtain ⟨a1, a2, a3⟩ := h
  rcases h1 with rfl | rfl | rfl <;> rcases h2 with h2 | h2 | h2
  · exact a2 (sockByName_inj h2)
  · exact name_ne_uuid hd h2
  · exact name_ne_id hd h2
  · exact name_ne_uuid he h2.symm
  · exact a3 (sockByUuid_inj h2)
  · exact uuid_ne_id h2
  · exact name_ne_id he h2.symm
  · exact uuid_ne_id h2.symm
  · exact a1 (sockName_inj h2)

/-- The names lead to the process. -/
structure Led (s : SockState) (p : Nat) (d : DaemonFor) : Prop where
  name : s.dir (sockByName d.name) = some (.link (sockName d.domid))
  uuid : s.dir (sockByUuid d.uuid) = some (.link (sockName d.domid))
  sock : ∃ k, s.dir (sockName d.domid) = some (.socket k) ∧ s.listener k = some p

/-- What is in the directory in each phase, if nobody else touches the names. -/
def Stage (s : SockState) (p : Nat) (d : DaemonFor) : DaemonPhase → Prop
  | .creating os =>
    (os.length = 5 → s.dir (sockByUuid d.uuid) = none) ∧
    (os.length ≤ 4 → s.dir (sockByUuid d.uuid) = some (.link (sockName d.domid))) ∧
    (os.length = 3 → s.dir (sockByName d.name) = none) ∧
    (os.length ≤ 2 → s.dir (sockByName d.name) = some (.link (sockName d.domid))) ∧
    (os.length = 1 → s.dir (sockName d.domid) = none) ∧
    (os.length = 0 → ∃ k, s.dir (sockName d.domid) = some (.socket k) ∧ s.listener k = some p)
  | .serving => Led s p d
  | .closing os =>
    (os.length ≤ 3 → s.dir (sockByName d.name) = none) ∧ (os.length ≤ 2 → s.dir (sockByUuid d.uuid) = none) ∧
    (os.length ≤ 1 → s.dir (sockName d.domid) = none)
  | .exiting os =>
    (os.length ≤ 2 → s.dir (sockByName d.name) = none) ∧ (os.length ≤ 1 → s.dir (sockByUuid d.uuid) = none) ∧
    (os.length = 0 → s.dir (sockName d.domid) = none)
  | .connecting true => ∀ path, Own d path → s.dir path = none
  | _ => True

theorem Stage.frame {s s' : SockState} {p : Nat} {d : DaemonFor} {ph : DaemonPhase} (h : Stage s p d ph)
    (h1 : ∀ path, Own d path → s'.dir path = s.dir path) (h2 : ∀ k, s.listener k = some p → s'.listener k = some p) :
    Stage s' p d ph := by
  have e1 : s'.dir (sockByName d.name) = s.dir (sockByName d.name) := h1 _ (.inl rfl)
  have e2 : s'.dir (sockByUuid d.uuid) = s.dir (sockByUuid d.uuid) := h1 _ (.inr (.inl rfl))
  have e3 : s'.dir (sockName d.domid) = s.dir (sockName d.domid) := h1 _ (.inr (.inr rfl))
  cases ph with
  | connecting r =>
    cases r with
    | false => trivial
    | true => intro path hp; rw [h1 path hp]; exact h path hp
  | creating os =>
    obtain ⟨a1, a2, a3, a4, a5, a6⟩ := h
    refine ⟨by rw [e2]; exact a1, by rw [e2]; exact a2, by rw [e1]; exact a3, by rw [e1]; exact a4, by rw [e3]; exact a5, ?_⟩
    intro h0
    obtain ⟨k, k1, k2⟩ := a6 h0
    exact ⟨k, by rw [e3]; exact k1, h2 k k2⟩
  | serving =>
    obtain ⟨a1, a2, k, k1, k2⟩ := h
    exact ⟨by rw [e1]; exact a1, by rw [e2]; exact a2, k, by rw [e3]; exact k1, h2 k k2⟩
  | closing os =>
    obtain ⟨a1, a2, a3⟩ := h
    exact ⟨by rw [e1]; exact a1, by rw [e2]; exact a2, by rw [e3]; exact a3⟩
  | exiting os =>
    obtain ⟨a1, a2, a3⟩ := h
    exact ⟨by rw [e1]; exact a1, by rw [e2]; exact a2, by rw [e3]; exact a3⟩
  | ended => trivial

/-- The path an operation changes. -/
theorem op_dir {s : SockState} {p : Nat} {o : SockOp} {path : Str}
    (h : ∀ q, o = .unlink q ∨ (∃ t, o = .symlink t q) ∨ o = .bind q → path ≠ q) : (s.op p o).1.dir path = s.dir path := by
  cases o with
  | unlink q => exact upd_other (h q (.inl rfl))
  | symlink t q =>
    simp only [SockState.op]
    split
    · exact upd_other (h q (.inr (.inl ⟨t, rfl⟩)))
    · rfl
  | bind q =>
    simp only [SockState.op]
    split
    · exact upd_other (h q (.inr (.inr rfl)))
    · rfl
  | close => rfl

theorem mute_other {s : SockState} {p q k : Nat} (hq : q ≠ p) (h : s.listener k = some q) :
    (s.mute p).listener k = some q := by
  unfold SockState.mute
  dsimp only
  rw [if_neg (by rw [h]; intro e; cases e; exact hq rfl)]
  exact h

theorem op_listener {s : SockState} (hb : Base s) {p q k : Nat} {o : SockOp} (hq : q ≠ p) (h : s.listener k = some q) :
    (s.op p o).1.listener k = some q := by
  cases o with
  | unlink _ => exact h
  | symlink t path => simp only [SockState.op]; split <;> exact h
  | bind path =>
    simp only [SockState.op]
    split
    · have := (hb.lists k q h).1
      exact (upd_other (Nat.ne_of_lt this)).trans h
    · exact h
  | close => exact mute_other hq h

theorem ops_own {d : DaemonFor} {o : SockOp} {q : Str} (h : o ∈ createOps d ∨ o ∈ unlinkOps d ∨ o = .close)
    (ho : o = .unlink q ∨ (∃ t, o = .symlink t q) ∨ o = .bind q) : Own d q := by
  unfold Own
  simp only [createOps, unlinkOps, List.mem_cons, List.not_mem_nil, or_false] at h
  rcases h with (h | h | h | h | h | h) | (h | h | h) | h <;> subst h <;> rcases ho with ho | ⟨t, ho⟩ | ho <;> cases ho <;> simp

/-- What a step of `q` does to the rest. -/
theorem step_frame {s s' : SockState} {q : Nat} (hb : Base s) (hs : SockStep s q s') :
    (∀ path, s'.dir path = s.dir path ∨ ∃ d ph, s.procs q = some ⟨d, ph⟩ ∧ ph ≠ .ended ∧ Own d path) ∧
    (∀ k p, p ≠ q → s.listener k = some p → s'.listener k = some p) ∧ (∀ p, p ≠ q → s'.procs p = s.procs p) := by
  have go : ∀ (t : SockState) d ph p, p ≠ q → (t.goto q d ph).procs p = t.procs p := fun t d ph p h => upd_other h
  have op : ∀ d ph ph' o, s.procs q = some ⟨d, ph⟩ → ph ≠ .ended → (o ∈ createOps d ∨ o ∈ unlinkOps d ∨ o = .close) →
      (∀ path, ((s.op q o).1.goto q d ph').dir path = s.dir path ∨ ∃ d ph, s.procs q = some ⟨d, ph⟩ ∧ ph ≠ .ended ∧ Own d path) ∧
      (∀ k p, p ≠ q → s.listener k = some p → ((s.op q o).1.goto q d ph').listener k = some p) ∧
      (∀ p, p ≠ q → ((s.op q o).1.goto q d ph').procs p = s.procs p) := by
    intro d ph ph' o hp hne ho
    refine ⟨?_, fun k p h1 h2 => op_listener hb h1 h2, fun p h1 => ?_⟩
    · intro path
      by_cases hw : Own d path
      · exact .inr ⟨d, ph, hp, hne, hw⟩
      · exact .inl (op_dir (fun x hx e => hw (by rw [e]; exact ops_own ho hx)))
    · rw [go _ _ _ _ h1, op_procs]
  have same : ∀ d ph', (∀ path, (s.goto q d ph').dir path = s.dir path ∨ ∃ d ph, s.procs q = some ⟨d, ph⟩ ∧ ph ≠ .ended ∧ Own d path) ∧
      (∀ k p, p ≠ q → s.listener k = some p → (s.goto q d ph').listener k = some p) ∧
      (∀ p, p ≠ q → (s.goto q d ph').procs p = s.procs p) :=
    fun d ph' => ⟨fun _ => .inl rfl, fun _ _ _ h => h, fun p h => go _ _ _ _ h⟩
  have muted : ∀ d ph', (∀ path, ((s.mute q).goto q d ph').dir path = s.dir path ∨ ∃ d ph, s.procs q = some ⟨d, ph⟩ ∧ ph ≠ .ended ∧ Own d path) ∧
      (∀ k p, p ≠ q → s.listener k = some p → ((s.mute q).goto q d ph').listener k = some p) ∧
      (∀ p, p ≠ q → ((s.mute q).goto q d ph').procs p = s.procs p) :=
    fun d ph' => ⟨fun _ => .inl rfl, fun _ _ h1 h2 => mute_other h1 h2, fun p h => go _ _ _ _ h⟩
  cases hs with
  | start p d h0 h1 => exact same _ _
  | connected p d r hp => exact same _ _
  | create p d o os hp hb' =>
    have ho : o :: os <:+ createOps d := hb.phases _ _ hp
    exact op _ _ _ _ hp (by simp) (.inl (ho.subset (by simp)))
  | createFails p d o os hp hb' =>
    have ho : o :: os <:+ createOps d := hb.phases _ _ hp
    exact op _ _ _ _ hp (by simp) (.inl (ho.subset (by simp)))
  | created p d hp => exact same _ _
  | restart p d hp => exact same _ _
  | closeOp p d o os hp =>
    have ho : o :: os <:+ unlinkOps d ++ [.close] := hb.phases _ _ hp
    have hm := ho.subset (List.mem_cons_self ..)
    rw [List.mem_append, List.mem_singleton] at hm
    exact op _ _ _ _ hp (by simp) (.inr hm)
  | closed p d hp => exact same _ _
  | exit p d hp => exact same _ _
  | giveUp p d hp => exact same _ _
  | giveUpEarly p d hp => exact same _ _
  | exitOp p d o os hp =>
    have ho : o :: os <:+ unlinkOps d := hb.phases _ _ hp
    exact op _ _ _ _ hp (by simp) (.inr (.inl (ho.subset (by simp))))
  | exited p d hp => exact muted _ _
  | killed p d ph hp => exact muted _ _
  | childExits p d c hp hc => exact same _ _

theorem op_unlink {s : SockState} {p : Nat} {path q : Str} :
    (s.op p (.unlink path)).1.dir q = if q = path then none else s.dir q := rfl

/-- A step of the process itself. -/
theorem stage_self {s s' : SockState} {p : Nat} (hb : Base s) (hn : Named s)
    (hst : ∀ d ph, s.procs p = some ⟨d, ph⟩ → Stage s p d ph) (hs : SockStep s p s') :
    ∀ d ph, s'.procs p = some ⟨d, ph⟩ → Stage s' p d ph := by
  intro d' ph' h'
  have goto_eq : ∀ (t : SockState) d ph, (t.goto p d ph).procs p = some ⟨d', ph'⟩ → d = d' ∧ ph = ph' := by
    intro t d ph h
    have h1 : (t.goto p d ph).procs p = some ⟨d, ph⟩ := upd_same _ _ _
    rw [h1] at h
    cases h; exact ⟨rfl, rfl⟩
  cases hs with
  | start p d h0 h1 => obtain ⟨rfl, rfl⟩ := goto_eq _ _ _ h'; trivial
  | connected p d r hp =>
    obtain ⟨rfl, rfl⟩ := goto_eq _ _ _ h'
    refine ⟨fun h => ?_, fun h => ?_, fun h => ?_, fun h => ?_, fun h => ?_, fun h => ?_⟩ <;> simp [createOps] at h
  | create p d o os hp hb' =>
    obtain ⟨rfl, rfl⟩ := goto_eq _ _ _ h'
    have hq := hn _ _ hp
    have n1 : sockByName d.name ≠ sockName d.domid := name_ne_id hq
    have n2 : sockByName d.name ≠ sockByUuid d.uuid := name_ne_uuid hq
    have n3 : sockByUuid d.uuid ≠ sockName d.domid := uuid_ne_id
    obtain ⟨a1, a2, a3, a4, a5, a6⟩ := hst _ _ hp
    have ho : o :: os <:+ createOps d := hb.phases _ _ hp
    rcases suffix_six (show o :: os <:+ [_, _, _, _, _, _] from ho) with e | e | e | e | e | e | e <;> cases e
    · refine ⟨fun _ => ?_, fun h => ?_, fun h => ?_, fun h => ?_, fun h => ?_, fun h => ?_⟩ <;>
        first | (simp at h; done) | skip
      exact upd_same _ _ _
    · have e : s.dir (sockByUuid d.uuid) = none := a1 rfl
      have e' : (s.op p (.symlink (sockName d.domid) (sockByUuid d.uuid))).1.dir (sockByUuid d.uuid) =
          some (.link (sockName d.domid)) := by simp only [SockState.op, e]; exact upd_same _ _ _
      refine ⟨fun h => ?_, fun _ => e', fun h => ?_, fun h => ?_, fun h => ?_, fun h => ?_⟩ <;> simp at h
    · have e : s.dir (sockByUuid d.uuid) = some (.link (sockName d.domid)) := a2 (by simp)
      refine ⟨fun h => ?_, fun _ => (upd_other n2.symm).trans e, fun _ => upd_same _ _ _, fun h => ?_, fun h => ?_, fun h => ?_⟩ <;> simp at h
    · have e : s.dir (sockByUuid d.uuid) = some (.link (sockName d.domid)) := a2 (by simp)
      have e1 : s.dir (sockByName d.name) = none := a3 rfl
      have e' : (s.op p (.symlink (sockName d.domid) (sockByName d.name))).1.dir (sockByName d.name) =
          some (.link (sockName d.domid)) := by simp only [SockState.op, e1]; exact upd_same _ _ _
      have e2 : (s.op p (.symlink (sockName d.domid) (sockByName d.name))).1.dir (sockByUuid d.uuid) =
          some (.link (sockName d.domid)) := by simp only [SockState.op, e1]; exact (upd_other n2.symm).trans e
      refine ⟨fun h => ?_, fun _ => e2, fun h => ?_, fun _ => e', fun h => ?_, fun h => ?_⟩ <;> simp at h
    · have e : s.dir (sockByUuid d.uuid) = some (.link (sockName d.domid)) := a2 (by simp)
      have e1 : s.dir (sockByName d.name) = some (.link (sockName d.domid)) := a4 (by simp)
      refine ⟨fun h => ?_, fun _ => (upd_other n3).trans e, fun h => ?_, fun _ => (upd_other n1).trans e1,
        fun _ => upd_same _ _ _, fun h => ?_⟩ <;> simp at h
    · have e : s.dir (sockByUuid d.uuid) = some (.link (sockName d.domid)) := a2 (by simp)
      have e1 : s.dir (sockByName d.name) = some (.link (sockName d.domid)) := a4 (by simp)
      have e2 : s.dir (sockName d.domid) = none := a5 rfl
      have e3 : (s.op p (.bind (sockName d.domid))).1 = { s with
        dir := upd s.dir (sockName d.domid) (some (.socket s.next)), listener := upd s.listener s.next (some p),
        next := s.next + 1 } := by simp only [SockState.op, e2]
      rw [e3]
      refine ⟨fun h => ?_, fun _ => (upd_other n3).trans e, fun h => ?_, fun _ => (upd_other n1).trans e1,
        fun h => ?_, fun _ => ⟨s.next, upd_same _ _ _, upd_same _ _ _⟩⟩ <;> simp at h
  | createFails p d o os hp hb' =>
    obtain ⟨rfl, rfl⟩ := goto_eq _ _ _ h'
    refine ⟨fun h => ?_, fun h => ?_, fun h => ?_⟩ <;> simp [unlinkOps] at h
  | created p d hp =>
    obtain ⟨rfl, rfl⟩ := goto_eq _ _ _ h'
    obtain ⟨a1, a2, a3, a4, a5, a6⟩ := hst _ _ hp
    exact ⟨a4 (by simp), a2 (by simp), a6 rfl⟩
  | restart p d hp =>
    obtain ⟨rfl, rfl⟩ := goto_eq _ _ _ h'
    refine ⟨fun h => ?_, fun h => ?_, fun h => ?_⟩ <;> simp [unlinkOps] at h
  | closeOp p d o os hp =>
    obtain ⟨rfl, rfl⟩ := goto_eq _ _ _ h'
    have hq := hn _ _ hp
    have n1 : sockByName d.name ≠ sockName d.domid := name_ne_id hq
    have n2 : sockByName d.name ≠ sockByUuid d.uuid := name_ne_uuid hq
    have n3 : sockByUuid d.uuid ≠ sockName d.domid := uuid_ne_id
    obtain ⟨a1, a2, a3⟩ := hst _ _ hp
    have ho : o :: os <:+ unlinkOps d ++ [.close] := hb.phases _ _ hp
    rcases suffix_four (show o :: os <:+ [_, _, _, _] from ho) with e | e | e | e | e <;> cases e
    · refine ⟨fun _ => upd_same _ _ _, fun h => ?_, fun h => ?_⟩ <;> simp at h
    · refine ⟨fun _ => (upd_other n2).trans (a1 (by simp)), fun _ => upd_same _ _ _, fun h => ?_⟩; simp at h
    · exact ⟨fun _ => (upd_other n1).trans (a1 (by simp)), fun _ => (upd_other n3).trans (a2 (by simp)), fun _ => upd_same _ _ _⟩
    · exact ⟨fun _ => a1 (by simp), fun _ => a2 (by simp), fun _ => a3 (by simp)⟩
  | closed p d hp =>
    obtain ⟨rfl, rfl⟩ := goto_eq _ _ _ h'
    obtain ⟨a1, a2, a3⟩ := hst _ _ hp
    intro path hw
    rcases hw with rfl | rfl | rfl
    · exact a1 (by simp)
    · exact a2 (by simp)
    · exact a3 (by simp)
  | exit p d hp =>
    obtain ⟨rfl, rfl⟩ := goto_eq _ _ _ h'
    refine ⟨fun h => ?_, fun h => ?_, fun h => ?_⟩ <;> simp [unlinkOps] at h
  | giveUp p d hp =>
    obtain ⟨rfl, rfl⟩ := goto_eq _ _ _ h'
    refine ⟨fun h => ?_, fun h => ?_, fun h => ?_⟩ <;> simp [unlinkOps] at h
  | giveUpEarly p d hp => obtain ⟨rfl, rfl⟩ := goto_eq _ _ _ h'; trivial
  | exitOp p d o os hp =>
    obtain ⟨rfl, rfl⟩ := goto_eq _ _ _ h'
    have hq := hn _ _ hp
    have n1 : sockByName d.name ≠ sockName d.domid := name_ne_id hq
    have n2 : sockByName d.name ≠ sockByUuid d.uuid := name_ne_uuid hq
    have n3 : sockByUuid d.uuid ≠ sockName d.domid := uuid_ne_id
    obtain ⟨a1, a2, a3⟩ := hst _ _ hp
    have ho : o :: os <:+ unlinkOps d := hb.phases _ _ hp
    rcases suffix_three (show o :: os <:+ [_, _, _] from ho) with e | e | e | e <;> cases e
    · refine ⟨fun _ => upd_same _ _ _, fun h => ?_, fun h => ?_⟩ <;> simp at h
    · refine ⟨fun _ => (upd_other n2).trans (a1 (by simp)), fun _ => upd_same _ _ _, fun h => ?_⟩; simp at h
    · exact ⟨fun _ => (upd_other n1).trans (a1 (by simp)), fun _ => (upd_other n3).trans (a2 (by simp)), fun _ => upd_same _ _ _⟩
  | exited p d hp => obtain ⟨rfl, rfl⟩ := goto_eq _ _ _ h'; trivial
  | killed p d ph hp => obtain ⟨rfl, rfl⟩ := goto_eq _ _ _ h'; trivial
  | childExits q d c hp hc =>
    obtain ⟨rfl, rfl⟩ := goto_eq _ _ _ h'
    refine ⟨fun h => ?_, fun h => ?_, fun h => ?_⟩ <;> simp [unlinkOps] at h

theorem stage_of_history {s : SockState} (h : SockHistory (fun s => Named s ∧ OneEach s) s) :
    ∀ p d ph, s.procs p = some ⟨d, ph⟩ → Stage s p d ph := by
  induction h with
  | empty => intro p d ph h; cases h
  | @step s s' q hh hs hP ih =>
    have hb := base_of_history hh
    have hN := (history_prop hh).1
    have hO := (history_prop hh).2
    intro p d ph hp
    by_cases e : p = q
    · subst e
      exact stage_self hb hN (ih p) hs d ph hp
    · obtain ⟨f1, f2, f3⟩ := step_frame hb hs
      rw [f3 p e] at hp
      by_cases hne : ph = .ended
      · subst hne; trivial
      · refine (ih p d ph hp).frame ?_ (fun k hk => f2 k p e hk)
        intro path hw
        rcases f1 path with h1 | ⟨dq, phq, h1, h2, h3⟩
        · exact h1
        · exact absurd h3 (own_apart (hN _ _ hp) (hN _ _ h1) (hO p q _ _ e hp h1 hne h2) hw)

/-- **C91 (partial).** If no two processes for one qube are there at a time, a daemon in its main loop is reached by the
id, the name and the UUID of its qube; one that has lost its agent, and one that has ended in order, has left none of the
three behind.  Missing: the daemon of a qube that is started again while the former one is still ending, and errors of
processes that serve calls to dom0 (C91_violated_late, C91_violated_child). -/
theorem C91_reached_partial {s : SockState} (h : SockHistory (fun s => Named s ∧ OneEach s) s) (p : Nat) (d : DaemonFor) :
    (s.procs p = some ⟨d, .serving⟩ → s.connect (sockName d.domid) = some p ∧ s.connect (sockByName d.name) = some p ∧
      s.connect (sockByUuid d.uuid) = some p) ∧
    (s.procs p = some ⟨d, .connecting true⟩ ∨ s.procs p = some ⟨d, .exiting []⟩ →
      s.dir (sockName d.domid) = none ∧ s.dir (sockByName d.name) = none ∧ s.dir (sockByUuid d.uuid) = none) := by
  have hs := stage_of_history h p d
  constructor
  · intro hp
    obtain ⟨h1, h2, k, h3, h4⟩ : Led s p d := hs _ hp
    exact ⟨by rw [connect_socket h3]; exact h4, by rw [connect_link h1 h3]; exact h4, by rw [connect_link h2 h3]; exact h4⟩
  · rintro (hp | hp)
    · have h1 : ∀ path, Own d path → s.dir path = none := hs _ hp
      exact ⟨h1 _ (.inr (.inr rfl)), h1 _ (.inl rfl), h1 _ (.inr (.inl rfl))⟩
    · obtain ⟨h1, h2, h3⟩ := hs _ hp
      exact ⟨h3 rfl, h1 (by simp), h2 (by simp)⟩

/-! ### Examples -/

def exWork5 : DaemonFor := ⟨5, c!"work", c!"u"⟩
def exWork7 : DaemonFor := ⟨7, c!"work", c!"u"⟩
def exVault5 : DaemonFor := ⟨5, c!"vault", c!"v"⟩

theorem exQube (d : DaemonFor) (h : d ∈ [exWork5, exWork7, exVault5]) : QubeName d.name := by
  simp only [List.mem_cons, List.not_mem_nil, or_false] at h
  rcases h with rfl | rfl | rfl
  · exact ⟨⟨'w', c!"ork", rfl, by decide⟩, by decide⟩
  · exact ⟨⟨'w', c!"ork", rfl, by decide⟩, by decide⟩
  · exact ⟨⟨'v', c!"ault", rfl, by decide⟩, by decide⟩

theorem hist {s s' : SockState} {p : Nat} (h : SockHistory Named s) (hs : SockStep s p s')
    (hq : ∃ pr, s'.procs p = some pr ∧ QubeName pr.ident.name) : SockHistory Named s' := by
  refine .step h hs ?_
  intro q qr h1
  by_cases e : q = p
  · subst e
    obtain ⟨pr, h2, h3⟩ := hq
    rw [h1] at h2; cases h2
    exact h3
  · rw [(step_frame (base_of_history h) hs).2.2 q e] at h1
    exact history_prop h q qr h1

theorem one_only {t : SockState} (h0 : ∃ ph, t.procs 0 = some ⟨exWork5, ph⟩) (h1 : ∀ q, q ≠ 0 → t.procs q = none) :
    Named t ∧ OneEach t ∧ IdsUnique t := by
  obtain ⟨ph, h0⟩ := h0
  have key : ∀ p pr, t.procs p = some pr → p = 0 ∧ pr.ident = exWork5 := by
    intro p pr hp
    by_cases e : p = 0
    · subst e; rw [h0] at hp; cases hp; exact ⟨rfl, rfl⟩
    · rw [h1 p e] at hp; cases hp
  refine ⟨?_, ?_, ?_⟩
  · intro p pr hp
    rw [(key p pr hp).2]; exact exQube _ (by simp)
  · intro p q pr qr hne hp hq _ _
    exact absurd ((key p pr hp).1.trans (key q qr hq).1.symm) hne
  · intro p q pr qr hp hq _
    rw [(key p pr hp).2, (key q qr hq).2]

theorem hist1 {s s' : SockState} (h : SockHistory (fun s => Named s ∧ OneEach s) s ∧ ∀ q, q ≠ 0 → s.procs q = none)
    (hs : SockStep s 0 s') (h0 : ∃ ph, s'.procs 0 = some ⟨exWork5, ph⟩) :
    SockHistory (fun s => Named s ∧ OneEach s) s' ∧ ∀ q, q ≠ 0 → s'.procs q = none := by
  have h1 : ∀ q, q ≠ 0 → s'.procs q = none := by
    intro q hq
    rw [(step_frame (base_of_history h.1) hs).2.2 q hq]; exact h.2 q hq
  exact ⟨.step h.1 hs ⟨(one_only h0 h1).1, (one_only h0 h1).2.1⟩, h1⟩

set_option maxRecDepth 100000 in
/-- The hypotheses of C90 and C91 are met: the daemon of the qube "work" serves. -/
theorem C91_example : ∃ s, SockHistory (fun s => Named s ∧ OneEach s) s ∧ s.procs 0 = some ⟨exWork5, .serving⟩ ∧
    s.connect c!"qrexec.work" = some 0 ∧ s.connect c!"qrexec.5" = some 0 ∧ s.connect c!"qrexec.uuid:u" = some 0 ∧
    IdsUnique s := by
  have h0 : SockHistory (fun s => Named s ∧ OneEach s) .empty ∧ ∀ q, q ≠ 0 → SockState.empty.procs q = none :=
    ⟨.empty ⟨fun _ _ h => (by cases h), fun _ _ _ _ _ h => (by cases h)⟩, fun _ _ => rfl⟩
  have h1 := hist1 h0 (.start 0 exWork5 rfl (by decide)) ⟨_, rfl⟩
  have h2 := hist1 h1 (.connected 0 exWork5 _ rfl) ⟨_, rfl⟩
  have h3 := hist1 h2 (.create 0 exWork5 _ _ rfl rfl) ⟨_, rfl⟩
  have h4 := hist1 h3 (.create 0 exWork5 _ _ rfl rfl) ⟨_, rfl⟩
  have h5 := hist1 h4 (.create 0 exWork5 _ _ rfl rfl) ⟨_, rfl⟩
  have h6 := hist1 h5 (.create 0 exWork5 _ _ rfl rfl) ⟨_, rfl⟩
  have h7 := hist1 h6 (.create 0 exWork5 _ _ rfl rfl) ⟨_, rfl⟩
  have h8 := hist1 h7 (.create 0 exWork5 _ _ rfl rfl) ⟨_, rfl⟩
  have h9 := hist1 h8 (.created 0 exWork5 rfl) ⟨_, rfl⟩
  exact ⟨_, h9.1, rfl, by decide, by decide, by decide, (one_only ⟨_, rfl⟩ h9.2).2.2⟩

set_option maxRecDepth 100000 in
/-- An error of the process that serves a call to dom0 removes the names of the daemon: it is in its main loop, and nobody
reaches it. -/
theorem C91_violated_child : ∃ s, SockHistory Named s ∧ s.procs 0 = some ⟨exWork5, .serving⟩ ∧
    s.connect c!"qrexec.work" = none ∧ s.connect c!"qrexec.5" = none ∧ s.connect c!"qrexec.uuid:u" = none := by
  have h0 : SockHistory Named .empty := .empty (fun _ _ h => by cases h)
  have h1 := hist h0 (.start 0 exWork5 rfl (by decide)) ⟨_, rfl, exQube _ (by simp)⟩
  have h2 := hist h1 (.connected 0 exWork5 _ rfl) ⟨_, rfl, exQube _ (by simp)⟩
  have h3 := hist h2 (.create 0 exWork5 _ _ rfl rfl) ⟨_, rfl, exQube _ (by simp)⟩
  have h4 := hist h3 (.create 0 exWork5 _ _ rfl rfl) ⟨_, rfl, exQube _ (by simp)⟩
  have h5 := hist h4 (.create 0 exWork5 _ _ rfl rfl) ⟨_, rfl, exQube _ (by simp)⟩
  have h6 := hist h5 (.create 0 exWork5 _ _ rfl rfl) ⟨_, rfl, exQube _ (by simp)⟩
  have h7 := hist h6 (.create 0 exWork5 _ _ rfl rfl) ⟨_, rfl, exQube _ (by simp)⟩
  have h8 := hist h7 (.create 0 exWork5 _ _ rfl rfl) ⟨_, rfl, exQube _ (by simp)⟩
  have h9 := hist h8 (.created 0 exWork5 rfl) ⟨_, rfl, exQube _ (by simp)⟩
  have h10 := hist h9 (.childExits 0 exWork5 1 rfl rfl) ⟨_, rfl, exQube _ (by simp)⟩
  have h11 := hist h10 (.exitOp 1 exWork5 _ _ rfl) ⟨_, rfl, exQube _ (by simp)⟩
  have h12 := hist h11 (.exitOp 1 exWork5 _ _ rfl) ⟨_, rfl, exQube _ (by simp)⟩
  have h13 := hist h12 (.exitOp 1 exWork5 _ _ rfl) ⟨_, rfl, exQube _ (by simp)⟩
  exact ⟨_, h13, rfl, by decide, by decide, by decide⟩

set_option maxRecDepth 100000 in
/-- The former daemon of a qube that has been started again removes the names of the new one. -/
theorem C91_violated_late : ∃ s, SockHistory Named s ∧ s.procs 1 = some ⟨exWork7, .serving⟩ ∧
    s.connect c!"qrexec.work" = none ∧ s.connect c!"qrexec.uuid:u" = none ∧ s.connect c!"qrexec.7" = some 1 := by
  have h0 : SockHistory Named .empty := .empty (fun _ _ h => by cases h)
  have h1 := hist h0 (.start 0 exWork5 rfl (by decide)) ⟨_, rfl, exQube _ (by simp)⟩
  have h2 := hist h1 (.connected 0 exWork5 _ rfl) ⟨_, rfl, exQube _ (by simp)⟩
  have h3 := hist h2 (.create 0 exWork5 _ _ rfl rfl) ⟨_, rfl, exQube _ (by simp)⟩
  have h4 := hist h3 (.create 0 exWork5 _ _ rfl rfl) ⟨_, rfl, exQube _ (by simp)⟩
  have h5 := hist h4 (.create 0 exWork5 _ _ rfl rfl) ⟨_, rfl, exQube _ (by simp)⟩
  have h6 := hist h5 (.create 0 exWork5 _ _ rfl rfl) ⟨_, rfl, exQube _ (by simp)⟩
  have h7 := hist h6 (.create 0 exWork5 _ _ rfl rfl) ⟨_, rfl, exQube _ (by simp)⟩
  have h8 := hist h7 (.create 0 exWork5 _ _ rfl rfl) ⟨_, rfl, exQube _ (by simp)⟩
  have h9 := hist h8 (.created 0 exWork5 rfl) ⟨_, rfl, exQube _ (by simp)⟩
  have h10 := hist h9 (.restart 0 exWork5 rfl) ⟨_, rfl, exQube _ (by simp)⟩
  have h11 := hist h10 (.closeOp 0 exWork5 _ _ rfl) ⟨_, rfl, exQube _ (by simp)⟩
  have h12 := hist h11 (.closeOp 0 exWork5 _ _ rfl) ⟨_, rfl, exQube _ (by simp)⟩
  have h13 := hist h12 (.closeOp 0 exWork5 _ _ rfl) ⟨_, rfl, exQube _ (by simp)⟩
  have h14 := hist h13 (.closeOp 0 exWork5 _ _ rfl) ⟨_, rfl, exQube _ (by simp)⟩
  have h15 := hist h14 (.closed 0 exWork5 rfl) ⟨_, rfl, exQube _ (by simp)⟩
  have h16 := hist h15 (.start 1 exWork7 rfl (by decide)) ⟨_, rfl, exQube _ (by simp)⟩
  have h17 := hist h16 (.connected 1 exWork7 _ rfl) ⟨_, rfl, exQube _ (by simp)⟩
  have h18 := hist h17 (.create 1 exWork7 _ _ rfl rfl) ⟨_, rfl, exQube _ (by simp)⟩
  have h19 := hist h18 (.create 1 exWork7 _ _ rfl rfl) ⟨_, rfl, exQube _ (by simp)⟩
  have h20 := hist h19 (.create 1 exWork7 _ _ rfl rfl) ⟨_, rfl, exQube _ (by simp)⟩
  have h21 := hist h20 (.create 1 exWork7 _ _ rfl rfl) ⟨_, rfl, exQube _ (by simp)⟩
  have h22 := hist h21 (.create 1 exWork7 _ _ rfl rfl) ⟨_, rfl, exQube _ (by simp)⟩
  have h23 := hist h22 (.create 1 exWork7 _ _ rfl rfl) ⟨_, rfl, exQube _ (by simp)⟩
  have h24 := hist h23 (.created 1 exWork7 rfl) ⟨_, rfl, exQube _ (by simp)⟩
  have h25 := hist h24 (.giveUp 0 exWork5 rfl) ⟨_, rfl, exQube _ (by simp)⟩
  have h26 := hist h25 (.exitOp 0 exWork5 _ _ rfl) ⟨_, rfl, exQube _ (by simp)⟩
  have h27 := hist h26 (.exitOp 0 exWork5 _ _ rfl) ⟨_, rfl, exQube _ (by simp)⟩
  have h28 := hist h27 (.exitOp 0 exWork5 _ _ rfl) ⟨_, rfl, exQube _ (by simp)⟩
  exact ⟨_, h28, rfl, by decide, by decide, by decide⟩

set_option maxRecDepth 100000 in
/-- If an id is given to another qube after a daemon has been killed, the name of the old qube leads to the daemon of the
new one. -/
theorem C90_violated_reuse : ∃ s, SockHistory Named s ∧ s.procs 1 = some ⟨exVault5, .serving⟩ ∧
    s.connect c!"qrexec.work" = some 1 := by
  have h0 : SockHistory Named .empty := .empty (fun _ _ h => by cases h)
  have h1 := hist h0 (.start 0 exWork5 rfl (by decide)) ⟨_, rfl, exQube _ (by simp)⟩
  have h2 := hist h1 (.connected 0 exWork5 _ rfl) ⟨_, rfl, exQube _ (by simp)⟩
  have h3 := hist h2 (.create 0 exWork5 _ _ rfl rfl) ⟨_, rfl, exQube _ (by simp)⟩
  have h4 := hist h3 (.create 0 exWork5 _ _ rfl rfl) ⟨_, rfl, exQube _ (by simp)⟩
  have h5 := hist h4 (.create 0 exWork5 _ _ rfl rfl) ⟨_, rfl, exQube _ (by simp)⟩
  have h6 := hist h5 (.create 0 exWork5 _ _ rfl rfl) ⟨_, rfl, exQube _ (by simp)⟩
  have h7 := hist h6 (.create 0 exWork5 _ _ rfl rfl) ⟨_, rfl, exQube _ (by simp)⟩
  have h8 := hist h7 (.create 0 exWork5 _ _ rfl rfl) ⟨_, rfl, exQube _ (by simp)⟩
  have h9 := hist h8 (.created 0 exWork5 rfl) ⟨_, rfl, exQube _ (by simp)⟩
  have h10 := hist h9 (.killed 0 exWork5 _ rfl) ⟨_, rfl, exQube _ (by simp)⟩
  have h11 := hist h10 (.start 1 exVault5 rfl (by decide)) ⟨_, rfl, exQube _ (by simp)⟩
  have h12 := hist h11 (.connected 1 exVault5 _ rfl) ⟨_, rfl, exQube _ (by simp)⟩
  have h13 := hist h12 (.create 1 exVault5 _ _ rfl rfl) ⟨_, rfl, exQube _ (by simp)⟩
  have h14 := hist h13 (.create 1 exVault5 _ _ rfl rfl) ⟨_, rfl, exQube _ (by simp)⟩
  have h15 := hist h14 (.create 1 exVault5 _ _ rfl rfl) ⟨_, rfl, exQube _ (by simp)⟩
  have h16 := hist h15 (.create 1 exVault5 _ _ rfl rfl) ⟨_, rfl, exQube _ (by simp)⟩
  have h17 := hist h16 (.create 1 exVault5 _ _ rfl rfl) ⟨_, rfl, exQube _ (by simp)⟩
  have h18 := hist h17 (.create 1 exVault5 _ _ rfl rfl) ⟨_, rfl, exQube _ (by simp)⟩
  have h19 := hist h18 (.created 1 exVault5 rfl) ⟨_, rfl, exQube _ (by simp)⟩
  exact ⟨_, h19, rfl, by decide⟩

end Qrexec
