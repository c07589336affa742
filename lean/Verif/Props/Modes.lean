import Verif.Model.Modes

/-!
# C103: who can connect to the sockets, and the umask of the programs
-/
namespace Qrexec

/-! ## What is claimed -/

namespace Spec

/-- Connecting to a socket needs the permission to write (unix(7)). -/
def OwnerConnects (m : Nat) : Prop := m.testBit 7 = true
def GroupConnects (m : Nat) : Prop := m.testBit 4 = true
def OthersConnect (m : Nat) : Prop := m.testBit 1 = true

/-- No permission for anybody but the owner and the group. -/
def ClosedToOthers (m : Nat) : Prop := m.testBit 0 = false ∧ m.testBit 1 = false ∧ m.testBit 2 = false

/-- The umask keeps others from writing. -/
def MaskKeepsOthersOut (mask : Nat) : Prop := mask.testBit 1 = true

end Spec

open Spec

/-! ## Lemmas -/

theorem testBit_777 (i : Nat) : Nat.testBit 0o777 i = decide (i < 9) := by
  have : (0o777 : Nat) = 2 ^ 9 - 1 := rfl
  rw [this, Nat.testBit_two_pow_sub_one]

/-- A permission is given if it was asked for and the umask does not take it. -/
theorem maskedMode_bit (req mask i : Nat) (hi : i < 9) :
    (maskedMode req mask).testBit i = (req.testBit i && !mask.testBit i) := by
  unfold maskedMode
  rw [Nat.testBit_and, Nat.testBit_xor, Nat.testBit_and, testBit_777]
  simp [hi]

theorem mask_bit (mask i : Nat) (hi : i < 9) : (mask &&& 0o777).testBit i = mask.testBit i := by
  rw [Nat.testBit_and, testBit_777]; simp [hi]

/-- Permissions that were not asked for are not given. -/
theorem maskedMode_closed {req : Nat} (h : ClosedToOthers req) (mask : Nat) : ClosedToOthers (maskedMode req mask) := by
  obtain ⟨h0, h1, h2⟩ := h
  refine ⟨?_, ?_, ?_⟩ <;> rw [maskedMode_bit _ _ _ (by omega)] <;> simp [*]

theorem closed_007 : ClosedToOthers (maskedMode 0o777 0o007) := ⟨by decide, by decide, by decide⟩
theorem closed_660 : ClosedToOthers 0o660 := ⟨by decide, by decide, by decide⟩

theorem ops_append (s : ModeState) (a b : List ModeOp) : s.ops (a ++ b) = (s.ops a).ops b := by
  unfold ModeState.ops; rw [List.foldl_append]

theorem ops_cons (s : ModeState) (o : ModeOp) (os : List ModeOp) : s.ops (o :: os) = (s.op o).ops os := rfl

theorem ops_nil (s : ModeState) : s.ops [] = s := rfl

/-- An invariant of single operations holds behind each of them. -/
theorem ops_inv {I : ModeState → Prop} : ∀ (os : List ModeOp), (∀ o ∈ os, ∀ s, I s → I (s.op o)) → ∀ s, I s → ∀ n, I (s.ops (os.take n)) := by
  intro os
  induction os with
  | nil => intro _ s hs n; simpa [ModeState.ops] using hs
  | cons o os ih =>
    intro h s hs n
    cases n with
    | zero => exact hs
    | succ n =>
      rw [List.take_succ_cons, ops_cons]
      exact ih (fun o ho => h o (by simp [ho])) _ (h o (by simp) s hs) n

theorem ops_inv' {I : ModeState → Prop} (os : List ModeOp) (h : ∀ o ∈ os, ∀ s, I s → I (s.op o)) (s : ModeState) (hs : I s) :
    I (s.ops os) := by
  have := ops_inv os h s hs os.length
  rwa [List.take_length] at this

theorem op_started (s : ModeState) (o : ModeOp) : s.started <+: (s.op o).started := by
  unfold ModeState.op
  split
  · exact List.prefix_refl _
  · cases o with
    | bind path => dsimp only; split <;> exact List.prefix_refl _
    | chmod path m => dsimp only; split <;> exact List.prefix_refl _
    | create path m => dsimp only; split <;> exact List.prefix_refl _
    | run => exact List.prefix_append _ _
    | _ => exact List.prefix_refl _

theorem ops_started : ∀ (os : List ModeOp) (s : ModeState), s.started <+: (s.ops os).started := by
  intro os
  induction os with
  | nil => intro s; exact List.prefix_refl _
  | cons o os ih => intro s; exact (op_started s o).trans (ih _)

theorem take_started (s : ModeState) (os : List ModeOp) (n : Nat) : (s.ops (os.take n)).started <+: (s.ops os).started := by
  have h := ops_started (os.drop n) (s.ops (os.take n))
  rw [← ops_append, List.take_append_drop] at h
  exact h

/-! ## The policy daemon -/

/-- The files that the process has made are closed to others and belong to the group `g`. -/
def MineClosed (g : Nat) (s : ModeState) : Prop :=
  ∀ p f, s.files p = some f → f.mine = true → ClosedToOthers f.mode ∧ f.group = g

theorem mineClosed_op {g : Nat} {o : ModeOp} (ho : (∃ p, o = .unlink p) ∨ (∃ p, o = .bind p) ∨ ∃ p, o = .chmod p 0o660)
    (s : ModeState) (h : s.mask = 0o007 ∧ s.group = g ∧ MineClosed g s) :
    (s.op o).mask = 0o007 ∧ (s.op o).group = g ∧ MineClosed g (s.op o) := by
  obtain ⟨h1, h2, h3⟩ := h
  have set : ∀ (path : Str) (f : Option ModeFile), (∀ x, f = some x → x.mine = true → ClosedToOthers x.mode ∧ x.group = g) →
      MineClosed g (s.setFile path f) := by
    intro path f hf p x hx hm
    have hx' : (if p = path then f else s.files p) = some x := hx
    by_cases e : p = path
    · rw [if_pos e] at hx'; exact hf x hx' hm
    · rw [if_neg e] at hx'; exact h3 p x hx' hm
  unfold ModeState.op
  split
  · exact ⟨h1, h2, h3⟩
  · rcases ho with ⟨p, rfl⟩ | ⟨p, rfl⟩ | ⟨p, rfl⟩
    · exact ⟨h1, h2, set p none (by simp)⟩
    · dsimp only
      split
      · refine ⟨h1, h2, set p _ ?_⟩
        rintro x ⟨⟩ _
        exact ⟨by rw [h1]; exact closed_007, h2⟩
      · exact ⟨h1, h2, h3⟩
    · dsimp only
      split
      · exact ⟨h1, h2, h3⟩
      · rename_i f hf
        refine ⟨h1, h2, set p _ ?_⟩
        rintro x ⟨⟩ hm
        exact ⟨closed_660, (h3 p f hf hm).2⟩

theorem init_mine (mask group : Nat) (files : Str → Option ModeFile) (p : Str) (f : ModeFile)
    (h : (ModeState.init mask group files).files p = some f) : f.mine = false := by
  have h' : (files p).map (fun f => { f with mine := false }) = some f := h
  cases hp : files p with
  | none => rw [hp] at h'; cases h'
  | some x => rw [hp] at h'; cases h'; rfl

/-- **C103, the policy daemon.** Whatever umask the policy daemon is started with and whatever was at the places of its sockets
before, at no moment of its start can anybody but its user and its group - `qubes`, if it is started by root - connect to a socket it
has made; when it has started, all three sockets are there, new, for its user and this group. -/
theorem C103_policy (root : Bool) (qubes mask group : Nat) (files : Str → Option ModeFile) (p : PolicyPaths)
    (hd : p.main ≠ p.eval ∧ p.main ≠ p.gui ∧ p.eval ≠ p.gui) :
    (∀ n q f, ((ModeState.init mask group files).ops ((policyDaemonModes root qubes p).take n)).files q = some f → f.mine = true →
      ClosedToOthers f.mode ∧ f.group = (if root then qubes else group)) ∧
    (∀ q ∈ [p.main, p.eval, p.gui], ((ModeState.init mask group files).ops (policyDaemonModes root qubes p)).files q =
      some ⟨0o660, if root then qubes else group, true⟩) ∧
    ((ModeState.init mask group files).ops (policyDaemonModes root qubes p)).failed = false := by
  have tail : ∀ o ∈ [ModeOp.unlink p.eval, .unlink p.gui, .unlink p.main, .bind p.main, .bind p.eval, .bind p.gui,
      .chmod p.eval 0o660, .chmod p.gui 0o660, .chmod p.main 0o660],
      (∃ p, o = .unlink p) ∨ (∃ p, o = .bind p) ∨ ∃ p, o = .chmod p 0o660 := by
    intro o ho
    simp only [List.mem_cons, List.not_mem_nil, or_false] at ho
    rcases ho with rfl | rfl | rfl | rfl | rfl | rfl | rfl | rfl | rfl
    · exact .inl ⟨_, rfl⟩
    · exact .inl ⟨_, rfl⟩
    · exact .inl ⟨_, rfl⟩
    · exact .inr (.inl ⟨_, rfl⟩)
    · exact .inr (.inl ⟨_, rfl⟩)
    · exact .inr (.inl ⟨_, rfl⟩)
    · exact .inr (.inr ⟨_, rfl⟩)
    · exact .inr (.inr ⟨_, rfl⟩)
    · exact .inr (.inr ⟨_, rfl⟩)
  obtain ⟨d1, d2, d3⟩ := hd
  have d1' : p.eval ≠ p.main := fun e => d1 e.symm
  have d2' : p.gui ≠ p.main := fun e => d2 e.symm
  have d3' : p.gui ≠ p.eval := fun e => d3 e.symm
  have start : ∀ g, MineClosed g (ModeState.init mask group files) := fun g q f hf hm => by
    rw [init_mine _ _ _ _ _ hf] at hm; cases hm
  cases root with
  | false =>
    refine ⟨fun n q f hf hm => ?_, ?_, ?_⟩
    · cases n with
      | zero => exact start group q f hf hm
      | succ n =>
        have := (ops_inv (I := fun s => s.mask = 0o007 ∧ s.group = group ∧ MineClosed group s) _
          (fun o ho s hs => mineClosed_op (tail o ho) s hs) ((ModeState.init mask group files).op (.umask 0o007))
          ⟨rfl, rfl, start group⟩ n).2.2 q f hf hm
        exact this
    · intro q hq
      simp only [List.mem_cons, List.not_mem_nil, or_false] at hq
      rcases hq with rfl | rfl | rfl <;>
        simp [policyDaemonModes, ModeState.ops, ModeState.op, ModeState.init, ModeState.setFile, *]
    · simp [policyDaemonModes, ModeState.ops, ModeState.op, ModeState.init, ModeState.setFile, *]
  | true =>
    refine ⟨fun n q f hf hm => ?_, ?_, ?_⟩
    · match n with
      | 0 => exact start qubes q f hf hm
      | 1 => exact start qubes q f hf hm
      | n + 2 =>
        have := (ops_inv (I := fun s => s.mask = 0o007 ∧ s.group = qubes ∧ MineClosed qubes s) _
          (fun o ho s hs => mineClosed_op (tail o ho) s hs)
          (((ModeState.init mask group files).op (.umask 0o007)).op (.setgid qubes))
          ⟨rfl, rfl, start qubes⟩ n).2.2 q f hf hm
        exact this
    · intro q hq
      simp only [List.mem_cons, List.not_mem_nil, or_false] at hq
      rcases hq with rfl | rfl | rfl <;>
        simp [policyDaemonModes, ModeState.ops, ModeState.op, ModeState.init, ModeState.setFile, *]
    · simp [policyDaemonModes, ModeState.ops, ModeState.op, ModeState.init, ModeState.setFile, *]

/-! ## The daemons of the qubes -/

/-- The daemon serves: its umask, its socket. -/
structure Serving (sock : Str) (g : Nat) (s : ModeState) : Prop where
  mask : s.mask = 0o077
  ok : s.failed = false
  group : s.group = g
  sock : s.files sock = some ⟨0o777, g, true⟩

theorem socket_made (sock : Str) (g : Nat) (s : ModeState) (h1 : s.failed = false) (h2 : s.group = g) :
    Serving sock g (s.ops (daemonSocketModes sock)) ∧ (s.ops (daemonSocketModes sock)).started = s.started := by
  refine ⟨⟨?_, ?_, ?_, ?_⟩, ?_⟩ <;>
    simp [daemonSocketModes, ModeState.ops, ModeState.op, ModeState.setFile, maskedMode, h1, h2]

theorem life_serving (sock : Str) (g : Nat) : ∀ (life : List DaemonLife) (s : ModeState), Serving sock g s →
    Serving sock g (s.ops (life.flatMap (DaemonLife.ops sock))) ∧
    (s.ops (life.flatMap (DaemonLife.ops sock))).started =
      s.started ++ List.replicate (life.count .serve) 0o077 := by
  intro life
  induction life with
  | nil => intro s hs; exact ⟨hs, by simp [ModeState.ops]⟩
  | cons l life ih =>
    intro s hs
    rw [List.flatMap_cons, ops_append]
    cases l with
    | serve =>
      show Serving sock g ((s.ops [.run]).ops _) ∧ ((s.ops [.run]).ops _).started = _
      have h1 : Serving sock g (s.ops [.run]) := by
        refine ⟨?_, ?_, ?_, ?_⟩ <;> simp [ModeState.ops, ModeState.op, hs.ok, hs.mask, hs.group, hs.sock]
      obtain ⟨i1, i2⟩ := ih _ h1
      refine ⟨i1, ?_⟩
      rw [i2]
      have : (s.ops [.run]).started = s.started ++ [0o077] := by simp [ModeState.ops, ModeState.op, hs.ok, hs.mask]
      rw [this, List.count_cons_self, List.replicate_succ, List.append_assoc]
      rfl
    | restart =>
      have h0 : (s.op (.unlink sock)).failed = false ∧ (s.op (.unlink sock)).group = g ∧ (s.op (.unlink sock)).started = s.started := by
        refine ⟨?_, ?_, ?_⟩ <;> simp [ModeState.op, ModeState.setFile, hs.ok, hs.group]
      obtain ⟨m1, m2⟩ := socket_made sock g (s.op (.unlink sock)) h0.1 h0.2.1
      obtain ⟨i1, i2⟩ := ih _ m1
      show Serving sock g (((s.op (.unlink sock)).ops (daemonSocketModes sock)).ops _) ∧ (((s.op (.unlink sock)).ops (daemonSocketModes sock)).ops _).started = _
      refine ⟨i1, ?_⟩
      rw [i2, m2, h0.2.2, List.count_cons_of_ne (by decide)]

/-- **C103, the daemons.** Whatever umask a daemon is started with, however often its agent comes back and wherever it ends:
every program it starts has the umask 0077, so that what the services make in dom0 is closed to everybody else unless they say
otherwise; a log file it makes is closed to others. Its socket is open to all that reach the directory. -/
theorem C103_daemon (direct : Bool) (log sock : Str) (hl : log ≠ sock) (mask group : Nat) (files : Str → Option ModeFile)
    (life : List DaemonLife) :
    (∀ n, ∀ m ∈ ((ModeState.init mask group files).ops ((daemonModes direct log sock life).take n)).started, m = 0o077) ∧
    ((ModeState.init mask group files).ops (daemonModes direct log sock life)).started.length = life.count .serve ∧
    (∀ n f, ((ModeState.init mask group files).ops ((daemonModes direct log sock life).take n)).files log = some f →
      f.mine = true → ClosedToOthers f.mode) ∧
    (direct = false → files log = none →
      ((ModeState.init mask group files).ops (daemonModes direct log sock life)).files log = some ⟨0o660, group, true⟩) ∧
    ((ModeState.init mask group files).ops (daemonModes direct log sock life)).files sock = some ⟨0o777, group, true⟩ := by
  have hinit : ∀ s : ModeState, s.failed = false → s.group = group → s.started = [] →
      Serving sock group (s.ops (daemonInitModes direct log sock)) ∧ (s.ops (daemonInitModes direct log sock)).started = [] := by
    intro s h1 h2 h3
    unfold daemonInitModes
    rw [ops_append]
    have : (s.ops (if direct then [] else [.umask 0o007, .create log 0o660])).failed = false ∧
        (s.ops (if direct then [] else [.umask 0o007, .create log 0o660])).group = group ∧
        (s.ops (if direct then [] else [.umask 0o007, .create log 0o660])).started = [] := by
      cases direct with
      | true => exact ⟨h1, h2, h3⟩
      | false =>
        cases hf : s.files log <;> refine ⟨?_, ?_, ?_⟩ <;> simp [ModeState.ops, ModeState.op, ModeState.setFile, h1, h2, h3, hf]
    obtain ⟨m1, m2⟩ := socket_made sock group _ this.1 this.2.1
    exact ⟨m1, m2.trans this.2.2⟩
  obtain ⟨i1, i2⟩ := hinit (ModeState.init mask group files) rfl rfl rfl
  obtain ⟨l1, l2⟩ := life_serving sock group life _ i1
  rw [i2, List.nil_append, ← ops_append] at l2
  rw [← ops_append] at l1
  have hops : ∀ o ∈ daemonModes direct log sock life, (∃ m, o = .umask m) ∨ o = .unlink sock ∨ o = .bind sock ∨ o = .run ∨ o = .create log 0o660 := by
    have hsock : ∀ o ∈ daemonSocketModes sock, (∃ m, o = .umask m) ∨ o = .unlink sock ∨ o = .bind sock := by
      intro o ho
      simp only [daemonSocketModes, List.mem_cons, List.not_mem_nil, or_false] at ho
      rcases ho with rfl | rfl | rfl | rfl
      · exact .inl ⟨_, rfl⟩
      · exact .inr (.inl rfl)
      · exact .inr (.inr rfl)
      · exact .inl ⟨_, rfl⟩
    have widen : ∀ o, ((∃ m, o = ModeOp.umask m) ∨ o = .unlink sock ∨ o = .bind sock) →
        (∃ m, o = .umask m) ∨ o = .unlink sock ∨ o = .bind sock ∨ o = .run ∨ o = .create log 0o660 := by
      rintro o (h | h | h)
      · exact .inl h
      · exact .inr (.inl h)
      · exact .inr (.inr (.inl h))
    intro o ho
    unfold daemonModes daemonInitModes at ho
    rw [List.mem_append, List.mem_append, List.mem_flatMap] at ho
    rcases ho with (ho | ho) | ⟨l, _, ho⟩
    · cases direct with
      | true => cases ho
      | false =>
        simp only [Bool.false_eq_true, if_false, List.mem_cons, List.not_mem_nil, or_false] at ho
        rcases ho with rfl | rfl
        · exact .inl ⟨_, rfl⟩
        · exact .inr (.inr (.inr (.inr rfl)))
    · exact widen o (hsock o ho)
    · cases l with
      | serve =>
        simp only [DaemonLife.ops, List.mem_cons, List.not_mem_nil, or_false] at ho
        exact .inr (.inr (.inr (.inl ho)))
      | restart =>
        simp only [DaemonLife.ops, List.mem_cons] at ho
        rcases ho with ho | ho
        · exact .inr (.inl ho)
        · exact widen o (hsock o ho)
  refine ⟨fun n m hm => ?_, ?_, fun n f hf hmine => ?_, fun hdir hnew => ?_, l1.sock⟩
  · have := (take_started (ModeState.init mask group files) (daemonModes direct log sock life) n).subset hm
    unfold daemonModes at this
    rw [l2] at this
    exact List.eq_of_mem_replicate this
  · unfold daemonModes
    rw [l2, List.length_replicate]
  · refine ops_inv (I := fun s => ∀ f, s.files log = some f → f.mine = true → ClosedToOthers f.mode) _ ?_ (ModeState.init mask group files)
      (fun f hf hm => by rw [init_mine _ _ _ _ _ hf] at hm; cases hm) n f hf hmine
    intro o ho s hs f hf hm
    unfold ModeState.op at hf
    split at hf
    · exact hs f hf hm
    · rcases hops o ho with ⟨m, rfl⟩ | rfl | rfl | rfl | rfl
      · exact hs f hf hm
      · exact hs f (by simpa [ModeState.setFile, hl] using hf) hm
      · dsimp only at hf
        split at hf
        · exact hs f (by simpa [ModeState.setFile, hl] using hf) hm
        · exact hs f hf hm
      · exact hs f hf hm
      · dsimp only at hf
        split at hf
        · have : some (⟨maskedMode 0o660 s.mask, s.group, true⟩ : ModeFile) = some f := by simpa [ModeState.setFile] using hf
          cases this
          exact maskedMode_closed closed_660 _
        · exact hs f hf hm
  · subst hdir
    have key : ∀ (os : List ModeOp), (∀ o ∈ os, (∃ m, o = .umask m) ∨ o = .unlink sock ∨ o = .bind sock ∨ o = .run ∨ o = .create log 0o660) →
        ∀ s : ModeState, s.files log = some ⟨0o660, group, true⟩ → (s.ops os).files log = some ⟨0o660, group, true⟩ := by
      intro os hos s hs
      refine ops_inv' (I := fun s => s.files log = some ⟨0o660, group, true⟩) os ?_ s hs
      intro o ho s hs
      show (s.op o).files log = _
      unfold ModeState.op
      split
      · exact hs
      · rcases hos o ho with ⟨m, rfl⟩ | rfl | rfl | rfl | rfl
        · exact hs
        · simpa [ModeState.setFile, hl] using hs
        · dsimp only
          split
          · simpa [ModeState.setFile, hl] using hs
          · exact hs
        · exact hs
        · dsimp only
          rw [hs]
          exact hs
    have e : daemonModes false log sock life = [.umask 0o007, .create log 0o660] ++ (daemonModes false log sock life).drop 2 := rfl
    rw [e, ops_append]
    refine key _ (fun o ho => hops o (List.mem_of_mem_drop ho)) _ ?_
    have hn : (ModeState.init mask group files).files log = none := by
      show (files log).map _ = none
      rw [hnew]; rfl
    simp [ModeState.ops, ModeState.op, ModeState.setFile, ModeState.init, hnew, maskedMode]

/-! ## The agent -/

theorem runs_started : ∀ (k : Nat) (s : ModeState), s.failed = false →
    (s.ops (List.replicate k .run)).started = s.started ++ List.replicate k s.mask ∧
    (s.ops (List.replicate k .run)).files = s.files ∧ (s.ops (List.replicate k .run)).mask = s.mask := by
  intro k
  induction k with
  | zero => intro s _; exact ⟨by simp [ModeState.ops], rfl, rfl⟩
  | succ k ih =>
    intro s hs
    rw [List.replicate_succ, ops_cons]
    have e : s.op .run = { s with started := s.started ++ [s.mask] } := by simp [ModeState.op, hs]
    rw [e]
    obtain ⟨i1, i2, i3⟩ := ih { s with started := s.started ++ [s.mask] } hs
    refine ⟨?_, i2, i3⟩
    rw [i1, List.append_assoc]
    show s.started ++ ([s.mask] ++ List.replicate k s.mask) = _
    rw [List.replicate_succ]; rfl

/-- **C103, the agent.** Every user of the qube can connect to the socket for calls; and the umask of the agent is only changed
while this socket is made: all programs it starts have the umask it was started with. -/
theorem C103_agent (sock : Str) (mask group programs : Nat) (files : Str → Option ModeFile) :
    (∀ n, ∀ m ∈ ((ModeState.init mask group files).ops ((agentModes (mask &&& 0o777) sock programs).take n)).started, m = mask &&& 0o777) ∧
    ((ModeState.init mask group files).ops (agentModes (mask &&& 0o777) sock programs)).started.length = programs ∧
    ∃ f, ((ModeState.init mask group files).ops (agentModes (mask &&& 0o777) sock programs)).files sock = some f ∧
      OwnerConnects f.mode ∧ GroupConnects f.mode ∧ OthersConnect f.mode := by
  have hand : (mask &&& 0o777) &&& 0o777 = mask &&& 0o777 := by rw [Nat.and_assoc]; rfl
  have h0 : (ModeState.init mask group files).ops [.umask 0, .unlink sock, .bind sock, .umask (mask &&& 0o777)] =
      { (ModeState.init mask group files).setFile sock (some ⟨0o777, group, true⟩) with mask := mask &&& 0o777 } := by
    simp only [ModeState.ops, ModeState.op, ModeState.setFile, ModeState.init, List.foldl_cons, List.foldl_nil, if_true, hand, maskedMode,
      Bool.false_eq_true, if_false]
    congr 1
    funext p
    by_cases e : p = sock <;> simp [e]
  obtain ⟨r1, r2, _⟩ := runs_started programs ((ModeState.init mask group files).ops [.umask 0, .unlink sock, .bind sock, .umask (mask &&& 0o777)])
    (by rw [h0]; rfl)
  rw [← ops_append] at r1 r2
  have hs : ((ModeState.init mask group files).ops (agentModes (mask &&& 0o777) sock programs)).started = List.replicate programs (mask &&& 0o777) := by
    unfold agentModes
    rw [r1, h0]; rfl
  refine ⟨fun n m hm => ?_, by rw [hs, List.length_replicate], ⟨0o777, group, true⟩, ?_, (show Nat.testBit 0o777 7 = true by decide),
    (show Nat.testBit 0o777 4 = true by decide), (show Nat.testBit 0o777 1 = true by decide)⟩
  · have := (take_started (ModeState.init mask group files) (agentModes (mask &&& 0o777) sock programs) n).subset hm
    rw [hs] at this
    exact List.eq_of_mem_replicate this
  · unfold agentModes
    rw [r2, h0]
    simp [ModeState.setFile]

/-! ## The fork server -/

theorem fork_files (sock : Str) (mask group programs : Nat) (files : Str → Option ModeFile) (n : Nat) (f : ModeFile)
    (h : ((ModeState.init mask group files).ops ((forkServerModes sock programs).take n)).files sock = some f) (hm : f.mine = true) :
    f.mode = maskedMode 0o777 (mask &&& 0o777) := by
  have hops : ∀ o ∈ forkServerModes sock programs, o = .unlink sock ∨ o = .bind sock ∨ o = .run := by
    intro o ho
    simp only [forkServerModes, List.mem_append, List.mem_cons, List.not_mem_nil, or_false, List.mem_replicate] at ho
    rcases ho with (ho | ho) | ⟨_, ho⟩
    · exact .inl ho
    · exact .inr (.inl ho)
    · exact .inr (.inr ho)
  refine (ops_inv (I := fun s => s.mask = mask &&& 0o777 ∧ ∀ f, s.files sock = some f → f.mine = true →
    f.mode = maskedMode 0o777 (mask &&& 0o777)) _ ?_ (ModeState.init mask group files)
    ⟨rfl, fun f hf hm => by rw [init_mine _ _ _ _ _ hf] at hm; cases hm⟩ n).2 f h hm
  rintro o ho s ⟨s1, s2⟩
  unfold ModeState.op
  split
  · exact ⟨s1, s2⟩
  · rcases hops o ho with rfl | rfl | rfl
    · refine ⟨s1, fun f hf => ?_⟩
      simp [ModeState.setFile] at hf
    · dsimp only
      split
      · refine ⟨s1, fun f hf _ => ?_⟩
        have : some (⟨maskedMode 0o777 s.mask, s.group, true⟩ : ModeFile) = some f := by simpa [ModeState.setFile] using hf
        cases this
        rw [s1]
      · exact ⟨s1, s2⟩
    · exact ⟨s1, s2⟩

/-- **C103, partial: the fork server.** If it is started with a umask that keeps others (the group) from writing, then at no
moment can others (the group) connect to its socket, and have programs run as its user. Missing: it does not see to this itself,
see `C103_fork_gap`. -/
theorem C103_fork_partial (sock : Str) (mask group programs : Nat) (files : Str → Option ModeFile) (n : Nat) (f : ModeFile)
    (h : ((ModeState.init mask group files).ops ((forkServerModes sock programs).take n)).files sock = some f) (hm : f.mine = true) :
    (MaskKeepsOthersOut mask → ¬ OthersConnect f.mode) ∧ (mask.testBit 4 = true → ¬ GroupConnects f.mode) ∧
    (mask.testBit 7 = false → OwnerConnects f.mode) := by
  have e := fork_files sock mask group programs files n f h hm
  unfold OthersConnect GroupConnects OwnerConnects MaskKeepsOthersOut
  rw [e, maskedMode_bit _ _ _ (by omega), maskedMode_bit _ _ _ (by omega), maskedMode_bit _ _ _ (by omega), mask_bit _ _ (by omega),
    mask_bit _ _ (by omega), mask_bit _ _ (by omega)]
  refine ⟨fun k => by rw [k]; decide, fun k => by rw [k]; decide, fun k => by rw [k]; decide⟩

/-- Finding: with a umask that does not keep others from writing, everybody can have programs run as the user of the fork
server. -/
theorem C103_fork_gap (sock : Str) (mask group programs : Nat) (files : Str → Option ModeFile) (h : ¬ MaskKeepsOthersOut mask) :
    ∃ f, ((ModeState.init mask group files).ops (forkServerModes sock programs)).files sock = some f ∧ OthersConnect f.mode := by
  have h0 : (ModeState.init mask group files).ops [.unlink sock, .bind sock] =
      (ModeState.init mask group files).setFile sock (some ⟨maskedMode 0o777 (mask &&& 0o777), group, true⟩) := by
    simp only [ModeState.ops, ModeState.op, ModeState.setFile, ModeState.init, List.foldl_cons, List.foldl_nil, if_true,
      Bool.false_eq_true, if_false]
    congr 1
    funext p
    by_cases e : p = sock <;> simp [e]
  obtain ⟨_, r2, _⟩ := runs_started programs ((ModeState.init mask group files).ops [.unlink sock, .bind sock]) (by rw [h0]; rfl)
  rw [← ops_append] at r2
  refine ⟨⟨maskedMode 0o777 (mask &&& 0o777), group, true⟩, ?_, ?_⟩
  · unfold forkServerModes
    rw [r2, h0]
    simp [ModeState.setFile]
  · unfold OthersConnect
    rw [maskedMode_bit _ _ _ (by omega), mask_bit _ _ (by omega)]
    unfold MaskKeepsOthersOut at h
    have : mask.testBit 1 = false := by simpa using h
    rw [this]; decide

/-! ## Cases -/

/-- Stale sockets, open to all, and a umask of 0: closed at the end. -/
example : ((ModeState.init 0 1 (fun _ => some ⟨0o777, 7, true⟩)).ops
    (policyDaemonModes true 5 ⟨c!"/e", c!"/g", c!"/m"⟩)).files c!"/e" = some ⟨0o660, 5, true⟩ := by decide

/-- In between, the socket has already been closed to others. -/
example : ((ModeState.init 0 1 (fun _ => none)).ops
    ((policyDaemonModes true 5 ⟨c!"/e", c!"/g", c!"/m"⟩).take 7)).files c!"/e" = some ⟨0o770, 5, true⟩ := by decide

/-- A service, a restart of the agent, a service. -/
example : ((ModeState.init 0o022 1 (fun _ => none)).ops
    (daemonModes false c!"log" c!"qrexec.3" [.serve, .restart, .serve])).started = [0o077, 0o077] := by decide

/-- The usual umask keeps others out of the fork server. -/
example : MaskKeepsOthersOut 0o022 ∧ ∃ f, ((ModeState.init 0o022 1 (fun _ => none)).ops
    ((forkServerModes c!"s" 1).take 2)).files c!"s" = some f ∧ f.mine = true := ⟨(show Nat.testBit 0o022 1 = true by decide), ⟨0o755, 1, true⟩, by decide, rfl⟩

end Qrexec
