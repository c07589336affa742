import Verif.Model.PdStart
import Mathlib.Tactic.SplitIfs
import Mathlib.Tactic.ByContra

/-!
# C121: the sockets of the policy daemon
-/
namespace Qrexec

/-! ## Specification -/

/-- This process serves `svc` at `p`. -/
def Serves (s : PdProc) (p : Str) (svc : PdService) : Prop :=
  ∃ n, s.fs p = some n ∧ n.kind = .socket (some svc)

/-- No user but the owner and the group may write to (connect to) the socket: the last octal
digit of its mode is 0. -/
def ClosedToOthers (n : FsNode) : Prop := n.mode % 8 = 0

/-- The process serves nothing yet. -/
def ServesNothing (s : PdProc) : Prop := ∀ p svc, ¬ Serves s p svc

/-! ## The invariant of the start -/

/-- Every socket it serves is closed to others, and belongs to the group `g`, and the policy was
loaded and is watched. -/
def StartInv (g : Nat) (s : PdProc) : Prop :=
  ∀ p n svc, s.fs p = some n → n.kind = .socket (some svc) →
    ClosedToOthers n ∧ n.group = g ∧ s.loaded = true ∧ s.watching = true

theorem put_fs (s : PdProc) (p x : Str) (n : Option FsNode) :
    (s.put p n).fs x = if x = p then n else s.fs x := rfl

/-- An operation that keeps the invariant. -/
def OpOk (g : Nat) (s : PdProc) : PdOp → Prop
  | .umask _ => True
  | .setgid _ => True
  | .unlink _ => True
  | .load => True
  | .watch => True
  | .bind _ _ => s.umask = 0o007 ∧ s.gid = g ∧ s.loaded = true ∧ s.watching = true
  | .chmod _ m => m % 8 = 0

theorem inv_put_none {g : Nat} {s : PdProc} (h : StartInv g s) (p : Str) :
    StartInv g (s.put p none) := by
  intro x n svc hx hk
  rw [put_fs] at hx
  split at hx
  · cases hx
  · exact h x n svc hx hk

theorem step_inv {g : Nat} {ok : Bool} {s s' : PdProc} {op : PdOp} (h : StartInv g s)
    (ho : OpOk g s op) (hs : s.step ok op = some s') : StartInv g s' := by
  cases op with
  | umask m => cases hs; exact h
  | setgid m => cases hs; exact h
  | unlink p =>
    simp only [PdProc.step] at hs
    split at hs
    · cases hs; exact h
    · split at hs
      · cases hs
      · cases hs; exact inv_put_none h p
  | load =>
    simp only [PdProc.step] at hs
    split at hs
    · cases hs
      intro p n svc hp hk
      obtain ⟨a, b, _, d⟩ := h p n svc hp hk
      exact ⟨a, b, rfl, d⟩
    · cases hs
  | watch =>
    cases hs
    intro p n svc hp hk
    obtain ⟨a, b, c, _⟩ := h p n svc hp hk
    exact ⟨a, b, c, rfl⟩
  | bind p svc =>
    simp only [PdProc.step, PdProc.bind] at hs
    obtain ⟨h1, h2, h3, h4⟩ := ho
    have h' : StartInv g (if statIsSocket s.fs p then s.put p none else s) := by
      split
      · exact inv_put_none h p
      · exact h
    have hl : (if statIsSocket s.fs p then s.put p none else s).loaded = true := by
      split <;> exact h3
    have hw : (if statIsSocket s.fs p then s.put p none else s).watching = true := by
      split <;> exact h4
    revert hs h' hl hw
    generalize (if statIsSocket s.fs p then s.put p none else s) = t
    intro hs h' hl hw
    split at hs
    · cases hs
    · cases hs
      intro x n svc' hx hk
      rw [put_fs] at hx
      split at hx
      · cases hx
        refine ⟨?_, h2, hl, hw⟩
        unfold ClosedToOthers
        simp only [h1]
        decide
      · exact h' x n svc' hx hk
  | chmod p m =>
    simp only [PdProc.step] at hs
    split at hs
    · cases hs
    · rename_i n0 hn0
      cases hs
      intro x n svc hx hk
      rw [put_fs] at hx
      split at hx
      · cases hx
        obtain ⟨_, b, c, d⟩ := h p n0 svc hn0 hk
        exact ⟨ho, b, c, d⟩
      · exact h x n svc hx hk

/-- What the first operations leave for the rest. -/
structure Ready (g : Nat) (s : PdProc) : Prop where
  umask : s.umask = 0o007
  gid : s.gid = g

theorem ready_step {g : Nat} {ok : Bool} {s s' : PdProc} {op : PdOp} (h : Ready g s)
    (h1 : ∀ m, op ≠ .umask m) (h2 : ∀ m, op ≠ .setgid m) (hs : s.step ok op = some s') :
    Ready g s' ∧ (s.loaded = true → s'.loaded = true) ∧
      (s.watching = true → s'.watching = true) := by
  cases op with
  | umask m => exact absurd rfl (h1 m)
  | setgid m => exact absurd rfl (h2 m)
  | unlink p =>
    simp only [PdProc.step] at hs
    split at hs
    · cases hs; exact ⟨h, fun h => h, fun h => h⟩
    · split at hs
      · cases hs
      · cases hs; exact ⟨⟨h.1, h.2⟩, fun h => h, fun h => h⟩
  | load =>
    simp only [PdProc.step] at hs
    split at hs
    · cases hs; exact ⟨⟨h.1, h.2⟩, fun _ => rfl, fun h => h⟩
    · cases hs
  | watch => cases hs; exact ⟨⟨h.1, h.2⟩, fun h => h, fun _ => rfl⟩
  | bind p svc =>
    simp only [PdProc.step, PdProc.bind] at hs
    split at hs
    · cases hs
    · cases hs
      refine ⟨⟨?_, ?_⟩, fun h => ?_, fun h => ?_⟩
      · show (if _ then _ else s : PdProc).umask = _
        split <;> exact h.1
      · show (if _ then _ else s : PdProc).gid = _
        split <;> exact h.2
      · show (if _ then _ else s : PdProc).loaded = _
        split <;> exact h
      · show (if _ then _ else s : PdProc).watching = _
        split <;> exact h
  | chmod p m =>
    simp only [PdProc.step] at hs
    split at hs
    · cases hs
    · cases hs; exact ⟨⟨h.1, h.2⟩, fun h => h, fun h => h⟩

/-- A checker for lists of operations: `bind` only with the umask and group set and the policy
loaded and watched, `chmod` only to modes closed to others. -/
def opsOk (um gd ld wt : Bool) (q : Nat) : List PdOp → Bool
  | [] => true
  | .umask m :: ops => opsOk (m == 0o007) gd ld wt q ops
  | .setgid g :: ops => opsOk um (g == q) ld wt q ops
  | .unlink _ :: ops => opsOk um gd ld wt q ops
  | .load :: ops => opsOk um gd true wt q ops
  | .watch :: ops => opsOk um gd ld true q ops
  | .bind _ _ :: ops => um && gd && ld && wt && opsOk um gd ld wt q ops
  | .chmod _ m :: ops => m % 8 == 0 && opsOk um gd ld wt q ops

theorem opsOk_inv {g : Nat} {ok : Bool} (ops : List PdOp) (s : PdProc) (h : StartInv g s)
    (um gd ld wt : Bool) (h1 : um = true → s.umask = 0o007) (h2 : gd = true → s.gid = g)
    (h3 : ld = true → s.loaded = true) (h4 : wt = true → s.watching = true)
    (hc : opsOk um gd ld wt g ops = true) :
    ∀ m ∈ (s.doAll ok ops).1, StartInv g m := by
  induction ops generalizing s um gd ld wt with
  | nil =>
    intro m hm
    simp only [PdProc.doAll, List.mem_singleton] at hm
    subst hm; exact h
  | cons op ops ih =>
    intro m hm
    have ho : OpOk g s op := by
      cases op with
      | bind p svc =>
        simp only [opsOk, Bool.and_eq_true] at hc
        exact ⟨h1 hc.1.1.1.1, h2 hc.1.1.1.2, h3 hc.1.1.2, h4 hc.1.2⟩
      | chmod p m =>
        simp only [opsOk, Bool.and_eq_true, beq_iff_eq] at hc
        exact hc.1
      | _ => trivial
    cases hs : s.step ok op with
    | none =>
      simp only [PdProc.doAll, hs, List.mem_singleton] at hm
      subst hm; exact h
    | some s' =>
      simp only [PdProc.doAll, hs, List.mem_cons] at hm
      rcases hm with rfl | hm
      · exact h
      · have hi := step_inv h ho hs
        cases op with
        | umask k =>
          cases hs
          exact ih _ hi _ gd ld wt (fun h => eq_of_beq h) h2 h3 h4 hc m hm
        | setgid k =>
          cases hs
          exact ih _ hi um _ ld wt h1 (fun h => eq_of_beq h) h3 h4 hc m hm
        | load =>
          simp only [PdProc.step] at hs
          split at hs
          · cases hs
            exact ih _ hi um gd true wt h1 h2 (fun _ => rfl) h4 hc m hm
          · cases hs
        | watch =>
          cases hs
          exact ih _ hi um gd ld true h1 h2 h3 (fun _ => rfl) hc m hm
        | unlink p =>
          simp only [PdProc.step] at hs
          split at hs
          · cases hs; exact ih _ hi um gd ld wt h1 h2 h3 h4 hc m hm
          · split at hs
            · cases hs
            · cases hs; exact ih _ hi um gd ld wt h1 h2 h3 h4 hc m hm
        | bind p svc =>
          simp only [opsOk, Bool.and_eq_true] at hc
          have hr := ready_step (g := g) (s := s) ⟨h1 hc.1.1.1.1, h2 hc.1.1.1.2⟩
            (fun _ h => by cases h) (fun _ h => by cases h) hs
          exact ih _ hi um gd ld wt (fun _ => hr.1.1) (fun _ => hr.1.2) (fun h => hr.2.1 (h3 h))
            (fun h => hr.2.2 (h4 h)) hc.2 m hm
        | chmod p k =>
          simp only [opsOk, Bool.and_eq_true] at hc
          simp only [PdProc.step] at hs
          split at hs
          · cases hs
          · cases hs; exact ih _ hi um gd ld wt h1 h2 h3 h4 hc.2 m hm

/-- **C121, never open to others.** At no moment of its start, whatever was left at the paths and
whatever it inherited, can a user outside the group connect to a socket the daemon serves; it
serves nothing before the policy was loaded and is watched. -/
theorem C121_closed (root : Bool) (qubes : Nat) (policy eval gui : Str) (ok : Bool) (s : PdProc)
    (h0 : ServesNothing s) (hg : root = false → s.gid = qubes) :
    ∀ m ∈ (s.doAll ok (pdStartOps root qubes policy eval gui)).1, ∀ p n svc,
      m.fs p = some n → n.kind = .socket (some svc) →
      ClosedToOthers n ∧ n.group = qubes ∧ m.loaded = true ∧ m.watching = true := by
  have hi : StartInv qubes s := fun p n svc hp hk => absurd ⟨n, hp, hk⟩ (h0 p svc)
  cases root with
  | true =>
    exact opsOk_inv _ s hi false false false false (fun h => by cases h) (fun h => by cases h)
      (fun h => by cases h) (fun h => by cases h) (by simp [pdStartOps, opsOk])
  | false =>
    exact opsOk_inv _ s hi false true false false (fun h => by cases h) (fun _ => hg rfl)
      (fun h => by cases h) (fun h => by cases h) (by simp [pdStartOps, opsOk])

/-! ## It starts whatever was left behind -/

/-- What unlinking gives. -/
theorem step_unlink {ok : Bool} {s : PdProc} {p : Str} (h : ∀ n, s.fs p = some n → n.kind ≠ .dir) :
    ∃ s', s.step ok (.unlink p) = some s' ∧ s'.fs p = none ∧ (∀ x, x ≠ p → s'.fs x = s.fs x) ∧
      s'.umask = s.umask ∧ s'.gid = s.gid := by
  simp only [PdProc.step]
  cases hp : s.fs p with
  | none => exact ⟨s, rfl, hp, fun _ _ => rfl, rfl, rfl⟩
  | some n =>
    simp only [if_neg (h n hp)]
    exact ⟨_, rfl, by simp [put_fs], fun x hx => by simp [put_fs, hx], rfl, rfl⟩

theorem bind_free {s : PdProc} {p : Str} {svc : PdService} (h : s.fs p = none) :
    s.bind p svc =
      some (s.put p (some ⟨.socket (some svc), 0o777 - (s.umask &&& 0o777), s.gid⟩)) := by
  have hs : statIsSocket s.fs p = false := by
    unfold statIsSocket; rw [h]; rfl
  unfold PdProc.bind
  simp only [hs, Bool.false_eq_true, if_false, h]

/-- What is at the paths in the end. -/
def AllServed (qubes : Nat) (policy eval gui : Str) (s : PdProc) : Prop :=
  s.fs policy = some ⟨.socket (some .requests), 0o660, qubes⟩ ∧
  s.fs eval = some ⟨.socket (some (.eval false c!"policy.EvalSimple")), 0o660, qubes⟩ ∧
  s.fs gui = some ⟨.socket (some (.eval true c!"policy.EvalGUI")), 0o660, qubes⟩

theorem ops_serve (qubes : Nat) (policy eval gui : Str) (h12 : policy ≠ eval)
    (h13 : policy ≠ gui) (h23 : eval ≠ gui) (s : PdProc) (hu : s.umask = 0o007)
    (hg : s.gid = qubes) (hd : ∀ p, p = policy ∨ p = eval ∨ p = gui → ∀ n, s.fs p = some n →
      n.kind ≠ .dir) :
    ∃ m, (s.doAll true [.unlink eval, .unlink gui, .unlink policy, .load, .watch,
        .bind policy .requests,
        .bind eval (.eval false c!"policy.EvalSimple"),
        .bind gui (.eval true c!"policy.EvalGUI"),
        .chmod eval 0o660, .chmod gui 0o660, .chmod policy 0o660]).2 = some m ∧
      AllServed qubes policy eval gui m ∧
      ∀ x, x ≠ policy → x ≠ eval → x ≠ gui → m.fs x = s.fs x := by
  obtain ⟨s1, e1, f1, k1, u1, g1⟩ := step_unlink (ok := true) (s := s) (p := eval)
    (hd eval (.inr (.inl rfl)))
  obtain ⟨s2, e2, f2, k2, u2, g2⟩ := step_unlink (ok := true) (s := s1) (p := gui) (by
    intro n hn; rw [k1 gui (Ne.symm h23)] at hn; exact hd gui (.inr (.inr rfl)) n hn)
  obtain ⟨s3, e3, f3, k3, u3, g3⟩ := step_unlink (ok := true) (s := s2) (p := policy) (by
    intro n hn; rw [k2 policy h13, k1 policy h12] at hn; exact hd policy (.inl rfl) n hn)
  have p1 : s3.fs eval = none := by rw [k3 eval (Ne.symm h12), k2 eval h23, f1]
  have p2 : s3.fs gui = none := by rw [k3 gui (Ne.symm h13), f2]
  have hu3 : s3.umask = 0o007 := by rw [u3, u2, u1, hu]
  have hg3 : s3.gid = qubes := by rw [g3, g2, g1, hg]
  simp only [PdProc.doAll, e1, e2, e3]
  simp only [PdProc.step, if_true]
  rw [bind_free (by exact f3)]
  simp only
  rw [bind_free (by simp only [put_fs, if_neg (Ne.symm h12)]; exact p1)]
  simp only
  rw [bind_free (by simp only [put_fs, if_neg (Ne.symm h13), if_neg (Ne.symm h23)]; exact p2)]
  simp only [put_fs, h12, h13, h23, Ne.symm h12, Ne.symm h13, Ne.symm h23, if_true, if_false,
    PdProc.put]
  refine ⟨_, rfl, ⟨?_, ?_, ?_⟩, ?_⟩
  · simp only [h12, h13, h23, Ne.symm h12, Ne.symm h13, Ne.symm h23, if_true, if_false, hg3]
  · simp only [h12, h13, h23, Ne.symm h12, Ne.symm h13, Ne.symm h23, if_true, if_false, hg3]
  · simp only [h12, h13, h23, Ne.symm h12, Ne.symm h13, Ne.symm h23, if_true, if_false, hg3]
  · intro x x1 x2 x3
    simp only [x1, x2, x3, if_false]
    rw [k3 x x1, k2 x x3, k1 x x2]

/-- **C121, it serves.** Whatever an earlier run or anybody else left at the three paths (sockets,
files, links to anywhere), unless it is a directory, the daemon starts if the policy loads: each
path leads to its own service, and nothing else in the file system changes. -/
theorem C121_serves (root : Bool) (qubes : Nat) (policy eval gui : Str) (h12 : policy ≠ eval)
    (h13 : policy ≠ gui) (h23 : eval ≠ gui) (s : PdProc) (hg : root = false → s.gid = qubes)
    (hd : ∀ p, p = policy ∨ p = eval ∨ p = gui → ∀ n, s.fs p = some n → n.kind ≠ .dir) :
    ∃ m, (s.doAll true (pdStartOps root qubes policy eval gui)).2 = some m ∧
      AllServed qubes policy eval gui m ∧
      ∀ x, x ≠ policy → x ≠ eval → x ≠ gui → m.fs x = s.fs x := by
  cases root with
  | true =>
    exact ops_serve qubes policy eval gui h12 h13 h23
      { s with umask := 0o007, gid := qubes } rfl rfl hd
  | false =>
    exact ops_serve qubes policy eval gui h12 h13 h23
      { s with umask := 0o007 } rfl (hg rfl) hd

/-- **C121, no policy, no sockets.** If the policy does not load the daemon ends, has served
nothing, and has left no socket behind that somebody could wait at. -/
theorem C121_no_policy (root : Bool) (qubes : Nat) (policy eval gui : Str) (s : PdProc)
    (h0 : ServesNothing s) (h12 : policy ≠ eval) (h13 : policy ≠ gui) (h23 : eval ≠ gui)
    (hd : ∀ p, p = policy ∨ p = eval ∨ p = gui → ∀ n, s.fs p = some n → n.kind ≠ .dir) :
    (s.doAll false (pdStartOps root qubes policy eval gui)).2 = none ∧
    (∀ m ∈ (s.doAll false (pdStartOps root qubes policy eval gui)).1, ServesNothing m) ∧
    ∃ m, (s.doAll false (pdStartOps root qubes policy eval gui)).1.getLast? = some m ∧
      m.fs policy = none ∧ m.fs eval = none ∧ m.fs gui = none := by
  have key : ∀ s : PdProc, ServesNothing s →
      (∀ p, p = policy ∨ p = eval ∨ p = gui → ∀ n, s.fs p = some n → n.kind ≠ .dir) →
      ∀ ops, (s.doAll false ([.unlink eval, .unlink gui, .unlink policy, .load] ++ ops)).2 =
          none ∧
        (∀ m ∈ (s.doAll false ([.unlink eval, .unlink gui, .unlink policy, .load] ++ ops)).1,
          ServesNothing m) ∧
        ∃ m, (s.doAll false ([.unlink eval, .unlink gui, .unlink policy, .load] ++
            ops)).1.getLast? = some m ∧
          m.fs policy = none ∧ m.fs eval = none ∧ m.fs gui = none := by
    intro s h0 hd ops
    obtain ⟨s1, e1, f1, k1, u1, g1⟩ := step_unlink (ok := false) (s := s) (p := eval)
      (hd eval (.inr (.inl rfl)))
    obtain ⟨s2, e2, f2, k2, u2, g2⟩ := step_unlink (ok := false) (s := s1) (p := gui) (by
      intro n hn; rw [k1 gui (Ne.symm h23)] at hn; exact hd gui (.inr (.inr rfl)) n hn)
    obtain ⟨s3, e3, f3, k3, u3, g3⟩ := step_unlink (ok := false) (s := s2) (p := policy) (by
      intro n hn; rw [k2 policy h13, k1 policy h12] at hn; exact hd policy (.inl rfl) n hn)
    have hn : ∀ (a b : PdProc) (p : Str), ServesNothing a → b.fs p = none →
        (∀ x, x ≠ p → b.fs x = a.fs x) → ServesNothing b := by
      intro a b p ha hb hx x svc hs
      obtain ⟨n, hn, hk⟩ := hs
      by_cases hxp : x = p
      · subst hxp; rw [hb] at hn; cases hn
      · rw [hx x hxp] at hn; exact ha x svc ⟨n, hn, hk⟩
    have n1 := hn s s1 eval h0 f1 k1
    have n2 := hn s1 s2 gui n1 f2 k2
    have n3 := hn s2 s3 policy n2 f3 k3
    have e4 : s3.step false .load = none := rfl
    simp only [List.cons_append, List.nil_append, PdProc.doAll, e1, e2, e3, e4]
    refine ⟨trivial, ?_, s3, rfl, f3, ?_, ?_⟩
    · intro m hm
      simp only [List.mem_cons, List.not_mem_nil, or_false] at hm
      rcases hm with rfl | rfl | rfl | rfl
      · exact h0
      · exact n1
      · exact n2
      · exact n3
    · rw [k3 eval (Ne.symm h12), k2 eval h23, f1]
    · rw [k3 gui (Ne.symm h13), f2]
  have hl : ∀ (a : PdProc) (l : List PdProc) (m : PdProc), l.getLast? = some m →
      (a :: l).getLast? = some m := by
    intro a l m h
    rw [List.getLast?_cons, h]; rfl
  cases root with
  | true =>
    obtain ⟨a, b, m, c, d⟩ := key { s with umask := 0o007, gid := qubes } h0 hd _
    refine ⟨a, ?_, m, hl _ _ _ (hl _ _ _ c), d⟩
    intro m hm
    rcases List.mem_cons.1 hm with rfl | hm
    · exact h0
    · rcases List.mem_cons.1 hm with rfl | hm
      · exact h0
      · exact b m hm
  | false =>
    obtain ⟨a, b, m, c, d⟩ := key { s with umask := 0o007 } h0 hd _
    refine ⟨a, ?_, m, hl _ _ _ c, d⟩
    intro m hm
    rcases List.mem_cons.1 hm with rfl | hm
    · exact h0
    · exact b m hm

/-! ## The policy agent's socket -/

/-- **C121, the agent.** A socket or file that an earlier run left does not keep the policy agent
from starting; nor does a link to something that exists. -/
theorem C121_agent (s : PdProc) (p : Str) (hd : ∀ n, s.fs p = some n → n.kind ≠ .dir)
    (hl : ∀ n t, s.fs p = some n → n.kind = .link t → s.fs t ≠ none) :
    ∃ m, agentStart s p = some m ∧ Serves m p .requests ∧ ∀ x, x ≠ p → m.fs x = s.fs x := by
  unfold agentStart
  cases hp : s.fs p with
  | none =>
    have he : pathExists s.fs p = false := by unfold pathExists; rw [hp]; rfl
    simp only [he, Bool.false_eq_true, if_false, Option.bind_some, bind_free hp]
    exact ⟨_, rfl, ⟨_, by rw [put_fs, if_pos rfl], rfl⟩, fun x hx => by rw [put_fs, if_neg hx]⟩
  | some n =>
    have he : pathExists s.fs p = true := by
      unfold pathExists
      rw [hp]
      simp only [Option.map_some]
      cases hk : n.kind with
      | link t =>
        simp only
        cases ht : s.fs t with
        | none => exact absurd ht (hl n t hp hk)
        | some _ => rfl
      | _ => rfl
    have hput : (s.put p none).fs p = none := by rw [put_fs, if_pos rfl]
    simp only [he, if_true, if_neg (hd n hp), Option.bind_some, bind_free hput]
    exact ⟨_, rfl, ⟨_, by rw [put_fs, if_pos rfl], rfl⟩,
      fun x hx => by rw [put_fs, if_neg hx, put_fs, if_neg hx]⟩

/-- A link that leads nowhere does: `os.path.exists` does not see it. The daemon, which tries to
remove first, is not kept from starting (C121_serves). -/
theorem C121_agent_link (s : PdProc) (p t : Str) (m g : Nat) (hp : s.fs p = some ⟨.link t, m, g⟩)
    (ht : s.fs t = none) : agentStart s p = none := by
  have he : pathExists s.fs p = false := by unfold pathExists; rw [hp]; simp [ht]
  have hs : statIsSocket s.fs p = false := by unfold statIsSocket; rw [hp]; simp [ht]
  unfold agentStart PdProc.bind
  simp only [he, Bool.false_eq_true, if_false, Option.bind_some, hs, hp]

/-- A directory at one of the paths keeps the daemon from starting, and nothing is served. -/
theorem C121_directory (ok root : Bool) (qubes : Nat) (policy eval gui : Str) (s : PdProc)
    (m g : Nat) (he : s.fs eval = some ⟨.dir, m, g⟩) :
    (s.doAll ok (pdStartOps root qubes policy eval gui)).2 = none := by
  cases root <;> simp [pdStartOps, PdProc.doAll, PdProc.step, he]

/-! ## A concrete start -/

/-- Leftovers: a dead socket open to everybody, a link that leads nowhere, a file. -/
def exLeft : PdProc :=
  ⟨fun p => if p = c!"policy.sock" then some ⟨.socket none, 0o777, 0⟩
    else if p = c!"EvalSimple" then some ⟨.link c!"gone", 0o777, 0⟩
    else if p = c!"EvalGUI" then some ⟨.file, 0o644, 0⟩ else none, 0o022, 0, false, false⟩

/-- It starts; the sockets are served by group 98 only, and it takes 14 states; the agent would
not start at the link. -/
theorem C121_example : ServesNothing exLeft ∧
    (∃ m, (exLeft.doAll true (pdStartOps true 98 c!"policy.sock" c!"EvalSimple"
      c!"EvalGUI")).2 = some m ∧ AllServed 98 c!"policy.sock" c!"EvalSimple" c!"EvalGUI" m) ∧
    (exLeft.doAll true (pdStartOps true 98 c!"policy.sock" c!"EvalSimple"
      c!"EvalGUI")).1.length = 14 ∧
    (agentStart exLeft c!"EvalSimple").isNone = true := by
  refine ⟨?_, ⟨_, rfl, rfl, rfl, rfl⟩, rfl, rfl⟩
  intro p svc h
  obtain ⟨n, hn, hk⟩ := h
  simp only [exLeft] at hn
  split at hn
  · cases hn; cases hk
  · split at hn
    · cases hn; cases hk
    · split at hn
      · cases hn; cases hk
      · cases hn

end Qrexec
