import Verif.Model.LocalFds
import Verif.Props.Fds

/-!
# C119: descriptors of local programs, of commands nobody waits for and of the policy program
-/
namespace Qrexec

theorem keep_get (t : FdTable) (f : FdFile) (n : Nat) :
    fdGet (fdOpenKeep t f).1 n = if n = (fdOpenKeep t f).2 then some ⟨f, false⟩ else fdGet t n := fdGet_set ..

theorem keep_new (t : FdTable) (f : FdFile) : fdGet t (fdOpenKeep t f).2 = none := fdGet_free t

theorem keep_ge (t : FdTable) (f : FdFile) (h : ∀ n < 3, fdGet t n ≠ none) : 3 ≤ (fdOpenKeep t f).2 := fdFree_ge t 3 h

/-- What there is to know about opening a descriptor. -/
theorem keep_all (t : FdTable) (f : FdFile) (h : ∀ n < 3, fdGet t n ≠ none) :
    ∃ t' k, fdOpenKeep t f = (t', k) ∧ 3 ≤ k ∧ fdGet t k = none ∧ (∀ n, fdGet t' n = if n = k then some ⟨f, false⟩ else fdGet t n) ∧
    ∀ n < 3, fdGet t' n ≠ none := by
  refine ⟨_, _, rfl, keep_ge t f h, keep_new t f, keep_get t f, ?_⟩
  intro n hn
  show fdGet (fdOpenKeep t f).1 n ≠ none
  rw [keep_get]
  split_ifs
  · simp
  · exact h n hn

theorem open_all (t : FdTable) (f : FdFile) (h : ∀ n < 3, fdGet t n ≠ none) :
    ∃ t' k, fdOpen t f = (t', k) ∧ 3 ≤ k ∧ fdGet t k = none ∧ (∀ n, fdGet t' n = if n = k then some ⟨f, true⟩ else fdGet t n) ∧
    ∀ n < 3, fdGet t' n ≠ none :=
  ⟨_, _, rfl, fdOpen_ge t f h, fdOpen_new t f, fdOpen_get t f, fdOpen_std t f h⟩

theorem dup_all (t : FdTable) (i : Nat) (h : ∀ n < 3, fdGet t n ≠ none) (hi : i < 3) :
    ∃ t' k e, fdDup t i = some (t', k) ∧ fdGet t i = some e ∧ 3 ≤ k ∧ fdGet t k = none ∧
    (∀ n, fdGet t' n = if n = k then some ⟨e.file, false⟩ else fdGet t n) ∧ ∀ n < 3, fdGet t' n ≠ none := by
  obtain ⟨e, he⟩ := Option.ne_none_iff_exists'.1 (h i hi)
  obtain ⟨t', k, h1, h2, h3, h4, h5⟩ := keep_all t e.file h
  refine ⟨t', k, e, ?_, he, h2, h3, h4, h5⟩
  unfold fdDup
  rw [he]
  exact congrArg some h1

theorem dup2_all (t : FdTable) (a b : Nat) (e : FdEnt) (h : fdGet t a = some e) (hne : a ≠ b) :
    ∃ t', fdDup2 t a b = some t' ∧ ∀ n, fdGet t' n = if n = b then some ⟨e.file, false⟩ else fdGet t n := by
  unfold fdDup2
  rw [h]
  dsimp only
  rw [if_neg hne]
  exact ⟨_, rfl, fun n => fdGet_set ..⟩

theorem fresh_ne {t' t : FdTable} {k n : Nat} {e : FdEnt} (g : ∀ n, fdGet t' n = if n = k then some e else fdGet t n)
    (h : fdGet t' n = none) : n ≠ k ∧ fdGet t n = none := by
  rw [g] at h
  split_ifs at h with hk
  exact ⟨hk, h⟩

theorem stdClosed_none {t : FdTable} : stdClosed t = none ↔ ∀ n < 3, fdGet t n ≠ none := by
  unfold stdClosed
  rw [List.find?_eq_none]
  constructor
  · intro h n hn hz
    refine h n ?_ (by rw [hz]; rfl)
    have : n = 0 ∨ n = 1 ∨ n = 2 := by omega
    rcases this with rfl | rfl | rfl <;> simp
  · intro h n hn
    have : n < 3 := by
      simp only [List.mem_cons, List.not_mem_nil, or_false] at hn
      omega
    have := h n this
    cases hz : fdGet t n with
    | none => exact absurd hz this
    | some e => simp

/-- **C119, closed streams.** A program with stdin, stdout or stderr closed is told so and does nothing. -/
theorem C119_closed (pass : Bool) (trig : Nat) (t : FdTable) (n : Nat) (hn : n < 3) (hc : fdGet t n = none) :
    ∃ k < 3, clientVmRun pass trig t = .exits125 k ∧ fdGet t k = none := by
  unfold clientVmRun
  cases h : stdClosed t with
  | none => exact absurd hc (stdClosed_none.1 h n hn)
  | some k =>
    refine ⟨k, ?_, rfl, ?_⟩
    · have := List.mem_of_find?_eq_some h
      simp only [List.mem_cons, List.not_mem_nil, or_false] at this
      omega
    · have := List.find?_some h
      simpa using this

/-- What the caller of qrexec-client-vm has nothing to do with: the pairs. -/
def Strange (f : FdFile) : Prop := ∀ k, f ≠ .other k

set_option maxHeartbeats 1600000 in
/-- **C119, the local program.** Its stdin and stdout are the streams of the call; where the variables `SAVED_FD_0`, `SAVED_FD_1`
(and `SAVED_FD_2`, if PASS_LOCAL_STDERR is set) say, it has the original ones; besides, it has what the caller of the program left it
and nothing else: not the connection to the agent, and no other end of a stream. -/
theorem C119_program (pass : Bool) (trig : Nat) (t : FdTable) (hstd : ∀ n < 3, fdGet t n ≠ none) :
    ∃ l c saved, clientVmRun pass trig t = .runs l ∧ l.child = some (c, saved) ∧
      saved.map Prod.fst = (if pass then [0, 1, 2] else [0, 1]) ∧ (saved.map Prod.snd).Nodup ∧
      (∀ p ∈ saved, 3 ≤ p.2 ∧ fdGet t p.2 = none ∧ ∃ e, fdGet t p.1 = some e ∧ fdGet c p.2 = some ⟨e.file, false⟩) ∧
      fdGet c 0 = some ⟨.inService, false⟩ ∧ fdGet c 1 = some ⟨.outService, false⟩ ∧
      (∀ n, n ≠ 0 → n ≠ 1 → n ∉ saved.map Prod.snd → fdGet c n = fdGet (fdExec t) n) ∧
      (∀ n, fdGet l.table n = if n = l.stdin then some ⟨.inAgent, false⟩ else if n = l.stdout then some ⟨.outAgent, false⟩
        else if n = l.trigger then some ⟨.other trig, false⟩ else fdGet t n) ∧
      l.stdin ≠ l.stdout ∧ l.stdin ≠ l.trigger ∧ l.stdout ≠ l.trigger := by
  obtain ⟨t0, trigger, e0, a0, f0, g0, s0⟩ := keep_all t (.other trig) hstd
  obtain ⟨t1, in0, e1, a1, f1, g1, s1⟩ := keep_all t0 .inService s0
  obtain ⟨t2, in1, e2, a2, f2, g2, s2⟩ := keep_all t1 .inAgent s1
  obtain ⟨t3, out0, e3, a3, f3, g3, s3⟩ := keep_all t2 .outAgent s2
  obtain ⟨t4, out1, e4, a4, f4, g4, s4⟩ := keep_all t3 .outService s3
  have hrun : clientVmRun pass trig t = .runs ⟨fdSet (fdSet t4 in0 none) out1 none, in1, out0, trigger,
      clientVmChild pass t4 in0 in1 out0 out1 trigger⟩ := by
    unfold clientVmRun
    rw [stdClosed_none.2 hstd]
    simp only [e0, e1, e2, e3, e4]
  obtain ⟨m1, f1'⟩ := fresh_ne g0 f1
  obtain ⟨m2, f2'⟩ := fresh_ne g1 f2
  obtain ⟨m3, f2''⟩ := fresh_ne g0 f2'
  obtain ⟨m4, f3'⟩ := fresh_ne g2 f3
  obtain ⟨m5, f3'⟩ := fresh_ne g1 f3'
  obtain ⟨m6, f3'⟩ := fresh_ne g0 f3'
  obtain ⟨m7, f4'⟩ := fresh_ne g3 f4
  obtain ⟨m8, f4'⟩ := fresh_ne g2 f4'
  obtain ⟨m9, f4'⟩ := fresh_ne g1 f4'
  obtain ⟨m10, f4'⟩ := fresh_ne g0 f4'
  have gc : ∀ n, fdGet (fdSet (fdSet (fdSet t4 in1 none) out0 none) trigger none) n =
      if n = in0 then some ⟨.inService, false⟩ else if n = out1 then some ⟨.outService, false⟩ else fdGet t n := by
    intro n
    rw [fdGet_set, fdGet_set, fdGet_set, g4, g3, g2, g1, g0]
    split_ifs <;> first | rfl | (exfalso; omega) | (subst_vars; first | assumption | (symm; assumption))
  have gp : ∀ n, fdGet (fdSet (fdSet t4 in0 none) out1 none) n = if n = in1 then some ⟨.inAgent, false⟩ else if n = out0 then
      some ⟨.outAgent, false⟩ else if n = trigger then some ⟨.other trig, false⟩ else fdGet t n := by
    intro n
    rw [fdGet_set, fdGet_set, g4, g3, g2, g1, g0]
    split_ifs <;> first | rfl | (exfalso; omega) | (subst_vars; first | assumption | (symm; assumption))
  have su : ∀ n < 3, fdGet (fdSet (fdSet (fdSet t4 in1 none) out0 none) trigger none) n ≠ none := by
    intro n hn
    rw [gc]
    split_ifs
    · simp
    · simp
    · exact hstd n hn
  have hch : clientVmChild pass t4 in0 in1 out0 out1 trigger = match saveFds pass [0, 1, 2] (fdSet (fdSet (fdSet t4 in1 none) out0
      none) trigger none) with
      | none => none
      | some (t1, saved) => match fdDup2 t1 in0 0 with
        | none => none
        | some t2 => match fdDup2 t2 out1 1 with
          | none => none
          | some t3 => some (fdExec (fdSet (fdSet t3 in0 none) out1 none), saved) := rfl
  generalize fdSet (fdSet (fdSet t4 in1 none) out0 none) trigger none = u at gc su hch
  obtain ⟨u0, n0, x0, d0, h0, b0, k0, q0, v0⟩ := dup_all u 0 su (by omega)
  obtain ⟨u1, n1, x1, d1, h1, b1, k1, q1, v1⟩ := dup_all u0 1 v0 (by omega)
  obtain ⟨u2, n2, x2, d2, h2, b2, k2, q2, v2⟩ := dup_all u1 2 v1 (by omega)
  have gn : ∀ n, fdGet u n = none → n ≠ in0 ∧ n ≠ out1 ∧ fdGet t n = none := by
    intro n hn
    rw [gc] at hn
    split_ifs at hn with c1 c2
    exact ⟨c1, c2, hn⟩
  obtain ⟨l1, l2, l3⟩ := gn n0 k0
  obtain ⟨l4, k1'⟩ := fresh_ne q0 k1
  obtain ⟨l5, l6, l7⟩ := gn n1 k1'
  obtain ⟨l8, k2'⟩ := fresh_ne q1 k2
  obtain ⟨l9, k2'⟩ := fresh_ne q0 k2'
  obtain ⟨l10, l11, l12⟩ := gn n2 k2'
  have hg : ∀ n, fdGet (if pass then u2 else u1) n = if n = n2 ∧ pass = true then some ⟨x2.file, false⟩ else
      if n = n1 then some ⟨x1.file, false⟩ else if n = n0 then some ⟨x0.file, false⟩ else if n = in0 then some ⟨.inService, false⟩ else
      if n = out1 then some ⟨.outService, false⟩ else fdGet t n := by
    intro n
    cases pass
    · rw [if_neg (fun h => by cases h), if_neg (fun h => by cases h.2), q1, q0, gc]
    · simp only [if_true, and_true]
      rw [q2, q1, q0, gc]
  have fin : ∀ w, (∀ n, fdGet w n = fdGet (if pass then u2 else u1) n) → ∃ w1 w2, fdDup2 w in0 0 = some w1 ∧ fdDup2 w1 out1 1 = some w2 ∧
      ∀ n, fdGet (fdExec (fdSet (fdSet w2 in0 none) out1 none)) n = if n = 0 then some ⟨.inService, false⟩ else if n = 1 then
        some ⟨.outService, false⟩ else if n = n0 then some ⟨x0.file, false⟩ else if n = n1 then some ⟨x1.file, false⟩ else
        if n = n2 ∧ pass = true then some ⟨x2.file, false⟩ else fdGet (fdExec t) n := by
    intro w hw
    have i0 : fdGet w in0 = some ⟨.inService, false⟩ := by
      rw [hw, hg, if_neg (fun h => l10 h.1.symm), if_neg l5.symm, if_neg l1.symm, if_pos rfl]
    obtain ⟨w1, y1, z1⟩ := dup2_all w in0 0 _ i0 (by omega)
    have i1 : fdGet w1 out1 = some ⟨.outService, false⟩ := by
      rw [z1, if_neg (by omega), hw, hg, if_neg (fun h => l11 h.1.symm), if_neg l6.symm, if_neg l2.symm, if_neg m9, if_pos rfl]
    obtain ⟨w2, y2, z2⟩ := dup2_all w1 out1 1 _ i1 (by omega)
    refine ⟨w1, w2, y1, y2, fun n => ?_⟩
    rw [fdGet_exec, fdGet_exec, fdGet_set, fdGet_set, z2, z1, hw, hg]
    by_cases c0 : n = 0
    · subst c0
      rw [if_neg (by omega), if_neg (by omega), if_neg (by omega), if_pos rfl, if_pos rfl]; rfl
    by_cases c1 : n = 1
    · subst c1
      rw [if_neg (by omega), if_neg (by omega), if_pos rfl, if_neg c0, if_pos rfl]; rfl
    by_cases c2 : n = out1
    · subst c2
      rw [if_pos rfl, if_neg c0, if_neg c1, if_neg (by omega), if_neg (by omega), if_neg (by omega), f4']
    by_cases c3 : n = in0
    · subst c3
      rw [if_neg c2, if_pos rfl, if_neg c0, if_neg c1, if_neg (by omega), if_neg (by omega), if_neg (by omega), f1']
    rw [if_neg c2, if_neg c3, if_neg c1, if_neg c0, if_neg c0, if_neg c1]
    by_cases c4 : n = n0
    · subst c4
      rw [if_neg (by omega), if_neg (by omega), if_pos rfl, if_pos rfl]
      rfl
    by_cases c5 : n = n1
    · subst c5
      rw [if_neg (by omega), if_pos rfl, if_neg c4, if_pos rfl]
      rfl
    by_cases c6 : n = n2 ∧ pass = true
    · rw [if_pos c6, if_neg c4, if_neg c5, if_pos c6]
      rfl
    · rw [if_neg c6, if_neg c4, if_neg c5, if_neg c6, if_neg c5, if_neg c4, if_neg c3, if_neg c2]
  have y0 : fdGet t 0 = some x0 := by rw [← h0, gc, if_neg (by omega), if_neg (by omega)]
  have y1 : fdGet t 1 = some x1 := by rw [← h1, q0, gc, if_neg (by omega), if_neg (by omega), if_neg (by omega)]
  have y2 : fdGet t 2 = some x2 := by rw [← h2, q1, q0, gc, if_neg (by omega), if_neg (by omega), if_neg (by omega), if_neg (by omega)]
  cases pass with
  | true =>
    obtain ⟨w1, w2, r1, r2, r3⟩ := fin u2 (fun n => rfl)
    refine ⟨_, fdExec (fdSet (fdSet w2 in0 none) out1 none), [(0, n0), (1, n1), (2, n2)], hrun, ?_, rfl, ?_, ?_, ?_, ?_, ?_, gp,
      Ne.symm m4, m3, m6⟩
    · show clientVmChild true t4 in0 in1 out0 out1 trigger = _
      rw [hch]
      simp only [saveFds, d0, d1, d2, r1, r2, ne_eq, or_true, if_true]
    · simp; omega
    · intro p hp
      simp only [List.mem_cons, List.not_mem_nil, or_false] at hp
      rcases hp with rfl | rfl | rfl
      · exact ⟨b0, l3, x0, y0, by rw [r3, if_neg (by show n0 ≠ 0; omega), if_neg (by show n0 ≠ 1; omega), if_pos rfl]⟩
      · exact ⟨b1, l7, x1, y1, by rw [r3, if_neg (by show n1 ≠ 0; omega), if_neg (by show n1 ≠ 1; omega), if_neg l4, if_pos rfl]⟩
      · exact ⟨b2, l12, x2, y2, by rw [r3, if_neg (by show n2 ≠ 0; omega), if_neg (by show n2 ≠ 1; omega), if_neg l9, if_neg l8, if_pos ⟨rfl, rfl⟩]⟩
    · rw [r3, if_pos rfl]
    · rw [r3, if_neg (by decide), if_pos rfl]
    · intro n m0 m1 m2
      simp only [List.map_cons, List.map_nil, List.mem_cons, List.not_mem_nil, or_false, not_or] at m2
      rw [r3, if_neg m0, if_neg m1, if_neg m2.1, if_neg m2.2.1, if_neg (fun h => m2.2.2 h.1)]
  | false =>
    obtain ⟨w1, w2, r1, r2, r3⟩ := fin u1 (fun n => rfl)
    refine ⟨_, fdExec (fdSet (fdSet w2 in0 none) out1 none), [(0, n0), (1, n1)], hrun, ?_, rfl, ?_, ?_, ?_, ?_, ?_, gp,
      Ne.symm m4, m3, m6⟩
    · show clientVmChild false t4 in0 in1 out0 out1 trigger = _
      rw [hch]
      simp [saveFds, d0, d1, r1, r2]
    · simp; omega
    · intro p hp
      simp only [List.mem_cons, List.not_mem_nil, or_false] at hp
      rcases hp with rfl | rfl
      · exact ⟨b0, l3, x0, y0, by rw [r3, if_neg (by show n0 ≠ 0; omega), if_neg (by show n0 ≠ 1; omega), if_pos rfl]⟩
      · exact ⟨b1, l7, x1, y1, by rw [r3, if_neg (by show n1 ≠ 0; omega), if_neg (by show n1 ≠ 1; omega), if_neg l4, if_pos rfl]⟩
    · rw [r3, if_pos rfl]
    · rw [r3, if_neg (by decide), if_pos rfl]
    · intro n m0 m1 m2
      simp only [List.map_cons, List.map_nil, List.mem_cons, List.not_mem_nil, or_false, not_or] at m2
      rw [r3, if_neg m0, if_neg m1, if_neg m2.1, if_neg m2.2, if_neg (fun h => by cases h.2)]

/-- **C119, ends of the streams.** If the caller has nothing to do with the pairs, the program has none of the ends of
qrexec-client-vm, which has none of the ends of the program: each sees the end of what the other writes. -/
theorem C119_ends (pass : Bool) (trig : Nat) (t : FdTable) (hu : Usual t) :
    ∃ l c saved, clientVmRun pass trig t = .runs l ∧ l.child = some (c, saved) ∧
      (∀ n e, fdGet c n = some e → e.file ≠ .inAgent ∧ e.file ≠ .outAgent) ∧
      (∀ n e, fdGet l.table n = some e → e.file ≠ .inService ∧ e.file ≠ .outService) ∧
      (∀ n e, fdGet c n = some e → n = 0 ∨ e.file ≠ .inService) ∧ (∀ n e, fdGet c n = some e → n = 1 ∨ e.file ≠ .outService) := by
  obtain ⟨l, c, saved, h1, h2, _, _, h3, h4, h5, h6, h7, _⟩ := C119_program pass trig t hu.std
  have other : ∀ n e, fdGet c n = some e → (n = 0 ∧ e.file = .inService) ∨ (n = 1 ∧ e.file = .outService) ∨ ∃ k, e.file = .other k := by
    intro n e he
    by_cases n0 : n = 0
    · subst n0; rw [h4] at he; cases he; exact .inl ⟨rfl, rfl⟩
    by_cases n1 : n = 1
    · subst n1; rw [h5] at he; cases he; exact .inr (.inl ⟨rfl, rfl⟩)
    refine .inr (.inr ?_)
    by_cases hs : n ∈ saved.map Prod.snd
    · obtain ⟨p, hp, rfl⟩ := List.mem_map.1 hs
      obtain ⟨_, _, e', k1, k2⟩ := h3 p hp
      rw [k2] at he; cases he
      obtain ⟨k, hk⟩ := hu.own _ _ k1
      exact ⟨k, hk⟩
    · rw [h6 n n0 n1 hs, fdGet_exec] at he
      cases hx : fdGet t n with
      | none => rw [hx] at he; cases he
      | some x =>
        rw [hx] at he
        dsimp only at he
        split_ifs at he
        cases he
        exact hu.own _ _ hx
  refine ⟨l, c, saved, h1, h2, ?_, ?_, ?_, ?_⟩
  · intro n e he
    rcases other n e he with ⟨_, h⟩ | ⟨_, h⟩ | ⟨k, h⟩ <;> rw [h] <;> exact ⟨(fun e => nomatch e), (fun e => nomatch e)⟩
  · intro n e he
    rw [h7] at he
    split_ifs at he
    · cases he; exact ⟨(fun e => nomatch e), (fun e => nomatch e)⟩
    · cases he; exact ⟨(fun e => nomatch e), (fun e => nomatch e)⟩
    · cases he; exact ⟨(fun e => nomatch e), (fun e => nomatch e)⟩
    · obtain ⟨k, h⟩ := hu.own _ _ he
      rw [h]; exact ⟨(fun e => nomatch e), (fun e => nomatch e)⟩
  · intro n e he
    rcases other n e he with ⟨h, _⟩ | ⟨_, h⟩ | ⟨k, h⟩
    · exact .inl h
    · right; rw [h]; exact fun e => nomatch e
    · right; rw [h]; exact fun e => nomatch e
  · intro n e he
    rcases other n e he with ⟨_, h⟩ | ⟨h, _⟩ | ⟨k, h⟩
    · right; rw [h]; exact fun e => nomatch e
    · exact .inl h
    · right; rw [h]; exact fun e => nomatch e

/-- After `fix_fds` and `execve`: the entries, if nothing above 255 is inherited on an old kernel. -/
theorem fix_exec (cr : CloseRange) (hcr : cr ≠ .otherError) (t : FdTable) (a b c : Nat) (ea eb ec : FdEnt) (h1 : 1 ≤ b) (h2 : 2 ≤ c)
    (ha : fdGet t a = some ea) (hb : fdGet t b = some eb) (hc : fdGet t c = some ec)
    (hbig : cr = .ok ∨ ∀ n, 256 ≤ n → ∀ e, fdGet t n = some e → e.cloexec = true) :
    ∃ r, fixFds cr t a b c = .done r ∧
      (a ≠ 0 → fdGet (fdExec r) 0 = some ⟨ea.file, false⟩) ∧ (b ≠ 1 → fdGet (fdExec r) 1 = some ⟨eb.file, false⟩) ∧
      (c ≠ 2 → fdGet (fdExec r) 2 = some ⟨ec.file, false⟩) ∧ ∀ n, 3 ≤ n → fdGet (fdExec r) n = none := by
  obtain ⟨r, hfix, _, _, _, hrest, z0, z1, z2, _, hhi⟩ := C85_fix cr t a b c _ _ _ h1 h2 hcr ha hb hc
  refine ⟨r, hfix, ?_, ?_, ?_, ?_⟩
  · intro h; rw [fdGet_exec, z0 h]; rfl
  · intro h; rw [fdGet_exec, z1 h]; rfl
  · intro h; rw [fdGet_exec, z2 h]; rfl
  · intro n hn
    rw [fdGet_exec]
    by_cases hc : cr = .ok ∨ n < 256
    · rw [hrest n hn hc]
    · obtain ⟨hc1, hc2⟩ := not_or.1 hc
      rcases hhi n (by omega) with h | h
      · rw [h]
      · rw [h]
        cases hn : fdGet t n with
        | none => rfl
        | some e => dsimp only; rw [if_pos (hbig.resolve_left hc1 n (by omega) e hn)]

/-- The numbers of `/dev/null`, of a service or of a command whose output nobody waits for. -/
theorem fix_keep {cr : CloseRange} {t r : FdTable} {a b c : Nat} (h : fixFds cr t a b c = .done r) :
    (b = 1 → a ≠ 1 → fdGet r 1 = fdGet t 1) ∧ (c = 2 → fdGet r 2 = fdGet t 2) := by
  unfold fixFds at h
  by_cases hb : b < 1 ∨ c < 2
  · rw [if_pos hb] at h; cases h
  rw [if_neg hb] at h
  have mv : ∀ (t r : FdTable) (fd want : Nat), fdMove t fd want = some r → ∀ n, n ≠ want ∨ fd = want → fdGet r n = fdGet t n := by
    intro t r fd want hm n hn
    unfold fdMove fdDup2 at hm
    by_cases hq : fd = want
    · rw [if_neg (by simpa using hq)] at hm; cases hm; rfl
    · rw [if_pos hq] at hm
      cases hg : fdGet t fd with
      | none => rw [hg] at hm; cases hm
      | some e =>
        rw [hg] at hm
        dsimp only at hm
        rw [if_neg hq] at hm
        cases hm
        rw [fdGet_set, if_neg (hn.resolve_right hq)]
  cases h1 : fdMove t a 0 with
  | none => rw [h1] at h; cases h
  | some t1 =>
    rw [h1] at h
    dsimp only at h
    cases h2 : fdMove t1 b 1 with
    | none => rw [h2] at h; cases h
    | some t2 =>
      rw [h2] at h
      dsimp only at h
      cases h3 : fdMove t2 c 2 with
      | none => rw [h3] at h; cases h
      | some t3 =>
        rw [h3] at h
        dsimp only at h
        constructor
        · intro hb1 _
          rw [fdCloseRest_get cr t3 r h, if_pos (by omega), mv _ _ _ _ h3 1 (.inl (by decide)), mv _ _ _ _ h2 1 (.inr hb1),
            mv _ _ _ _ h1 1 (.inl (by decide))]
        · intro hc2
          rw [fdCloseRest_get cr t3 r h, if_pos (by omega), mv _ _ _ _ h3 2 (.inr hc2), mv _ _ _ _ h2 2 (.inl (by decide)),
            mv _ _ _ _ h1 2 (.inl (by decide))]

/-- **C119, a command nobody waits for.** Its stdin and stdout are /dev/null; its stderr is, for a service, the pipe to the logger,
else /dev/null; it has nothing else. The logger reads that pipe and has stdout and stderr of the agent, and nothing else, so that it
sees the end when the command and its children have ended. -/
theorem C119_just_exec (cr : CloseRange) (hcr : cr ≠ .otherError) (log : Bool) (null : Nat) (t : FdTable) (hstd : ∀ n < 3, fdGet t n ≠ none)
    (hbig : cr = .ok ∨ ((∀ n, 256 ≤ n → ∀ e, fdGet t n = some e → e.cloexec = true) ∧ ∃ k < 256, fdGet t k = none)) :
    ∃ c, (justExecFds cr log null t).1 = .done c ∧
      (∀ n, fdGet (fdExec c) n = if n = 0 then some ⟨.other null, false⟩ else if n = 1 then some ⟨.other null, false⟩
        else if n = 2 then some ⟨if log then .errService else .other null, false⟩ else none) ∧
      (log = false → (justExecFds cr log null t).2 = none) ∧
      (log = true → ∃ l, (justExecFds cr log null t).2 = some (.done l) ∧
        ∀ n, fdGet (fdExec l) n = if n = 0 then some ⟨.errAgent, false⟩ else if n = 1 ∨ n = 2 then fdGet (fdExec t) n else none) := by
  obtain ⟨t1, fdn, e1, a1, f1, g1, s1⟩ := keep_all t (.other null) hstd
  have hn : fdGet t1 fdn = some ⟨.other null, false⟩ := by rw [g1, if_pos rfl]
  have small : cr = .ok ∨ fdn < 256 := by
    rcases hbig with h | ⟨_, k, hk, hf⟩
    · exact .inl h
    · right
      have : fdn = fdFree t := (congrArg Prod.snd e1).symm
      by_contra hlt
      exact fdFree_least t k (by omega) hf
  have big1 : cr = .ok ∨ ∀ n, 256 ≤ n → ∀ e, fdGet t1 n = some e → e.cloexec = true := by
    rcases hbig with h | ⟨h, _⟩
    · exact .inl h
    · rcases small with h' | h'
      · exact .inl h'
      · refine .inr fun n hn e he => ?_
        rw [g1, if_neg (by omega)] at he
        exact h n hn e he
  cases log with
  | false =>
    obtain ⟨r, hr, z0, z1, z2, z3⟩ := fix_exec cr hcr t1 fdn fdn fdn _ _ _ (by omega) (by omega) hn hn hn big1
    refine ⟨r, ?_, ?_, ?_, ?_⟩
    · unfold justExecFds
      simp only [e1]
      exact hr
    · intro n
      by_cases c0 : n = 0
      · rw [if_pos c0, c0, z0 (by omega)]
      by_cases c1 : n = 1
      · rw [if_neg c0, if_pos c1, c1, z1 (by omega)]
      by_cases c2 : n = 2
      · rw [if_neg c0, if_neg c1, if_pos c2, c2, z2 (by omega)]; rfl
      rw [if_neg c0, if_neg c1, if_neg c2, z3 n (by omega)]
    · intro _
      unfold justExecFds
      simp only [e1]
      rfl
    · intro h; cases h
  | true =>
    obtain ⟨t2, rd, e2, a2, f2, g2, s2⟩ := open_all t1 .errAgent s1
    obtain ⟨t3, w, e3, a3, f3, g3, s3⟩ := open_all t2 .errService s2
    obtain ⟨m1, f3'⟩ := fresh_ne g2 f3
    obtain ⟨m2, f3'⟩ := fresh_ne g1 f3'
    obtain ⟨m3, f2'⟩ := fresh_ne g1 f2
    have hj : justExecFds cr true null t = (fixFds cr (fdSet t3 rd none) fdn fdn w, some (fixFds cr t3 rd 1 2)) := by
      unfold justExecFds
      simp only [e1, e2, e3, if_true]
    have gu : ∀ n, fdGet (fdSet t3 rd none) n = if n = rd then none else if n = w then some ⟨.errService, true⟩ else fdGet t1 n := by
      intro n
      rw [fdGet_set, g3, g2]
      split_ifs <;> rfl
    have g3' : ∀ n, fdGet t3 n = if n = w then some ⟨.errService, true⟩ else if n = rd then some ⟨.errAgent, true⟩ else fdGet t1 n := by
      intro n
      rw [g3, g2]
    have big2 : cr = .ok ∨ ∀ n, 256 ≤ n → ∀ e, fdGet (fdSet t3 rd none) n = some e → e.cloexec = true := by
      rcases big1 with h | h
      · exact .inl h
      · refine .inr fun n hn e he => ?_
        rw [gu] at he
        split_ifs at he
        · cases he; rfl
        · exact h n hn e he
    have big3 : cr = .ok ∨ ∀ n, 256 ≤ n → ∀ e, fdGet t3 n = some e → e.cloexec = true := by
      rcases big1 with h | h
      · exact .inl h
      · refine .inr fun n hn e he => ?_
        rw [g3'] at he
        split_ifs at he
        · cases he; rfl
        · cases he; rfl
        · exact h n hn e he
    have hn' : fdGet (fdSet t3 rd none) fdn = some ⟨.other null, false⟩ := by
      rw [gu, if_neg m3.symm, if_neg m2.symm, hn]
    have hw : fdGet (fdSet t3 rd none) w = some ⟨.errService, true⟩ := by rw [gu, if_neg m1, if_pos rfl]
    obtain ⟨r, hr, z0, z1, z2, z3⟩ := fix_exec cr hcr _ fdn fdn w _ _ _ (by omega) (by omega) hn' hn' hw big2
    have std : ∀ n < 3, fdGet t3 n = fdGet t n := by
      intro n hn
      rw [g3', if_neg (by omega), if_neg (by omega), g1, if_neg (by omega)]
    obtain ⟨x1, h1⟩ := Option.ne_none_iff_exists'.1 (hstd 1 (by omega))
    obtain ⟨x2, h2⟩ := Option.ne_none_iff_exists'.1 (hstd 2 (by omega))
    have hrd : fdGet t3 rd = some ⟨.errAgent, true⟩ := by rw [g3', if_neg m1.symm, if_pos rfl]
    obtain ⟨l, hl, y0, _, _, y3⟩ := fix_exec cr hcr t3 rd 1 2 _ _ _ (by omega) (by omega) hrd ((std 1 (by omega)).trans h1)
      ((std 2 (by omega)).trans h2) big3
    obtain ⟨k1, k2⟩ := fix_keep hl
    refine ⟨r, by rw [hj]; exact hr, ?_, (fun h => by cases h), (fun _ => ⟨l, (by rw [hj]; exact congrArg some hl), ?_⟩)⟩
    · intro n
      by_cases c0 : n = 0
      · rw [if_pos c0, c0, z0 (by omega)]
      by_cases c1 : n = 1
      · rw [if_neg c0, if_pos c1, c1, z1 (by omega)]
      by_cases c2 : n = 2
      · rw [if_neg c0, if_neg c1, if_pos c2, c2, z2 (by omega)]; rfl
      rw [if_neg c0, if_neg c1, if_neg c2, z3 n (by omega)]
    · intro n
      by_cases c0 : n = 0
      · rw [if_pos c0, c0, y0 (by omega)]
      by_cases c1 : n = 1
      · rw [if_neg c0, if_pos (.inl c1), c1, fdGet_exec, fdGet_exec, k1 rfl (by omega), std 1 (by omega)]
      by_cases c2 : n = 2
      · rw [if_neg c0, if_pos (.inr c2), c2, fdGet_exec, fdGet_exec, k2 rfl, std 2 (by omega)]
      rw [if_neg c0, if_neg (by omega), y3 n (by omega)]

theorem daemonClose_get (cr : CloseRange) (t : FdTable) (n : Nat) :
    fdGet (daemonClose cr t) n = if n < 3 then fdGet t n else if cr ≠ .ok ∧ 256 ≤ n then fdGet t n else none := by
  cases cr with
  | ok =>
    refine (fdCloseRest_get .ok t _ rfl n).trans ?_
    simp
  | enosys =>
    refine (fdCloseRest_get .enosys t _ rfl n).trans ?_
    simp
  | otherError =>
    refine (fdCloseRest_get .enosys t _ rfl n).trans ?_
    simp

/-- **C119, the policy program.** When the daemon itself starts qrexec-policy-exec, the program has one connection, to the process that
waits for its answer, as stdin and stdout, and the log of the daemon as stderr; it has no connection of a client and none to a qube.
The process that waits has the other end only, so that it sees the end of the answer. -/
theorem C119_policy (cr : CloseRange) (t : FdTable) (hu : Usual t)
    (hbig : cr = .ok ∨ ∀ n, 256 ≤ n → ∀ e, fdGet t n = some e → e.cloexec = true) :
    ∃ c, (policyExecFds cr t).1 = some c ∧
      (∀ n, fdGet c n = if n = 0 ∨ n = 1 then some ⟨.inService, false⟩ else if n = 2 then fdGet (fdExec t) 2 else none) ∧
      ∀ n e, fdGet (policyExecFds cr t).2 n = some e → e.file ≠ .inService := by
  have hg := daemonClose_get cr t
  have hs : ∀ n < 3, fdGet (daemonClose cr t) n ≠ none := by
    intro n hn
    rw [hg, if_pos hn]
    exact hu.std n hn
  obtain ⟨t1, a, e1, a1, f1, g1, s1⟩ := open_all (daemonClose cr t) .inAgent hs
  obtain ⟨t2, b, e2, a2, f2, g2, s2⟩ := open_all t1 .inService s1
  obtain ⟨m1, f2'⟩ := fresh_ne g1 f2
  have gu : ∀ n, fdGet (fdSet t2 a none) n = if n = a then none else if n = b then some ⟨.inService, true⟩ else fdGet (daemonClose cr t) n := by
    intro n
    rw [fdGet_set, g2, g1]
    split_ifs <;> rfl
  have hb : fdGet (fdSet t2 a none) b = some ⟨.inService, true⟩ := by rw [gu, if_neg m1, if_pos rfl]
  obtain ⟨u, hu1, gu1⟩ := dup2_all _ b 0 _ hb (by omega)
  have hb' : fdGet u b = some ⟨.inService, true⟩ := by rw [gu1, if_neg (by omega), hb]
  obtain ⟨v, hv1, gv1⟩ := dup2_all _ b 1 _ hb' (by omega)
  have hrun : policyExecFds cr t = (some (fdExec (fdSet v b none)), fdSet t2 b none) := by
    unfold policyExecFds
    simp only [e1, e2, hu1, hv1]
  rw [hrun]
  refine ⟨_, rfl, ?_, ?_⟩
  · intro n
    rw [fdGet_exec, fdGet_set, gv1, gu1, gu, hg]
    by_cases c0 : n = 0
    · subst c0
      rw [if_neg (by omega), if_neg (by omega), if_pos rfl, if_pos (.inl rfl)]; rfl
    by_cases c1 : n = 1
    · subst c1
      rw [if_neg (by omega), if_pos rfl, if_pos (.inr rfl)]; rfl
    rw [if_neg (c := n = 0 ∨ n = 1) (by omega)]
    by_cases c2 : n = 2
    · subst c2
      rw [if_neg (by omega), if_neg (by omega), if_neg (by omega), if_neg (by omega), if_neg (by omega), if_pos (by omega), if_pos rfl, fdGet_exec]
    rw [if_neg c2]
    by_cases cb : n = b
    · rw [if_pos cb]
    rw [if_neg cb, if_neg c1, if_neg c0]
    by_cases ca : n = a
    · rw [if_pos ca]
    rw [if_neg ca, if_neg cb, if_neg (by omega)]
    by_cases hk : cr ≠ .ok ∧ 256 ≤ n
    · rw [if_pos hk]
      cases hx : fdGet t n with
      | none => rfl
      | some e =>
        dsimp only
        rw [if_pos (hbig.resolve_left hk.1 n hk.2 e hx)]
    · rw [if_neg hk]
  · intro n e he
    rw [fdGet_set, g2, g1, hg] at he
    split_ifs at he
    · cases he; exact fun e => nomatch e
    · obtain ⟨k, h⟩ := hu.own _ _ he
      rw [h]; exact fun e => nomatch e
    · obtain ⟨k, h⟩ := hu.own _ _ he
      rw [h]; exact fun e => nomatch e

/-- A caller with its three streams, and a file it leaves to the program. -/
def exCaller : FdTable := [some ⟨.other 0, false⟩, some ⟨.other 1, false⟩, some ⟨.other 2, false⟩, none, some ⟨.other 9, false⟩, some ⟨.other 8, true⟩]

theorem exCaller_usual : Usual exCaller := by
  constructor
  · intro n hn
    have : n = 0 ∨ n = 1 ∨ n = 2 := by omega
    rcases this with rfl | rfl | rfl <;> decide
  · intro n e h
    match n, h with
    | 0, h => exact ⟨0, by cases h; rfl⟩
    | 1, h => exact ⟨1, by cases h; rfl⟩
    | 2, h => exact ⟨2, by cases h; rfl⟩
    | 3, h => cases h
    | 4, h => exact ⟨9, by cases h; rfl⟩
    | 5, h => exact ⟨8, by cases h; rfl⟩
    | n + 6, h =>
      unfold fdGet exCaller at h
      rw [List.getElem?_eq_none (by simp)] at h
      cases h

/-- The hypotheses of the theorems are met; the copies of the streams get numbers that were used for the trigger and the pairs. -/
theorem C119_example : ∃ l, clientVmRun true 7 exCaller = .runs l ∧ l.stdin = 7 ∧ l.stdout = 8 ∧ l.trigger = 3 ∧
    l.child = some ([some ⟨.inService, false⟩, some ⟨.outService, false⟩, some ⟨.other 2, false⟩, some ⟨.other 0, false⟩,
      some ⟨.other 9, false⟩, none, none, some ⟨.other 1, false⟩, some ⟨.other 2, false⟩, none], [(0, 3), (1, 7), (2, 8)]) :=
  ⟨_, rfl, by decide, by decide, by decide, by decide⟩

example : (policyExecFds .enosys exCaller).1.isSome = true ∧ ∃ c l, justExecFds .ok true 5 exCaller = (.done c, some (.done l)) :=
  ⟨by decide, _, _, rfl⟩
