import Verif.Model.LoopSig

/-!
# C101: daemon and agent never sleep on the end of a child
-/
namespace Qrexec

/-! ## Specification -/

/-- The program sleeps: it is in `ppoll`, and no signal wakes it. -/
def Sleeps (s : LoopSt) : Prop := s.pc = .polling ∧ s.pending = false

/-- How often the child `p` has ended, and how often its end has been handled. (Numbers are used again.) -/
def ends (tr : List LoopEv) (p : Nat) : Nat := tr.count (.dies p)
def handled (tr : List LoopEv) (p : Nat) : Nat := tr.count (.waited p)

/-! ## Invariants -/

/-- An end that has not been handled is still to be noticed: by the signal, by the flag, or since `waitpid` is called
again. -/
def LoopInv (s : LoopSt) : Prop :=
  (s.ended ≠ [] → s.pending = true ∨ (s.flag = true ∧ (s.pc = .top ∨ s.pc = .reaping))) ∧
  (s.flag = true → s.pc = .top ∨ s.pc = .reaping ∨ s.pc = .clearing)

theorem loopInv {tr : List LoopEv} {s : LoopSt} (h : LoopRun tr s) : LoopInv s := by
  induction h with
  | start => exact ⟨fun h => absurd rfl h, fun h => by cases h⟩
  | @step _ s _ _ _ st ih =>
    obtain ⟨i1, i2⟩ := ih
    cases st with
    | dies hp => exact ⟨fun _ => .inl rfl, i2⟩
    | check hpc =>
      cases hf : s.flag with
      | true =>
        refine ⟨fun h => ?_, fun _ => .inr (.inl rfl)⟩
        exact .inr ⟨rfl, .inr rfl⟩
      | false =>
        refine ⟨fun h => ?_, fun h => by cases h⟩
        rcases i1 h with k | ⟨k, _⟩
        · exact .inl k
        · rw [hf] at k; cases k
    | reap hpc hp =>
      refine ⟨fun h => ?_, i2⟩
      exact i1 (fun e => by rw [e] at hp; cases hp)
    | reaped hpc he => exact ⟨fun h => absurd he h, fun _ => .inr (.inr rfl)⟩
    | clear hpc =>
      refine ⟨fun h => ?_, fun h => by cases h⟩
      rcases i1 h with k | ⟨_, k⟩
      · exact .inl k
      · rw [hpc] at k; rcases k with k | k <;> cases k
    | poll hpc =>
      refine ⟨fun h => ?_, fun h => ?_⟩
      · rcases i1 h with k | ⟨_, k⟩
        · exact .inl k
        · rw [hpc] at k; rcases k with k | k <;> cases k
      · have k := i2 h
        rw [hpc] at k; rcases k with k | k | k <;> cases k
    | interrupted hpc hp => exact ⟨fun _ => .inr ⟨rfl, .inl rfl⟩, fun _ => .inl rfl⟩
    | ready hpc =>
      refine ⟨fun h => ?_, fun h => ?_⟩
      · rcases i1 h with k | ⟨_, k⟩
        · exact .inl k
        · rw [hpc] at k; rcases k with k | k <;> cases k
      · have k := i2 h
        rw [hpc] at k; rcases k with k | k | k <;> cases k
    | fork hpc _ _ => exact ⟨i1, i2⟩
    | again hpc =>
      refine ⟨fun h => ?_, fun h => ?_⟩
      · rcases i1 h with k | ⟨_, k⟩
        · exact .inl k
        · rw [hpc] at k; rcases k with k | k <;> cases k
      · have k := i2 h
        rw [hpc] at k; rcases k with k | k | k <;> cases k

theorem loopCount {tr : List LoopEv} {s : LoopSt} (h : LoopRun tr s) (p : Nat) :
    ends tr p = handled tr p + s.ended.count p := by
  induction h with
  | start => rfl
  | @step tr s s' e _ st ih =>
    unfold ends handled at *
    rw [List.count_append, List.count_append, ih]
    cases st with
    | @dies q hq =>
      rw [List.count_append, List.count_singleton, List.count_singleton, List.count_singleton]
      by_cases e : q = p
      · subst e; simp; omega
      · have e1 : (LoopEv.dies q == LoopEv.dies p) = false := by simpa using e
        have e2 : (q == p) = false := by simpa using e
        rw [e1, e2]
        simp
    | @reap q hpc hq =>
      rw [List.count_singleton, List.count_singleton]
      by_cases e : q = p
      · subst e
        have := List.count_pos_iff.2 hq
        have e2 : (s.ended.erase q).count q = s.ended.count q - 1 := List.count_erase_self
        simp only [e2]
        simp
        omega
      · have e1 : (LoopEv.waited q == LoopEv.waited p) = false := by simpa using e
        have e2 : (s.ended.erase q).count p = s.ended.count p := List.count_erase_of_ne (by simpa using (fun h => e h.symm))
        simp only [e1, e2]
        simp
    | check => simp
    | reaped => simp
    | clear => simp
    | poll => simp
    | interrupted => simp
    | ready => simp
    | fork => simp
    | again => simp

/-! ## Theorems -/

/-- **C101.** Whenever the loop sleeps, the end of every child has been handled, exactly once. -/
theorem C101_sleep {tr : List LoopEv} {s : LoopSt} (h : LoopRun tr s) (hs : Sleeps s) (p : Nat) :
    handled tr p = ends tr p := by
  have hc := loopCount h p
  have he : s.ended = [] := by
    by_cases he : s.ended = []
    · exact he
    · rcases (loopInv h).1 he with k | ⟨_, k⟩
      · rw [hs.2] at k; cases k
      · rw [hs.1] at k; rcases k with k | k <;> cases k
  rw [he] at hc
  simpa using hc.symm

/-- **C101.** Nothing is handled that has not happened: no end is handled twice, or before the child has ended. -/
theorem C101_once {tr : List LoopEv} {s : LoopSt} (h : LoopRun tr s) (p : Nat) : handled tr p ≤ ends tr p := by
  have := loopCount h p
  omega

/-- **C101.** If a child has ended, the program can always go on by itself: it is not in `ppoll`, or the signal ends
`ppoll`. -/
theorem C101_goes_on {tr : List LoopEv} {s : LoopSt} (h : LoopRun tr s) (p : Nat) (hp : handled tr p < ends tr p) :
    s.pc ≠ .polling ∨ LoopStep s .tau { s with pc := .top, flag := true, pending := false } := by
  by_cases hpc : s.pc = .polling
  · right
    refine .interrupted hpc ?_
    have hc := loopCount h p
    have hne : s.ended ≠ [] := by
      intro e
      rw [e] at hc
      simp at hc
      omega
    rcases (loopInv h).1 hne with k | ⟨_, k⟩
    · exact k
    · rw [hpc] at k; rcases k with k | k <;> cases k
  · exact .inl hpc

/-- The state of `C101_starved`. -/
def starvedSt : LoopSt := { pc := .polling, flag := false, pending := true, alive := [], ended := [7] }

/-- Its first steps: a child is forked, and ends. -/
def starvedStart : List LoopEv := [.tau, .tau, .tau, .forked 7, .dies 7, .tau, .tau, .tau]

theorem starved_start : LoopRun starvedStart starvedSt := by
  have h1 := LoopRun.step .start (.check rfl)
  have h2 := h1.step (.poll rfl)
  have h3 := h2.step (.ready rfl)
  have h4 := h3.step (.fork (p := 7) rfl (by simp) (by simp))
  have h5 := h4.step (.dies (p := 7) (by simp))
  have h6 := h5.step (.again rfl)
  have h7 := h6.step (.check rfl)
  exact h7.step (.poll rfl)

/-- Finding: a signal only interrupts `ppoll` if no descriptor is ready. While some descriptor always is, the end of a child
can stay unhandled for any number of rounds. -/
theorem C101_starved (n : Nat) : ∃ tr, LoopRun tr starvedSt ∧ ends tr 7 = 1 ∧ handled tr 7 = 0 ∧ 4 * n ≤ tr.length := by
  induction n with
  | zero => exact ⟨starvedStart, starved_start, by decide, by decide, by omega⟩
  | succ n ih =>
    obtain ⟨tr, hr, h1, h2, h3⟩ := ih
    refine ⟨tr ++ [.tau] ++ [.tau] ++ [.tau] ++ [.tau], ?_, ?_, ?_, ?_⟩
    · have k1 := hr.step (.ready rfl)
      have k2 := k1.step (.again rfl)
      have k3 := k2.step (.check rfl)
      exact k3.step (.poll rfl)
    · unfold ends at *
      simp only [List.count_append, h1]
      decide
    · unfold handled at *
      simp only [List.count_append, h2]
      decide
    · simp only [List.length_append, List.length_singleton]
      omega

/-! ## Cases -/

/-- A run in which a child ends while the loop clears the flag: the signal is pending, the loop does not sleep. -/
example : ∃ tr s, LoopRun tr s ∧ s.pc = .clearing ∧ s.ended = [8] ∧ handled tr 7 = 1 ∧ handled tr 8 = 0 := by
  have h1 := LoopRun.step .start (.check rfl)
  have h2 := h1.step (.poll rfl)
  have h3 := h2.step (.ready rfl)
  have h4 := h3.step (.fork (p := 7) rfl (by simp) (by simp))
  have h5 := h4.step (.fork (p := 8) rfl (by simp) (by simp))
  have h6 := h5.step (.dies (p := 7) (by simp))
  have h7 := h6.step (.again rfl)
  have h8 := h7.step (.check rfl)
  have h9 := h8.step (.poll rfl)
  have h10 := h9.step (.interrupted rfl rfl)
  have h11 := h10.step (.check rfl)
  have h12 := h11.step (.reap (p := 7) rfl (by simp))
  have h13 := h12.step (.reaped rfl (by simp))
  have h14 := h13.step (.dies (p := 8) (by simp))
  exact ⟨_, _, h14, rfl, rfl, by decide, by decide⟩

/-- A loop that sleeps. -/
example : ∃ tr s, LoopRun tr s ∧ Sleeps s := by
  have h1 := LoopRun.step .start (.check rfl)
  exact ⟨_, _, h1.step (.poll rfl), rfl, rfl⟩

end Qrexec

