import Verif.Model.Buffer
import Verif.Lemmas.Str
import Mathlib.Tactic.SplitIfs
import Mathlib.Data.List.Induction

/-! # C47: buffers are faithful queues -/
namespace Qrexec

/-- The specification: what the buffer `i` holds, as a queue. -/
def queueStep (i : Nat) (q : Str) : BufOp → Str
  | .append j d => if j = i then q ++ d else q
  | .remove j n => if j = i then q.drop n else q
  | .free j => if j = i then [] else q

/-- The contents of the queue after the operations. -/
def queueOf (i : Nat) (ops : List BufOp) : Str := ops.foldl (queueStep i) []

/-- All that was put into the buffer. -/
def putIn (i : Nat) (ops : List BufOp) : Str :=
  ops.flatMap fun o => match o with
    | .append j d => if j = i then d else []
    | _ => []

/-- The number of the buffer of an operation. -/
def BufOp.index : BufOp → Nat
  | .append i _ => i
  | .remove i _ => i
  | .free i => i

/-- All that was taken out of the buffer: each `remove` takes what was then at its front. -/
def takenOut (i : Nat) : Str → List BufOp → Str
  | _, [] => []
  | q, o :: os => (match o with
      | .remove j n => if j = i then q.take n else []
      | _ => []) ++ takenOut i (queueStep i q o) os

/-- The memory used. -/
def used (s : BufState) : Nat := (s.bufs.map List.length).sum

theorem sum_set : ∀ (l : List Str) (i : Nat) (x : Str), i < l.length →
    ((l.set i x).map List.length).sum + (l.getD i []).length = (l.map List.length).sum + x.length := by
  intro l
  induction l with
  | nil => intro i x h; simp at h
  | cons a l ih =>
    intro i x h
    cases i with
    | zero => simp; omega
    | succ i =>
      have := ih i x (by simpa using h)
      simp only [List.set_cons_succ, List.map_cons, List.sum_cons, List.getD_cons_succ]
      omega

theorem getD_le : ∀ (l : List Str) (i : Nat), (l.getD i []).length ≤ (l.map List.length).sum := by
  intro l
  induction l with
  | nil => intro i; simp
  | cons a l ih =>
    intro i
    cases i with
    | zero => simp
    | succ i => have := ih i; simp only [List.getD_cons_succ, List.map_cons, List.sum_cons]; omega

theorem getD_set (l : List Str) (i j : Nat) (x : Str) (h : i < l.length) :
    (l.set i x).getD j [] = if j = i then x else l.getD j [] := by
  simp only [List.getD_eq_getElem?_getD, List.getElem?_set]
  by_cases hj : i = j
  · subst hj; simp [h]
  · simp [hj, Ne.symm hj]

/-- The invariant of the accounting. -/
def Accounted (s : BufState) : Prop := s.mem = used s ∧ s.mem ≤ bufferLimit

theorem free_mem {s : BufState} {i m : Nat} {x : Str} (hs : s.mem = used s) (hi : i < s.bufs.length)
    (hm : m = s.mem + x.length) :
    ∃ m', bufferFree m (s.bufs.getD i []) = some m' ∧ m' = used ⟨s.bufs.set i x, 0⟩ ∧ m' ≤ m := by
  have h1 := getD_le s.bufs i
  have h2 := sum_set s.bufs i x hi
  unfold used at hs ⊢
  simp only at hs ⊢
  unfold bufferFree limitedFree
  by_cases h0 : ((s.bufs.getD i []).length != 0) = true
  · rw [if_pos h0, if_neg (by omega)]
    exact ⟨_, rfl, by omega, by omega⟩
  · rw [if_neg h0]
    simp only [bne_iff_ne, ne_eq, Decidable.not_not] at h0
    exact ⟨_, rfl, by omega, by omega⟩

/-- One operation on an accounted state: when it aborts, and what it does otherwise. -/
theorem bufOp_spec (s : BufState) (o : BufOp) (hs : Accounted s) (hi : o.index < s.bufs.length) :
    (bufOp s o = none ∧ (∃ i d, o = .append i d ∧ d ≠ [] ∧ s.mem + (s.bufs.getD i []).length + d.length > bufferLimit) ∨
     bufOp s o = none ∧ (∃ i n, o = .remove i n ∧ (n > (s.bufs.getD i []).length ∨
        n < (s.bufs.getD i []).length ∧ s.mem + ((s.bufs.getD i []).length - n) > bufferLimit))) ∨
    ∃ s', bufOp s o = some s' ∧ Accounted s' ∧ s'.bufs.length = s.bufs.length ∧
      (∀ j, s'.bufs.getD j [] = queueStep j (s.bufs.getD j []) o) ∧
      (∀ i d, o = .append i d → d = [] ∨ s.mem + (s.bufs.getD i []).length + d.length ≤ bufferLimit) ∧
      (∀ i n, o = .remove i n → n ≤ (s.bufs.getD i []).length ∧
        (n = (s.bufs.getD i []).length ∨ s.mem + ((s.bufs.getD i []).length - n) ≤ bufferLimit)) := by
  obtain ⟨hs1, hs2⟩ := hs
  cases o with
  | append i d =>
    simp only [BufOp.index] at hi
    have hle : (s.bufs.getD i []).length ≤ bufferLimit := by
      have := getD_le s.bufs i
      unfold used at hs1; omega
    unfold bufOp bufferAppend
    by_cases hd : d = []
    · right
      refine ⟨s, ?_, ⟨hs1, hs2⟩, rfl, ?_, ?_, ?_⟩
      · subst hd
        simp only [List.length_nil]
        rw [if_neg (by omega), if_neg (by omega)]; rfl
      · intro j; subst hd; simp [queueStep]
      · intro i' d' he; cases he; exact Or.inl hd
      · intro i' n he; cases he
    · have hdl : d.length ≠ 0 := by simpa using hd
      by_cases hfit : s.mem + (s.bufs.getD i []).length + d.length ≤ bufferLimit
      · right
        obtain ⟨m', h1, h2, h3⟩ := free_mem (x := s.bufs.getD i [] ++ d) hs1 hi rfl
        have hmal : limitedMalloc s.mem (d.length + (s.bufs.getD i []).length) =
            some (s.mem + (s.bufs.getD i [] ++ d).length) := by
          unfold limitedMalloc
          rw [if_neg]
          · simp; omega
          · simp only [Bool.or_eq_true, decide_eq_true_eq, beq_iff_eq]; omega
        refine ⟨⟨s.bufs.set i (s.bufs.getD i [] ++ d), m'⟩, ?_, ⟨h2, ?_⟩, by simp, ?_, ?_, ?_⟩
        · simp only
          rw [if_neg (by omega), if_neg (by omega), if_neg (by simpa using hd), hmal]
          simp only [h1]
        · simp only [List.length_append] at h3; simp only; omega
        · intro j
          rw [getD_set _ _ _ _ hi]
          simp only [queueStep]
          by_cases hj : j = i
          · subst hj; simp
          · rw [if_neg hj, if_neg (Ne.symm hj)]
        · intro i' d' he; cases he; exact Or.inr hfit
        · intro i' n he; cases he
      · left; left
        refine ⟨?_, i, d, rfl, hd, by omega⟩
        simp only
        rw [if_neg (by omega)]
        by_cases hdd : d.length > bufferLimit
        · rw [if_pos hdd]
        · rw [if_neg hdd, if_neg (by simpa using hd)]
          have hmal : limitedMalloc s.mem (d.length + (s.bufs.getD i []).length) = none := by
            unfold limitedMalloc
            rw [if_pos]
            simp only [Bool.or_eq_true, decide_eq_true_eq, beq_iff_eq]; omega
          rw [hmal]
  | remove i n =>
    simp only [BufOp.index] at hi
    unfold bufOp bufferRemove
    by_cases hn : n > (s.bufs.getD i []).length
    · left; right
      exact ⟨by simp only; rw [if_pos hn], i, n, rfl, Or.inl hn⟩
    · have hlen : ((s.bufs.getD i []).drop n).length = (s.bufs.getD i []).length - n := List.length_drop
      by_cases hz : n = (s.bufs.getD i []).length
      · right
        obtain ⟨m', h1, h2, h3⟩ := free_mem (m := s.mem) (x := (s.bufs.getD i []).drop n) hs1 hi (by omega)
        refine ⟨⟨s.bufs.set i ((s.bufs.getD i []).drop n), m'⟩, ?_, ⟨h2, by simp only; omega⟩, by simp, ?_, ?_, ?_⟩
        · simp only
          rw [if_neg hn, if_neg (by omega)]
          simp only [h1]
        · intro j
          rw [getD_set _ _ _ _ hi]
          simp only [queueStep]
          by_cases hj : j = i
          · subst hj; simp
          · rw [if_neg hj, if_neg (Ne.symm hj)]
        · intro i' d' he; cases he
        · intro i' n' he; cases he; exact ⟨by omega, Or.inl hz⟩
      · by_cases hfit : s.mem + ((s.bufs.getD i []).length - n) ≤ bufferLimit
        · right
          obtain ⟨m', h1, h2, h3⟩ := free_mem (x := (s.bufs.getD i []).drop n) hs1 hi rfl
          have hmal : limitedMalloc s.mem ((s.bufs.getD i []).drop n).length =
              some (s.mem + ((s.bufs.getD i []).drop n).length) := by
            unfold limitedMalloc
            rw [if_neg]
            simp only [Bool.or_eq_true, decide_eq_true_eq, beq_iff_eq]; omega
          refine ⟨⟨s.bufs.set i ((s.bufs.getD i []).drop n), m'⟩, ?_, ⟨h2, by simp only; omega⟩, by simp, ?_, ?_, ?_⟩
          · simp only
            rw [if_neg hn, if_pos (by omega), hmal]
            simp only [h1]
          · intro j
            rw [getD_set _ _ _ _ hi]
            simp only [queueStep]
            by_cases hj : j = i
            · subst hj; simp
            · rw [if_neg hj, if_neg (Ne.symm hj)]
          · intro i' d' he; cases he
          · intro i' n' he; cases he; exact ⟨by omega, Or.inr hfit⟩
        · left; right
          refine ⟨?_, i, n, rfl, Or.inr ⟨by omega, by omega⟩⟩
          have hmal : limitedMalloc s.mem ((s.bufs.getD i []).drop n).length = none := by
            unfold limitedMalloc
            rw [if_pos]
            simp only [Bool.or_eq_true, decide_eq_true_eq, beq_iff_eq]; omega
          simp only
          rw [if_neg hn, if_pos (by omega), hmal]
  | free i =>
    right
    simp only [BufOp.index] at hi
    obtain ⟨m', h1, h2, h3⟩ := free_mem (m := s.mem) (x := []) hs1 hi rfl
    refine ⟨⟨s.bufs.set i [], m'⟩, ?_, ⟨h2, by simp only; omega⟩, by simp, ?_, ?_, ?_⟩
    · show bufferClear s i = _
      unfold bufferClear
      rw [h1]
    · intro j
      rw [getD_set _ _ _ _ hi]
      simp only [queueStep]
      by_cases hj : j = i
      · subst hj; simp
      · rw [if_neg hj, if_neg (Ne.symm hj)]
    · intro i' d' he; cases he
    · intro i' n' he; cases he

theorem bufOps_append (s : BufState) (a b : List BufOp) :
    bufOps s (a ++ b) = match bufOps s a with
      | none => none
      | some s => bufOps s b := by
  induction a generalizing s with
  | nil => rfl
  | cons o a ih =>
    rw [List.cons_append, bufOps, bufOps]
    cases bufOp s o with
    | none => rfl
    | some s' => exact ih s'

/-- **C47.** However operations on the buffers of a process are mixed, each buffer holds exactly what a
queue would hold, the accounted memory is the memory used, and it never exceeds the limit. -/
theorem C47_fifo (n : Nat) (ops : List BufOp) (s : BufState) (hi : ∀ o ∈ ops, o.index < n)
    (h : bufOps (BufState.start n) ops = some s) :
    (∀ i, s.bufs.getD i [] = queueOf i ops) ∧ s.mem = (s.bufs.map List.length).sum ∧
      s.mem ≤ 50000000 ∧ s.bufs.length = n := by
  have main : Accounted s ∧ (∀ i, s.bufs.getD i [] = queueOf i ops) ∧ s.bufs.length = n := by
    induction ops using List.reverseRecOn generalizing s with
    | nil =>
      cases h
      refine ⟨⟨?_, Nat.zero_le _⟩, fun i => ?_, by simp [BufState.start]⟩
      · simp [used, BufState.start]
      · simp only [BufState.start, queueOf, List.foldl_nil, List.getD_eq_getElem?_getD,
          List.getElem?_replicate]
        split <;> rfl
    | append_singleton ops o ih =>
      rw [bufOps_append] at h
      cases h0 : bufOps (BufState.start n) ops with
      | none => rw [h0] at h; cases h
      | some s0 =>
        rw [h0] at h
        obtain ⟨a1, a2, a3⟩ := ih s0 (fun o' ho => hi o' (by simp [ho])) h0
        simp only [bufOps] at h
        rcases bufOp_spec s0 o a1 (by rw [a3]; exact hi o (by simp)) with
          (⟨hn, _⟩ | ⟨hn, _⟩) | ⟨s', h1, h2, h3, h4, _⟩
        · rw [hn] at h; cases h
        · rw [hn] at h; cases h
        · rw [h1] at h
          cases h
          refine ⟨h2, fun i => ?_, by rw [h3, a3]⟩
          rw [h4 i, a2 i, queueOf, queueOf, List.foldl_append]
          rfl
  exact ⟨main.2.1, main.1.1, main.1.2, main.2.2⟩

/-- **C47.** What was put into a buffer that was not freed is what was taken out of it, followed by what it
holds: nothing is lost, doubled or reordered. -/
theorem C47_order (n : Nat) (ops : List BufOp) (s : BufState) (hi : ∀ o ∈ ops, o.index < n)
    (h : bufOps (BufState.start n) ops = some s) (i : Nat) (hf : ∀ o ∈ ops, o ≠ .free i) :
    putIn i ops = takenOut i [] ops ++ s.bufs.getD i [] := by
  rw [(C47_fifo n ops s hi h).1 i]
  unfold queueOf
  have key : ∀ (os : List BufOp) (q : Str), (∀ o ∈ os, o ≠ .free i) →
      q ++ putIn i os = takenOut i q os ++ os.foldl (queueStep i) q := by
    intro os
    induction os with
    | nil => intro q _; simp [putIn, takenOut]
    | cons o os ih =>
      intro q ho
      have ih := ih (queueStep i q o) (fun o' h => ho o' (by simp [h]))
      simp only [putIn, List.flatMap_cons, takenOut, List.foldl_cons] at ih ⊢
      cases o with
      | append j d =>
        by_cases hj : j = i
        · simp only [hj, if_true, queueStep, List.append_assoc, List.nil_append] at ih ⊢; exact ih
        · simp only [hj, if_false, queueStep, List.nil_append] at ih ⊢; exact ih
      | remove j m =>
        by_cases hj : j = i
        · simp only [hj, if_true, queueStep, List.nil_append] at ih ⊢
          rw [List.append_assoc, ← ih, ← List.append_assoc, List.take_append_drop]
        · simp only [hj, if_false, queueStep, List.nil_append] at ih ⊢; exact ih
      | free j =>
        have hj : j ≠ i := fun e => ho (.free j) (by simp) (by rw [e])
        simp only [hj, if_false, queueStep, List.nil_append] at ih ⊢; exact ih
  have := key ops [] hf
  simpa using this

/-- **C47.** When the process is aborted: an append aborts exactly if the memory in use, the old contents
once more and the new data exceed the limit; a removal exactly if it asks for more than there is, or
the rest does not fit into the limit beside what is in use; freeing never aborts. -/
theorem C47_abort (n : Nat) (ops : List BufOp) (s : BufState) (hi : ∀ o ∈ ops, o.index < n)
    (h : bufOps (BufState.start n) ops = some s) (i : Nat) (hin : i < n) :
    (∀ d, bufOp s (.append i d) = none ↔
      d ≠ [] ∧ s.mem + (s.bufs.getD i []).length + d.length > 50000000) ∧
    (∀ k, bufOp s (.remove i k) = none ↔ k > (s.bufs.getD i []).length ∨
      k < (s.bufs.getD i []).length ∧ s.mem + ((s.bufs.getD i []).length - k) > 50000000) ∧
    bufOp s (.free i) ≠ none := by
  obtain ⟨_, h1, h2, h3⟩ := C47_fifo n ops s hi h
  have hacc : Accounted s := ⟨h1, h2⟩
  have hb : bufferLimit = 50000000 := rfl
  refine ⟨fun d => ?_, fun k => ?_, ?_⟩
  · rcases bufOp_spec s (.append i d) hacc (by rw [h3]; exact hin) with
      (⟨hn, i', d', he, h4, h5⟩ | ⟨hn, i', n', he, _⟩) | ⟨s', h4, _, _, _, h5, _⟩
    · cases he; exact ⟨fun _ => ⟨h4, by omega⟩, fun _ => hn⟩
    · cases he
    · refine ⟨fun hn => (by rw [h4] at hn; cases hn), fun hx => ?_⟩
      rcases h5 i d rfl with h6 | h6
      · exact absurd h6 hx.1
      · omega
  · rcases bufOp_spec s (.remove i k) hacc (by rw [h3]; exact hin) with
      (⟨hn, i', d', he, _⟩ | ⟨hn, i', n', he, h4⟩) | ⟨s', h4, _, _, _, _, h5⟩
    · cases he
    · cases he; exact ⟨fun _ => by rw [hb] at h4; exact h4, fun _ => hn⟩
    · refine ⟨fun hn => (by rw [h4] at hn; cases hn), fun hx => ?_⟩
      have := h5 i k rfl
      omega
  · rcases bufOp_spec s (.free i) hacc (by rw [h3]; exact hin) with
      (⟨hn, i', d', he, _⟩ | ⟨hn, i', n', he, _⟩) | ⟨s', h4, _⟩
    · cases he
    · cases he
    · rw [h4]; simp

/-- **C47, the limit.** Taking data out may abort the process: a buffer that holds more than half of the
limit (25000001 bytes, appended to an empty buffer) cannot be read. -/
theorem C47_remove_aborts (data : Str) (hd : data.length = 25000001) :
    ∃ s, bufOps (BufState.start 1) [.append 0 data] = some s ∧ bufOp s (.remove 0 1) = none := by
  have hb : bufferLimit = 50000000 := rfl
  have hne : data ≠ [] := by intro h; rw [h] at hd; simp at hd
  cases h : bufOps (BufState.start 1) [.append 0 data] with
  | none =>
    have h0 := (C47_abort 1 [] (BufState.start 1) (by simp) rfl 0 (by omega)).1 data
    have : bufOp (BufState.start 1) (.append 0 data) = none := by
      rw [bufOps] at h
      cases h' : bufOp (BufState.start 1) (.append 0 data) with
      | none => rfl
      | some s => rw [h'] at h; cases h
    have := (h0.1 this).2
    simp [BufState.start] at this
    omega
  | some s =>
    refine ⟨s, rfl, ?_⟩
    obtain ⟨f1, f2, f3, f4⟩ := C47_fifo 1 _ s (by simp [BufOp.index]) h
    refine ((C47_abort 1 _ s (by simp [BufOp.index]) h 0 (by omega)).2.1 1).2 (Or.inr ?_)
    have hq : s.bufs.getD 0 [] = data := by rw [f1 0]; simp [queueOf, queueStep]
    have hm := getD_le s.bufs 0
    rw [hq] at hm ⊢
    omega

/-! Example -/
example : bufOps (BufState.start 2)
    [.append 0 c!"abc", .append 1 c!"xy", .append 0 c!"de", .remove 0 2, .remove 1 2, .append 0 c!"f"] =
    some ⟨[c!"cdef", []], 4⟩ := by decide

end Qrexec
