import Verif.Model.DaemonStart
import Verif.Spec.VchanWait
import Verif.Props.Handshake
import Verif.Props.VmTrigger

/-!
# C92: who starts a daemon learns whether the qube can be reached
-/
namespace Qrexec
open Spec

theorem prefix_cons {α : Type} {l : List α} {a : α} {t : List α} (h : l <+: a :: t) :
    l = [] ∨ ∃ l', l = a :: l' ∧ l' <+: t := by
  cases l with
  | nil => exact .inl rfl
  | cons b l =>
    obtain ⟨r, h⟩ := h
    simp only [List.cons_append, List.cons.injEq] at h
    exact .inr ⟨l, by rw [h.1], r, h.2⟩

theorem takeWhile_all {α : Type} {p : α → Bool} {l : List α} (h : ∀ a ∈ l, p a = true) : l.takeWhile p = l := by
  induction l with
  | nil => rfl
  | cons a l ih =>
    rw [List.takeWhile_cons_of_pos (h a (by simp)), ih (fun b hb => h b (by simp [hb]))]

/-- What the daemon's process does, in one of these ways. -/
theorem dsChild_cases (w : DsWorld) (hw : w.nowait = false) (hd : w.direct = false) :
    (∃ x, dsChild w = [.exit x]) ∨ dsChild w = [] ∨
    (dsChild w = [.report 1, .exit 3] ∧ w.vchan = true ∧ (waitVchan false (dsTimeout w) w.clock w.rounds).1 ≠ .connected ∧
      (waitVchan false (dsTimeout w) w.clock w.rounds).1 ≠ .waiting) ∨
    ((waitVchan false (dsTimeout w) w.clock w.rounds).1 = .connected ∧ w.vchan = true ∧
      (dsChild w = [.connected, .exit 1] ∨ ((hsRun controlEnd controlPlan w.bytes).1.ready ∧
        (dsChild w = [.connected, .hello (hsRun controlEnd controlPlan w.bytes).1.actual, .exit 1] ∨
         dsChild w = [.connected, .hello (hsRun controlEnd controlPlan w.bytes).1.actual, .sockets, .exit 1] ∨
         dsChild w = [.connected, .hello (hsRun controlEnd controlPlan w.bytes).1.actual, .sockets, .report 0, .serve])))) := by
  unfold dsChild
  by_cases h0 : w.domid ≤ 0
  · exact .inl ⟨1, by rw [if_pos h0]⟩
  rw [if_neg h0]
  by_cases h1 : (!w.chdir) = true
  · exact .inl ⟨1, by rw [if_pos h1]⟩
  rw [if_neg h1]
  split
  · exact .inl ⟨1, rfl⟩
  unfold dsConnect
  rw [hw, hd]
  generalize waitVchan false (dsTimeout w) w.clock w.rounds = r
  cases hv : w.vchan with
  | false => exact .inl ⟨3, rfl⟩
  | true =>
    obtain ⟨r, times⟩ := r
    have fin : ([DsEv.connected] ++ (let q := (hsRun controlEnd controlPlan w.bytes).1
        if q.failed || !q.todo.isEmpty then [.exit 1] else .hello q.actual :: dsFinish w) = [.connected, .exit 1] ∨
        ((hsRun controlEnd controlPlan w.bytes).1.ready ∧
        ([DsEv.connected] ++ (let q := (hsRun controlEnd controlPlan w.bytes).1
        if q.failed || !q.todo.isEmpty then [.exit 1] else .hello q.actual :: dsFinish w) = [.connected, .hello (hsRun controlEnd controlPlan w.bytes).1.actual, .exit 1] ∨
         [DsEv.connected] ++ (let q := (hsRun controlEnd controlPlan w.bytes).1
        if q.failed || !q.todo.isEmpty then [.exit 1] else .hello q.actual :: dsFinish w) = [.connected, .hello (hsRun controlEnd controlPlan w.bytes).1.actual, .sockets, .exit 1] ∨
         [DsEv.connected] ++ (let q := (hsRun controlEnd controlPlan w.bytes).1
        if q.failed || !q.todo.isEmpty then [.exit 1] else .hello q.actual :: dsFinish w) = [.connected, .hello (hsRun controlEnd controlPlan w.bytes).1.actual, .sockets, .report 0, .serve]))) := by
      generalize (hsRun controlEnd controlPlan w.bytes).1 = q
      dsimp only
      unfold HsParty.ready
      by_cases hq : (q.failed || !q.todo.isEmpty) = true
      · rw [if_pos hq]; exact .inl rfl
      · rw [if_neg hq]
        right
        simp only [Bool.or_eq_true, Bool.not_eq_true', not_or, Bool.not_eq_true, Bool.not_eq_false, List.isEmpty_iff] at hq
        refine ⟨⟨hq.2, hq.1⟩, ?_⟩
        unfold dsFinish
        rw [hw, hd]
        cases w.setids <;> cases w.sockets <;> cases w.signals <;> cases w.write <;> simp
    cases r with
    | connected =>
      right; right; right
      exact ⟨rfl, rfl, fin⟩
    | waiting => right; left; rfl
    | timedOut =>
      cases w.write
      · exact .inl ⟨3, rfl⟩
      · exact .inr (.inr (.inl ⟨rfl, rfl, by simp, by simp⟩))
    | failed =>
      cases w.write
      · exact .inl ⟨3, rfl⟩
      · exact .inr (.inr (.inl ⟨rfl, rfl, by simp, by simp⟩))

/-- Preparing succeeds: the number is positive, and there are a pipe and a child. -/
def DsForks (w : DsWorld) : Prop := 0 < w.domid ∧ w.pipe = true ∧ w.fork = true

theorem dsParent_wait {w : DsWorld} (hw : w.nowait = false) (hf : DsForks w) (done : List DsEv) (ended : Bool) :
    dsParent w done ended = dsWait done ended := by
  obtain ⟨h1, h2, h3⟩ := hf
  unfold dsParent
  rw [if_neg (by omega), if_neg (by simp [h2]), if_neg (by simp [h3]), if_neg (by simp [hw])]

/-- **C92.** Wherever the daemon's process is, or was when it ended, the command that started it ends with 0 exactly if the
daemon has found the agent within the time, has received a HELLO of a version of 2 or more, has created its sockets and has
said so; with 3 exactly if it has said that the agent was not found; with 1 if it ended and said neither; else it waits. -/
theorem C92_status (w : DsWorld) (hw : w.nowait = false) (hd : w.direct = false) (hf : DsForks w) (done : List DsEv)
    (ended : Bool) (hp : done <+: dsChild w) (hb : ∀ c ∈ w.bytes, c.toNat < 256) :
    (dsParent w done ended = some 0 ↔ ∃ v rest, [.connected, .hello v, .sockets, .report 0] <+: done ∧
      (waitVchan false (dsTimeout w) w.clock w.rounds).1 = .connected ∧
      ∃ n, w.bytes = hello n ++ rest ∧ 2 ≤ n ∧ v = min n 4) ∧
    (dsParent w done ended = some 3 ↔ .report 1 ∈ done ∧
      (waitVchan false (dsTimeout w) w.clock w.rounds).1 ≠ .connected) ∧
    (dsParent w done ended = some 1 ↔ ended = true ∧ ∀ b, .report b ∉ done) ∧
    (dsParent w done ended = none ↔ ended = false ∧ ∀ b, .report b ∉ done) := by
  rw [dsParent_wait hw hf]
  unfold dsWait
  have quiet : (∀ b, DsEv.report b ∉ done) → (done.filterMap (fun | .report b => some b | _ => none)) = ([] : List Nat) := by
    intro h
    rw [List.filterMap_eq_nil_iff]
    intro e he
    cases e with
    | report b => exact absurd he (h b)
    | _ => rfl
  have noReport : (∀ b, DsEv.report b ∉ done) →
      ((match done.filterMap (fun | DsEv.report b => some b | _ => none) with
        | 0 :: _ => some 0 | 1 :: _ => some 3 | _ :: _ => some 134 | [] => if ended then some 1 else none) = some 0 ↔
          ∃ v rest, [.connected, .hello v, .sockets, .report 0] <+: done ∧
      (waitVchan false (dsTimeout w) w.clock w.rounds).1 = .connected ∧
      ∃ n, w.bytes = hello n ++ rest ∧ 2 ≤ n ∧ v = min n 4) ∧
    ((match done.filterMap (fun | DsEv.report b => some b | _ => none) with
        | 0 :: _ => some 0 | 1 :: _ => some 3 | _ :: _ => some 134 | [] => if ended then some 1 else none) = some 3 ↔ .report 1 ∈ done ∧
      (waitVchan false (dsTimeout w) w.clock w.rounds).1 ≠ .connected) ∧
    ((match done.filterMap (fun | DsEv.report b => some b | _ => none) with
        | 0 :: _ => some 0 | 1 :: _ => some 3 | _ :: _ => some 134 | [] => if ended then some 1 else none) = some 1 ↔ ended = true ∧ ∀ b, .report b ∉ done) ∧
    ((match done.filterMap (fun | DsEv.report b => some b | _ => none) with
        | 0 :: _ => some 0 | 1 :: _ => some 3 | _ :: _ => some 134 | [] => if ended then some 1 else none) = none ↔ ended = false ∧ ∀ b, .report b ∉ done) := by
    intro h
    rw [quiet h]
    dsimp only
    refine ⟨⟨?_, ?_⟩, ⟨?_, ?_⟩, ⟨?_, ?_⟩, ⟨?_, ?_⟩⟩
    · intro h1; split_ifs at h1; simp at h1
    · rintro ⟨v, rest, h1, -⟩; exact absurd (h1.subset (by simp)) (h 0)
    · intro h1; split_ifs at h1; simp at h1
    · rintro ⟨h1, -⟩; exact absurd h1 (h 1)
    · intro h1; split_ifs at h1 with h2; exact ⟨h2, h⟩
    · rintro ⟨h1, -⟩; rw [if_pos h1]
    · intro h1; split_ifs at h1 with h2; exact ⟨by simpa using h2, h⟩
    · rintro ⟨h1, -⟩; rw [h1]; rfl
  rcases dsChild_cases w hw hd with ⟨x, h⟩ | h | ⟨h, h1, h2, h3⟩ | ⟨h1, h2, h | ⟨hr, h | h | h⟩⟩ <;> rw [h] at hp
  · refine noReport (fun b hm => ?_)
    have := hp.subset hm
    simp at this
  · refine noReport (fun b hm => ?_)
    have := hp.subset hm
    simp at this
  · rcases prefix_cons hp with rfl | ⟨l, rfl, -⟩
    · exact noReport (by simp)
    · refine ⟨⟨?_, ?_⟩, ⟨?_, ?_⟩, ⟨?_, ?_⟩, ⟨?_, ?_⟩⟩
      · intro h; simp at h
      · rintro ⟨v, rest, -, h4, -⟩; exact absurd h4 h2
      · intro _; exact ⟨by simp, h2⟩
      · intro _; simp
      · intro h; simp at h
      · rintro ⟨-, h4⟩; exact absurd (by simp) (h4 1)
      · intro h; simp at h
      · rintro ⟨-, h4⟩; exact absurd (by simp) (h4 1)
  · refine noReport (fun b hm => ?_)
    have := hp.subset hm
    simp at this
  · refine noReport (fun b hm => ?_)
    have := hp.subset hm
    simp at this
  · refine noReport (fun b hm => ?_)
    have := hp.subset hm
    simp at this
  · obtain ⟨n, rest, e1, e2, e3⟩ := (hsGood_iff (e := controlEnd) hb (by decide)).1 ((hsRun_recv controlEnd w.bytes).1.1 hr)
    have hv : (hsRun controlEnd controlPlan w.bytes).1.actual = min n 4 := by
      rw [e1]; exact ((C70_control n e3 rest).2 e2).1
    rw [hv] at hp
    have e2 : 2 ≤ n := e2
    rcases prefix_cons hp with rfl | ⟨l1, rfl, hp1⟩
    · exact noReport (by simp)
    rcases prefix_cons hp1 with rfl | ⟨l2, rfl, hp2⟩
    · exact noReport (by simp)
    rcases prefix_cons hp2 with rfl | ⟨l3, rfl, hp3⟩
    · exact noReport (by simp)
    rcases prefix_cons hp3 with rfl | ⟨l, rfl, hp4⟩
    · exact noReport (by simp)
    refine ⟨⟨?_, ?_⟩, ⟨?_, ?_⟩, ⟨?_, ?_⟩, ⟨?_, ?_⟩⟩
    · intro _; exact ⟨_, rest, ⟨l, rfl⟩, h1, n, e1, e2, rfl⟩
    · intro _; simp
    · intro h; simp at h
    · rintro ⟨-, h4⟩; exact absurd h1 h4
    · intro h; simp at h
    · rintro ⟨-, h4⟩; exact absurd (by simp) (h4 0)
    · intro h; simp at h
    · rintro ⟨-, h4⟩; exact absurd (by simp) (h4 0)

/-- **C92, without waiting.** With QREXEC_STARTUP_NOWAIT the command ends with 0 as soon as there is a child, whatever
becomes of it; the child then waits for the agent without limit. -/
theorem C92_nowait (w : DsWorld) (hw : w.nowait = true) (done : List DsEv) (ended : Bool) :
    dsParent w done ended = if 0 < w.domid ∧ w.fork = true then some 0 else some 1 := by
  unfold dsParent
  rw [hw]
  by_cases h1 : w.domid ≤ 0
  · rw [if_pos h1, if_neg (by omega)]
  · rw [if_neg h1, if_neg (by simp)]
    cases w.fork
    · simp
    · simp; omega

/-- **C92, service.** In every mode the daemon gets to its main loop only after the agent has connected and sent a HELLO
of version 2 or more, and the sockets have been created; and it accepts clients only then, because they are created only
after the HELLO. -/
theorem C92_serves (w : DsWorld) (hb : ∀ c ∈ w.bytes, c.toNat < 256) :
    (.serve ∈ dsChild w → ∃ v, [.connected, .hello v, .sockets] <+: dsChild w) ∧
    (.sockets ∈ dsChild w → ∃ v, [.connected, .hello v] <+: dsChild w) ∧
    (∀ v, .hello v ∈ dsChild w → ∃ n rest, w.bytes = hello n ++ rest ∧ 2 ≤ n ∧ v = min n 4) := by
  have key : dsChild w = [] ∨ (∃ x, dsChild w = [.exit x]) ∨ (dsChild w = [.report 1, .exit 3]) ∨
      dsChild w = [.connected, .exit 1] ∨ ((hsRun controlEnd controlPlan w.bytes).1.ready ∧
        dsChild w = .connected :: .hello (hsRun controlEnd controlPlan w.bytes).1.actual :: dsFinish w) := by
    unfold dsChild
    split
    · exact .inr (.inl ⟨1, rfl⟩)
    split
    · exact .inr (.inl ⟨1, rfl⟩)
    split
    · exact .inr (.inl ⟨1, rfl⟩)
    unfold dsConnect
    split
    · split
      · exact .inl rfl
      · split
        · exact .inr (.inr (.inl rfl))
        · exact .inr (.inl ⟨3, rfl⟩)
    · split
      · exact .inr (.inl ⟨3, rfl⟩)
      · dsimp only
        split
        · exact .inr (.inr (.inr (.inl rfl)))
        · rename_i hq
          right; right; right; right
          simp only [Bool.or_eq_true, Bool.not_eq_true', not_or, Bool.not_eq_true, Bool.not_eq_false, List.isEmpty_iff] at hq
          exact ⟨⟨hq.2, hq.1⟩, rfl⟩
  have fin : (∃ x, dsFinish w = [.exit x]) ∨ ∃ t, dsFinish w = .sockets :: t ∧ ∀ e ∈ t, e = .serve ∨ e = .report 0 ∨ e = .exit 1 := by
    unfold dsFinish
    split
    · exact .inl ⟨1, rfl⟩
    split
    · exact .inl ⟨1, rfl⟩
    right
    refine ⟨_, rfl, ?_⟩
    intro e he
    split_ifs at he <;> simp only [List.mem_cons, List.not_mem_nil, or_false] at he
    · exact .inr (.inr he)
    · rcases he with h | h
      · exact .inr (.inl h)
      · exact .inl h
    · exact .inr (.inr he)
    · exact .inl he
  rcases key with h | ⟨x, h⟩ | h | h | ⟨hr, h⟩
  · rw [h]; exact ⟨by simp, by simp, by simp⟩
  · rw [h]; exact ⟨by simp, by simp, by simp⟩
  · rw [h]; exact ⟨by simp, by simp, by simp⟩
  · rw [h]; exact ⟨by simp, by simp, by simp⟩
  · obtain ⟨n, rest, e1, e2, e3⟩ := (hsGood_iff (e := controlEnd) hb (by decide)).1 ((hsRun_recv controlEnd w.bytes).1.1 hr)
    have hv : (hsRun controlEnd controlPlan w.bytes).1.actual = min n 4 := by
      rw [e1]; exact ((C70_control n e3 rest).2 e2).1
    rw [h, hv]
    refine ⟨?_, ?_, ?_⟩
    · intro hs
      rcases fin with ⟨x, h1⟩ | ⟨t, h1, -⟩
      · rw [h1] at hs; simp at hs
      · rw [h1]; exact ⟨_, t, rfl⟩
    · intro _; exact ⟨_, dsFinish w, rfl⟩
    · intro v hm
      refine ⟨n, rest, e1, e2, ?_⟩
      simp only [List.mem_cons, reduceCtorEq, false_or, DsEv.hello.injEq] at hm
      rcases hm with hm | hm
      · exact hm
      · rcases fin with ⟨x, h1⟩ | ⟨t, h1, h2⟩
        · rw [h1] at hm; simp at hm
        · rw [h1] at hm
          rcases List.mem_cons.1 hm with hm | hm
          · cases hm
          · rcases h2 _ hm with h | h | h <;> cases h

/-- **C92, the time.** The time to wait for the agent is the number in QREXEC_STARTUP_TIMEOUT, and 60 seconds if there is none, or
none above zero. -/
theorem C92_timeout (w : DsWorld) :
    (∀ n, 0 < n → w.timeoutVar = some (printDec n) → dsTimeout w = n) ∧
    (w.timeoutVar = none ∨ w.timeoutVar = some (printDec 0) ∨ (∃ n, w.timeoutVar = some ('-' :: printDec n)) → dsTimeout w = 60) ∧
    0 < dsTimeout w := by
  have num : ∀ n, atoi (printDec n) = n := by
    intro n
    obtain ⟨h1, h2, h3⟩ := printDec_spec n
    cases hp : printDec n with
    | nil => exact absurd hp h3
    | cons c t =>
      have hc : tomlDigit c = true := h2 c (by rw [hp]; simp)
      have hs : atoiSpace c = false := by
        unfold tomlDigit at hc
        simp only [Bool.and_eq_true, decide_eq_true_eq] at hc
        have h4 : '0'.toNat ≤ c.toNat := hc.1
        have e1 : '0'.toNat = 48 := rfl
        unfold atoiSpace
        simp only [Bool.or_eq_false_iff, Bool.and_eq_false_iff, beq_eq_false_iff_ne, decide_eq_false_iff_not]
        refine ⟨?_, .inr ?_⟩
        · rintro rfl
          have : ' '.toNat = 32 := rfl
          omega
        · intro h5
          have h5 : c.toNat ≤ '\r'.toNat := h5
          have : '\r'.toNat = 13 := rfl
          omega
      have htw : (c :: t).takeWhile tomlDigit = c :: t := by
        rw [← hp]
        exact takeWhile_all h2
      unfold atoi
      rw [List.dropWhile_cons_of_neg (by simp [hs])]
      split
      · rename_i h; cases h; exact absurd hc (by decide)
      · rename_i h; cases h; exact absurd hc (by decide)
      · rw [htw, ← hp, h1]
  have neg : ∀ n, atoi ('-' :: printDec n) = -(n : Int) := by
    intro n
    obtain ⟨h1, h2, h3⟩ := printDec_spec n
    have htw : (printDec n).takeWhile tomlDigit = printDec n := by
      exact takeWhile_all h2
    unfold atoi
    rw [List.dropWhile_cons_of_neg (by decide)]
    show -((tomlNat ((printDec n).takeWhile tomlDigit) : Nat) : Int) = _
    rw [htw, h1]
  refine ⟨?_, ?_, ?_⟩
  · intro n hn h
    unfold dsTimeout
    rw [h]
    dsimp only
    rw [num, if_neg (by omega)]
  · unfold dsTimeout
    rintro (h | h | ⟨n, h⟩) <;> rw [h] <;> dsimp only
    · rw [num, if_pos (by simp)]
    · rw [neg, if_pos (by omega)]
  · unfold dsTimeout
    cases w.timeoutVar with
    | none => simp
    | some s => dsimp only; split_ifs <;> omega

def exDs : DsWorld := {
  domid := 5, timeoutVar := some c!"90", nowait := false, direct := false, pipe := true, fork := true, chdir := true,
  nameLength := 4, log := true, dup := true, setsid := true, vchan := true, clock := some ⟨0, 0⟩,
  rounds := [⟨some ⟨3, 7⟩, .ready true, 0⟩], bytes := hello 4, setids := true, sockets := true, signals := true, write := true }

/-- The hypotheses are met: a start that succeeds, one that is killed just before it reports, and one without an agent. -/
theorem C92_example :
    DsForks exDs ∧ dsChild exDs = [.connected, .hello 4, .sockets, .report 0, .serve] ∧
    dsParent exDs (dsChild exDs) false = some 0 ∧ dsParent exDs ((dsChild exDs).take 3) true = some 1 ∧
    dsParent { exDs with rounds := [⟨some ⟨90, 0⟩, .timeout, 0⟩] } (dsChild { exDs with rounds := [⟨some ⟨90, 0⟩, .timeout, 0⟩] }) true =
      some 3 := ⟨⟨by decide, rfl, rfl⟩, by decide, by decide, by decide, by decide⟩

/-- **C92, exactly when.** The daemon gets to its main loop exactly if everything on the way succeeds: the log is only needed
without `--direct`, the agent need only be found in time without QREXEC_STARTUP_NOWAIT; and only if somebody waits, it must
be possible to tell him. It reports success exactly if it serves and somebody waits, and it reports nothing if nobody does. -/
theorem C92_complete (w : DsWorld) :
    (.serve ∈ dsChild w ↔ 0 < w.domid ∧ w.chdir = true ∧
      (w.direct = true ∨ (w.nameLength + 26 < 256 ∧ w.log = true ∧ w.dup = true ∧ w.setsid = true)) ∧ w.vchan = true ∧
      (w.nowait = true ∨ (waitVchan false (dsTimeout w) w.clock w.rounds).1 = .connected) ∧
      (hsRun controlEnd controlPlan w.bytes).1.ready ∧ w.setids = true ∧ w.sockets = true ∧ w.signals = true ∧
      (w.nowait = true ∨ w.direct = true ∨ w.write = true)) ∧
    (.report 0 ∈ dsChild w ↔ .serve ∈ dsChild w ∧ w.nowait = false ∧ w.direct = false) ∧
    (w.nowait = true ∨ w.direct = true → ∀ b, .report b ∉ dsChild w) := by
  have hrd : (hsRun controlEnd controlPlan w.bytes).1.ready ↔
      ((hsRun controlEnd controlPlan w.bytes).1.failed || !(hsRun controlEnd controlPlan w.bytes).1.todo.isEmpty) = false := by
    unfold HsParty.ready
    simp only [Bool.or_eq_false_iff, Bool.not_eq_false', List.isEmpty_iff]
    tauto
  have hname : (decide (w.nameLength + 26 ≥ 256)) = !decide (w.nameLength + 26 < 256) := by
    by_cases h : w.nameLength + 26 < 256
    · rw [decide_eq_false (by omega), decide_eq_true h]; rfl
    · rw [decide_eq_true (by omega), decide_eq_false h]; rfl
  have hname' : w.nameLength + 26 < 256 ↔ decide (w.nameLength + 26 < 256) = true := by rw [decide_eq_true_eq]
  rw [hrd, hname']
  unfold dsChild dsConnect dsFinish
  dsimp only
  rw [hname]
  generalize ((hsRun controlEnd controlPlan w.bytes).1.failed || !(hsRun controlEnd controlPlan w.bytes).1.todo.isEmpty) = bad
  generalize (hsRun controlEnd controlPlan w.bytes).1.actual = v
  generalize (waitVchan false (dsTimeout w) w.clock w.rounds).1 = r
  by_cases h0 : w.domid ≤ 0
  · rw [if_pos h0]
    have : ¬ 0 < w.domid := by omega
    simp [this]
  · rw [if_neg h0]
    have : 0 < w.domid := by omega
    simp only [this, true_and]
    generalize decide (w.nameLength + 26 < 256) = short
    cases w.chdir
    · simp
    cases hd : w.direct
    · cases short
      · simp
      cases w.log
      · simp
      cases w.dup
      · simp
      cases w.setsid
      · simp
      cases w.vchan
      · simp
      cases w.nowait <;> cases r <;> cases bad <;> cases w.setids <;> cases w.sockets <;> cases w.signals <;> cases w.write <;>
        simp
    · cases w.vchan
      · simp
      cases w.nowait <;> cases r <;> cases bad <;> cases w.setids <;> cases w.sockets <;> cases w.signals <;> cases w.write <;>
        simp

end Qrexec
