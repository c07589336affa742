import Verif.Model.AdminConc
import Verif.Props.AdminCrash

/-! # C31: concurrent requests -/
namespace Qrexec
open Spec

/-- The specification: the requests are executed one after the other, in the order in which the
processes ended; of a process that was killed, some number of its first file system operations
(perhaps none) were executed. -/
inductive OneByOne (prog : Nat → Prog) (d0 : Disk) : List Ev → Disk → Prop
  | nil : OneByOne prog d0 [] d0
  | ended {evs d i d' r} : OneByOne prog d0 evs d →
      runPlan d (prog i) = (d', r) →
      OneByOne prog d0 (evs ++ [.ended i r]) d'
  | killedEarly {evs d i} : OneByOne prog d0 evs d →
      OneByOne prog d0 (evs ++ [.killed i]) d
  | killed {evs d i plan} (k : Nat) : OneByOne prog d0 evs d →
      prog i d = .ok plan →
      OneByOne prog d0 (evs ++ [.killed i]) (runWrites d (plan.2.take k)).1

/-- The state of an execution: the events so far, executed one by one, gave the disk `d`; the
process holding the lock, if any, has executed a part of its plan since. -/
structure ConcInv (prog : Nat → Prog) (d0 : Disk) (evs : List Ev)
    (s : World) (d : Disk) : Prop where
  serial : OneByOne prog d0 evs d
  alone : ∀ i j, (s.proc i).holds = true → (s.proc j).holds = true → i = j
  idle : (∀ i, ∀ reply ws, s.proc i ≠ .writing reply ws) → s.disk = d
  busy : ∀ i reply ws, s.proc i = .writing reply ws → ∃ before,
    prog i d = .ok (reply, before ++ ws) ∧
    runWrites d before = (s.disk, none)
  results : ∀ i r, s.proc i = .done r → .ended i r ∈ evs

theorem set_self (s : World) (i : Nat) (p : Proc) : s.set i p i = p := by simp [World.set]

theorem set_other (s : World) {i j : Nat} (p : Proc) (h : j ≠ i) : s.set i p j = s.proc j := by
  simp [World.set, h]

theorem runWrites_snoc {d d1 d2 : Disk} {before : List Write} {w : Write}
    (h1 : runWrites d before = (d1, none)) (h2 : d1.apply w = .ok d2) :
    runWrites d (before ++ [w]) = (d2, none) := by
  rw [runWrites_append, h1]
  simp [runWrites, h2]

theorem runWrites_fail {d d1 : Disk} {before ws : List Write} {w : Write} {e : Err}
    (h1 : runWrites d before = (d1, none)) (h2 : d1.apply w = .error e) :
    runWrites d (before ++ w :: ws) = (d1, some e) := by
  rw [runWrites_append, h1]
  simp [runWrites, h2]

/-- When the holder of the lock ends, nobody writes. -/
theorem nobody_writes {s : World} {i : Nat} {p : Proc}
    (halone : ∀ i j, (s.proc i).holds = true → (s.proc j).holds = true → i = j)
    (hi : (s.proc i).holds = true) (hp : p.holds = false) (j : Nat) :
    (s.set i p j).holds = false := by
  by_cases hj : j = i
  · rw [hj, set_self]; exact hp
  · rw [set_other s p hj]
    cases hh : (s.proc j).holds with
    | false => rfl
    | true => exact absurd (halone j i hh hi) hj

theorem not_writing {p : Proc} (h : p.holds = false) : ∀ reply ws, p ≠ .writing reply ws := by
  rintro reply ws rfl
  simp [Proc.holds] at h

/-- Ending a process that holds the lock keeps the invariant, for any disk that the events
explain. -/
theorem end_inv {prog : Nat → Prog} {d0 d : Disk} {evs : List Ev}
    {s : World} (hinv : ConcInv prog d0 evs s d) {i : Nat} {p : Proc} {ev : Ev}
    (hi : (s.proc i).holds = true) (hp : p.holds = false)
    (hser : OneByOne prog d0 (evs ++ [ev]) s.disk)
    (hres : ∀ r, p = .done r → ev = .ended i r) :
    ConcInv prog d0 (evs ++ [ev]) ⟨s.disk, s.set i p⟩ s.disk where
  serial := hser
  alone := by
    intro a b ha
    rw [show (World.mk s.disk (s.set i p)).proc = s.set i p from rfl,
      nobody_writes hinv.alone hi hp] at ha
    simp at ha
  idle := fun _ => rfl
  busy := fun a reply ws ha =>
    absurd ha (not_writing (nobody_writes hinv.alone hi hp a) reply ws)
  results := by
    intro a r ha
    by_cases hj : a = i
    · subst hj
      simp only [set_self] at ha
      rw [hres r ha]; simp
    · simp only [set_other s p hj] at ha
      exact List.mem_append_left _ (hinv.results a r ha)

theorem conc_step {prog : Nat → Prog} {d0 d : Disk} {evs : List Ev}
    {s s' : World} {ev : Option Ev} (hinv : ConcInv prog d0 evs s d)
    (hs : ConcStep prog s ev s') : ∃ d', ConcInv prog d0 (evs ++ ev.toList) s' d' := by
  -- the disk is explained by the events when the lock holder has not begun to write
  have hlocked : ∀ i, s.proc i = .locked → s.disk = d := by
    intro i hi
    apply hinv.idle
    intro j reply ws hj
    have := hinv.alone i j (by rw [hi]; rfl) (by rw [hj]; rfl)
    subst this
    rw [hi] at hj; cases hj
  cases hs with
  | @acquire i hw hnone =>
    refine ⟨d, ?_⟩
    simp only [Option.toList_none, List.append_nil]
    have hother : ∀ j, j ≠ i → (s.set i .locked j).holds = false := by
      intro j hj; rw [set_other s _ hj]; exact hnone j
    refine ⟨hinv.serial, ?_, ?_, ?_, ?_⟩
    · intro a b ha hb
      by_cases h1 : a = i
      · by_cases h2 : b = i
        · rw [h1, h2]
        · simp only [hother b h2] at hb; cases hb
      · simp only [hother a h1] at ha; cases ha
    · intro _
      exact hinv.idle fun j => not_writing (hnone j)
    · intro a reply ws ha
      by_cases h1 : a = i
      · subst h1; simp only [set_self] at ha; cases ha
      · exact absurd ha (not_writing (hother a h1) reply ws)
    · intro a r ha
      by_cases h1 : a = i
      · subst h1; simp only [set_self] at ha; cases ha
      · simp only [set_other s _ h1] at ha; exact hinv.results a r ha
  | @plan i reply ws hl hp =>
    refine ⟨d, ?_⟩
    have hd := hlocked i hl
    simp only [Option.toList_none, List.append_nil]
    have hi : (s.proc i).holds = true := by rw [hl]; rfl
    have hother : ∀ j, j ≠ i → (s.set i (.writing reply ws) j).holds = false := by
      intro j hj
      rw [set_other s _ hj]
      cases hh : (s.proc j).holds with
      | false => rfl
      | true => exact absurd (hinv.alone j i hh hi) hj
    refine ⟨hinv.serial, ?_, ?_, ?_, ?_⟩
    · intro a b ha hb
      by_cases h1 : a = i
      · by_cases h2 : b = i
        · rw [h1, h2]
        · simp only [hother b h2] at hb; cases hb
      · simp only [hother a h1] at ha; cases ha
    · intro _; exact hd
    · intro a reply' ws' ha
      by_cases h1 : a = i
      · subst h1
        simp only [set_self] at ha
        cases ha
        refine ⟨[], ?_, ?_⟩
        · rw [hd] at hp; exact hp
        · rw [hd]; rfl
      · exact absurd ha (not_writing (hother a h1) reply' ws')
    · intro a r ha
      by_cases h1 : a = i
      · subst h1; simp only [set_self] at ha; cases ha
      · simp only [set_other s _ h1] at ha; exact hinv.results a r ha
  | @refuse i e hl hp =>
    refine ⟨s.disk, end_inv hinv (by rw [hl]; rfl) rfl ?_ ?_⟩
    · have hd := hlocked i hl
      rw [hd] at hp ⊢
      refine .ended hinv.serial ?_
      unfold runPlan
      rw [hp]
    · rintro r ⟨⟩; rfl
  | @write i reply w ws d' hw ha =>
    refine ⟨d, ?_⟩
    simp only [Option.toList_none, List.append_nil]
    have hi : (s.proc i).holds = true := by rw [hw]; rfl
    have hother : ∀ j, j ≠ i → (s.set i (.writing reply ws) j).holds = false := by
      intro j hj
      rw [set_other s _ hj]
      cases hh : (s.proc j).holds with
      | false => rfl
      | true => exact absurd (hinv.alone j i hh hi) hj
    obtain ⟨before, hb1, hb2⟩ := hinv.busy i reply (w :: ws) hw
    refine ⟨hinv.serial, ?_, ?_, ?_, ?_⟩
    · intro a b ha hb
      by_cases h1 : a = i
      · by_cases h2 : b = i
        · rw [h1, h2]
        · simp only [hother b h2] at hb; cases hb
      · simp only [hother a h1] at ha; cases ha
    · intro hno
      exact absurd (by simp [World.set]) (hno i reply ws)
    · intro a reply' ws' ha'
      by_cases h1 : a = i
      · subst h1
        simp only [set_self] at ha'
        cases ha'
        refine ⟨before ++ [w], ?_, runWrites_snoc hb2 ha⟩
        rw [List.append_assoc]; exact hb1
      · exact absurd ha' (not_writing (hother a h1) reply' ws')
    · intro a r ha'
      by_cases h1 : a = i
      · subst h1; simp only [set_self] at ha'; cases ha'
      · simp only [set_other s _ h1] at ha'; exact hinv.results a r ha'
  | @fail i reply w ws e hw ha =>
    refine ⟨s.disk, end_inv hinv (by rw [hw]; rfl) rfl ?_ ?_⟩
    · obtain ⟨before, hb1, hb2⟩ := hinv.busy i reply (w :: ws) hw
      refine .ended hinv.serial ?_
      unfold runPlan
      rw [hb1]
      simp only [runWrites_fail hb2 ha]
    · rintro r ⟨⟩; rfl
  | @finish i reply hw =>
    refine ⟨s.disk, end_inv hinv (by rw [hw]; rfl) rfl ?_ ?_⟩
    · obtain ⟨before, hb1, hb2⟩ := hinv.busy i reply [] hw
      refine .ended hinv.serial ?_
      unfold runPlan
      rw [List.append_nil] at hb1
      rw [hb1]
      simp only [hb2]
    · rintro r ⟨⟩; rfl
  | @kill i hnd hnk =>
    cases hpi : s.proc i with
    | done r => exact absurd hpi (hnd r)
    | killed => exact absurd hpi hnk
    | locked =>
      refine ⟨s.disk, end_inv hinv (by rw [hpi]; rfl) rfl ?_ ?_⟩
      · rw [hlocked i hpi]; exact .killedEarly hinv.serial
      · rintro r ⟨⟩
    | writing reply ws =>
      refine ⟨s.disk, end_inv hinv (by rw [hpi]; rfl) rfl ?_ ?_⟩
      · obtain ⟨before, hb1, hb2⟩ := hinv.busy i reply ws hpi
        have := OneByOne.killed before.length hinv.serial hb1
        simp only [List.take_left', hb2] at this
        exact this
      · rintro r ⟨⟩
    | waiting =>
      refine ⟨d, .killedEarly hinv.serial, ?_, ?_, ?_, ?_⟩
      · have hh : ∀ a, (s.set i .killed a).holds = true → (s.proc a).holds = true := by
          intro a ha
          by_cases h1 : a = i
          · subst h1; rw [set_self] at ha; cases ha
          · rwa [set_other s _ h1] at ha
        intro a b ha hb
        exact hinv.alone a b (hh a ha) (hh b hb)
      · intro hno
        apply hinv.idle
        intro j reply ws hj
        by_cases h1 : j = i
        · subst h1; rw [hpi] at hj; cases hj
        · exact hno j reply ws (by simp only [set_other s _ h1]; exact hj)
      · intro a reply ws ha
        by_cases h1 : a = i
        · subst h1; simp only [set_self] at ha; cases ha
        · simp only [set_other s _ h1] at ha; exact hinv.busy a reply ws ha
      · intro a r ha
        by_cases h1 : a = i
        · subst h1; simp only [set_self] at ha; cases ha
        · simp only [set_other s _ h1] at ha
          exact List.mem_append_left _ (hinv.results a r ha)

/-- All processes wait at the beginning. -/
def startWorld (d0 : Disk) : World := ⟨d0, fun _ => .waiting⟩

theorem conc_inv {prog : Nat → Prog} {d0 : Disk} {evs : List Ev}
    {s : World} (hrun : ConcRun prog (startWorld d0) evs s) :
    ∃ d, ConcInv prog d0 evs s d := by
  induction hrun with
  | start =>
    refine ⟨d0, .nil, ?_, fun _ => rfl, ?_, ?_⟩
    · intro i j hi; simp [startWorld, Proc.holds] at hi
    · intro i reply ws hi; simp [startWorld] at hi
    · intro i r hi; simp [startWorld] at hi
  | step _ hs ih =>
    obtain ⟨d, hd⟩ := ih
    exact conc_step hd hs

/-- Executing a client's program alone is `handleAdmin`. -/
theorem runPlan_clients (h : Host) (c : AdminConf) (reqs : Nat → Req) (d : Disk) (i : Nat) :
    runPlan d (clients h c reqs i) =
      handleAdmin h c d (reqs i).service (reqs i).arg (reqs i).payload := rfl

/-- **C31.** Any number of concurrent requests, whatever the schedule and whichever processes are
killed: when no process holds the lock, the disk is the result of executing the requests one
after the other in the order in which they ended, and each answer is the answer in that
execution. -/
theorem C31_concurrent (h : Host) (c : AdminConf) (reqs : Nat → Req) (d0 : Disk) (evs : List Ev)
    (s : World) (hrun : ConcRun (clients h c reqs) (startWorld d0) evs s) :
    (∀ i r, s.proc i = .done r → .ended i r ∈ evs) ∧
    ∃ d, OneByOne (clients h c reqs) d0 evs d ∧ ((∀ i, (s.proc i).holds = false) → s.disk = d) := by
  obtain ⟨d, hd⟩ := conc_inv hrun
  exact ⟨hd.results, d, hd.serial, fun hno => hd.idle fun i => not_writing (hno i)⟩

/-- **C31.** At most one process holds the lock, and only that process changes the disk. -/
theorem C31_lock_excludes (h : Host) (c : AdminConf) (reqs : Nat → Req) (d0 : Disk)
    (evs : List Ev) (s s' : World) (ev : Option Ev)
    (hrun : ConcRun (clients h c reqs) (startWorld d0) evs s) (i : Nat) (hi : (s.proc i).holds = true)
    (hs : ConcStep (clients h c reqs) s ev s') (hsame : s'.proc i = s.proc i)
    (hw : ∀ reply ws, s.proc i ≠ .writing reply ws) : s'.disk = s.disk := by
  obtain ⟨d, hd⟩ := conc_inv hrun
  cases hs with
  | @write j reply w ws d' hwj ha =>
    have := hd.alone i j hi (by rw [hwj]; rfl)
    subst this
    exact absurd hwj (hw _ _)
  | acquire | plan | refuse | fail | finish | kill => rfl

theorem oneByOne_split {prog : Nat → Prog} {d0 d : Disk}
    {evs : List Ev} (ho : OneByOne prog d0 evs d) :
    ∀ pre i r post, evs = pre ++ .ended i r :: post →
    ∃ d1 d2, OneByOne prog d0 pre d1 ∧
      runPlan d1 (prog i) = (d2, r) ∧
      OneByOne prog d0 (pre ++ [.ended i r]) d2 := by
  induction ho with
  | nil => intro pre i r post he; simp at he
  | @ended evs d j d' r' ho hr ih =>
    intro pre i r post he
    rcases List.eq_nil_or_concat post with rfl | ⟨post, x, rfl⟩
    · obtain ⟨h1, h2⟩ := List.append_inj' he rfl
      subst h1
      cases h2
      exact ⟨d, d', ho, hr, .ended ho hr⟩
    · rw [List.concat_eq_append, ← List.cons_append, ← List.append_assoc] at he
      exact ih pre i r post (List.append_inj' he rfl).1
  | @killedEarly evs d j ho ih =>
    intro pre i r post he
    rcases List.eq_nil_or_concat post with rfl | ⟨post, x, rfl⟩
    · have := (List.append_inj' he rfl).2; simp at this
    · rw [List.concat_eq_append, ← List.cons_append, ← List.append_assoc] at he
      exact ih pre i r post (List.append_inj' he rfl).1
  | @killed evs d j plan k ho hp ih =>
    intro pre i r post he
    rcases List.eq_nil_or_concat post with rfl | ⟨post, x, rfl⟩
    · have := (List.append_inj' he rfl).2; simp at this
    · rw [List.concat_eq_append, ← List.cons_append, ← List.append_assoc] at he
      exact ih pre i r post (List.append_inj' he rfl).1

/-- **C31.** In any concurrent execution, a Replace that succeeded replaced the content which the
requests that ended before it left, and its token was `any`, `new` (and there was no file), or
that of this content: nobody's change is overwritten unseen. -/
theorem C31_concurrent_replace (h : Host) (c : AdminConf) (reqs : Nat → Req) (d0 : Disk)
    (pre post : List Ev) (s : World) (i : Nat) (a : Area) (n : Str) (t x : Bytes)
    (r : Option Bytes) (ht : '\n' ∉ t)
    (hreq : reqs i = ⟨(Call.replace a n t x).service, n, (Call.replace a n t x).payload⟩)
    (hrun : ConcRun (clients h c reqs) (startWorld d0) (pre ++ .ended i (.ok r) :: post) s) :
    ∃ d1 d2, OneByOne (clients h c reqs) d0 pre d1 ∧ OneByOne (clients h c reqs) d0 (pre ++ [.ended i (.ok r)]) d2 ∧
      (t = c!"any" ∨ (t = c!"new" ∧ d1.exists (fileOf c d1 a n) = false) ∨
        ∃ current, d1.content (fileOf c d1 a n) = some current ∧ t = tokenOf h current) ∧
      d2.content (fileOf c d1 a n) = some x := by
  obtain ⟨d, hd⟩ := conc_inv hrun
  obtain ⟨d1, d2, h1, h2, h3⟩ := oneByOne_split hd.serial pre i (.ok r) post rfl
  have h2 : handleAdmin h c d1 (reqs i).service (reqs i).arg (reqs i).payload = (d2, .ok r) := h2
  rw [hreq] at h2
  have h2 : (Call.replace a n t x).run h c d1 = (d2, .ok r) := h2
  refine ⟨d1, d2, h1, h3, C31_replace h c d1 d2 a n t x r ht h2, ?_⟩
  obtain ⟨_, _, _, hp, _, _, _, rfl, _, _⟩ := replace_run ht h2
  rw [afterReplace_content hp, tempOf_eq, if_neg (fun e => tempPath_ne _ hp e.symm), if_pos rfl]

/-- An execution with two clients where the second replaces what the first has replaced. -/
example : ∃ evs s, ConcRun (clients exampleHost exampleConf
    (fun i => ⟨c!"policy.Replace", c!"b", (if i = 0 then c!"new\n#" else c!"any\n")⟩))
    (startWorld diskA) evs s ∧ evs.length = 2 ∧ s.proc 0 = .done (.ok none) ∧ s.proc 1 = .killed := by
  refine ⟨_, _, .step (.step (.step (.step (.step (.step (.step (.step (.step .start
    (.acquire (i := 0) rfl (fun _ => rfl)))
    (.plan (i := 0) rfl rfl))
    (.write (i := 0) rfl rfl)) (.write (i := 0) rfl rfl)) (.write (i := 0) rfl rfl))
    (.write (i := 0) rfl rfl)) (.finish (i := 0) rfl))
    (.acquire (i := 1) rfl ?_)) (.kill (i := 1) ?_ ?_), rfl, rfl, rfl⟩
  · intro j
    by_cases hj : j = 0
    · subst hj; rfl
    · simp [World.set, hj, startWorld, Proc.holds]
  · intro r h; cases h
  · intro h; cases h

end Qrexec
