import Verif.Spec.Wakeup
import Mathlib.Tactic.Tauto

/-!
# C115: no wake-up of a vchan is lost
-/
namespace Qrexec
open Spec

/-- What holds at every moment: as long as the event is not raised, what the loop has seen in this
iteration is still so. -/
structure Fresh (checks : Bool) (s : WLoop) : Prop where
  openSeen : checks = true → s.v.event = false → (s.pc = .seenOpen ∨ s.pc = .seenRoom ∨
    (∃ z, s.pc = .polls z)) → s.v.isOpen = true ∨ s.v.avail > 0 ∨ s.pend = true
  roomSeen : s.v.event = false → (s.pc = .seenRoom ∨ ∃ z, s.pc = .polls z) → s.roomSeen = s.v.room
  dataSeen : s.v.event = false → s.pc = .polls false → s.pend = false → s.v.avail = 0
  zeroSeen : ∀ z, s.pc = .polls z → s.v.event = false → (z = true ↔ s.pend = false ∧ s.v.avail > 0)
  clears : s.pc = .clears → s.v.event = true
  noPend : checks = false → s.pend = false

theorem fresh_step {checks : Bool} {s t : WLoop} (h : WStep checks s t) (i : Fresh checks s) :
    Fresh checks t := by
  obtain ⟨i1, i2, i3, i4, i5, i6⟩ := i
  cases h with
  | peer a => cases a <;> constructor <;> simp_all [peerStep]
  | goesOn hc hp hn =>
    constructor <;> simp_all
    intro _
    by_cases h1 : s.v.isOpen = true
    · exact Or.inl h1
    · by_cases h2 : s.v.avail = 0
      · exact Or.inr (Or.inr (hn (by simpa using h1) h2))
      · exact Or.inr (Or.inl (by omega))
  | enters hp =>
    constructor <;> simp_all
    all_goals tauto
  | _ => constructor <;> simp_all

theorem fresh_run {checks : Bool} {s t : WLoop} (h : WRun checks s t) (i : Fresh checks s) :
    Fresh checks t := by
  induction h with
  | refl => exact i
  | step _ hs ih => exact fresh_step hs ih

theorem fresh_begin {checks : Bool} {s : WLoop} (h : Begins s) (hp : checks = false → s.pend = false) :
    Fresh checks s := by
  unfold Begins at h
  constructor <;> simp_all

/-- **C115.** Whatever the peer did and whenever: while a loop sleeps there is nothing for it to
read - unless the local process does not take what was read before - and it knows the room there is
for writing. -/
theorem C115_sleeps (checks : Bool) (s t : WLoop) (hb : Begins s)
    (hp : checks = false → s.pend = false) (hr : WRun checks s t) (hs : Sleeps t) :
    (t.pend = false → t.v.avail = 0) ∧ t.roomSeen = t.v.room := by
  have i := fresh_run hr (fresh_begin hb hp)
  exact ⟨i.dataSeen hs.2 hs.1, i.roomSeen hs.2 (Or.inr ⟨_, hs.1⟩)⟩

/-- **C115.** A data connection does not sleep when the peer has gone, unless the local process has
still to take data. -/
theorem C115_closed (s t : WLoop) (hb : Begins s) (hr : WRun true s t) (hs : Sleeps t)
    (hp : t.pend = false) : t.v.isOpen = true := by
  have i := fresh_run hr (fresh_begin hb (fun h => by cases h))
  rcases i.openSeen rfl hs.2 (Or.inr (Or.inr ⟨_, hs.1⟩)) with h | h | h
  · exact h
  · rw [i.dataSeen hs.2 hs.1 hp] at h; exact absurd h (Nat.lt_irrefl _)
  · rw [hp] at h; cases h

/-- **C115.** Anything the peer does ends the sleep. -/
theorem C115_wakes (checks : Bool) (s : WLoop) (a : PeerAct) (hs : Sleeps s) :
    WStep checks { s with v := peerStep s.v a } { s with v := peerStep s.v a, pc := .clears } :=
  WStep.wakes { s with v := peerStep s.v a } false hs.1 (by cases a <;> rfl)

/-- **C115.** `libvchan_wait` after `ppoll` never blocks: the event is there. -/
theorem C115_wait_ready (checks : Bool) (s t : WLoop) (hb : Begins s)
    (hp : checks = false → s.pend = false) (hr : WRun checks s t) (hc : t.pc = .clears) :
    t.v.event = true :=
  (fresh_run hr (fresh_begin hb hp)).clears hc

/-- **C115.** A loop does not spin either: the timeout is zero only if there is something to read and
it will be read, or the event is raised. -/
theorem C115_no_spin (checks : Bool) (s t : WLoop) (hb : Begins s)
    (hp : checks = false → s.pend = false) (hr : WRun checks s t) (hz : t.pc = .polls true) :
    t.v.event = true ∨ (t.pend = false ∧ t.v.avail > 0) := by
  have i := fresh_run hr (fresh_begin hb hp)
  by_cases he : t.v.event = true
  · exact Or.inl he
  · exact Or.inr ((i.zeroSeen true hz (by simpa using he)).1 rfl)

/-! ## What is violated -/

/-- **C115, violated.** The main loops of agent and daemon may sleep although the peer has gone: it
sends the rest of a message and goes while the loop waits for the message in a blocking read, which
takes the event of both.  The daemon notices at its next timeout, the agent does not look. -/
theorem C115_main_loop_violated : ∃ s t, Begins s ∧ s.pend = false ∧ s.v.isOpen = true ∧
    WRun false s t ∧ Sleeps t ∧ t.v.isOpen = false := by
  have r1 : WRun false { v := { avail := 1, room := 0, isOpen := true, event := true } }
      { v := { avail := 1, room := 0, isOpen := true, event := true }, pc := .seenOpen } :=
    .step (.refl _) (.noLook _ rfl rfl)
  have r2 := WRun.step r1 (.looksRoom _ rfl)
  have r3 := WRun.step r2 (.enters _ rfl)
  have r4 := WRun.step r3 (.wakes _ true rfl rfl)
  have r5 := WRun.step r4 (.takes _ rfl rfl)
  have r6 := WRun.step r5 (.readsOwn _ 1 rfl (Nat.le_refl _))
  have r7 := WRun.step r6 (.peer _ (.writes 6))
  have r8 := WRun.step r7 (.peer _ .closes)
  have r9 := WRun.step r8 (.waitsInside _ rfl rfl)
  have r10 := WRun.step r9 (.readsOwn _ 7 rfl (by decide))
  have r11 := WRun.step r10 (.again _ rfl)
  have r12 := WRun.step r11 (.noLook _ rfl rfl)
  have r13 := WRun.step r12 (.looksRoom _ rfl)
  exact ⟨{ v := { avail := 1, room := 0, isOpen := true, event := true } }, _, rfl, rfl, rfl,
    WRun.step r13 (.enters _ rfl), ⟨rfl, rfl⟩, rfl⟩

/-- The loop that sleeps is reachable: nothing to read, the peer is there. -/
example : ∃ s t, Begins s ∧ WRun true s t ∧ Sleeps t ∧ t.pend = false := by
  refine ⟨{ v := { avail := 0, room := 9, isOpen := true, event := false } }, _, rfl,
    .step (.step (.step (.refl _) (.goesOn _ rfl rfl ?_)) (.looksRoom _ rfl)) (.enters _ rfl),
    ⟨rfl, rfl⟩, rfl⟩
  rintro ⟨h, _⟩; cases h

/-- The peer writes between the look at the vchan and `ppoll`: the loop is in `ppoll` with a timeout
and data to read, and is woken. -/
example : ∃ s t, Begins s ∧ WRun true s t ∧ t.pc = .polls false ∧ t.v.avail = 5 ∧ t.v.event = true := by
  refine ⟨{ v := { avail := 0, room := 9, isOpen := true, event := false } }, _, rfl,
    .step (.step (.step (.step (.refl _) (.goesOn _ rfl rfl ?_)) (.looksRoom _ rfl)) (.enters _ rfl))
      (.peer _ (.writes 4)), rfl, rfl, rfl⟩
  rintro ⟨h, _⟩; cases h

end Qrexec
