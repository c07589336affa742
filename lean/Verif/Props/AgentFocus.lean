import Verif.Spec.Agent
import Verif.Lemmas.Exc
import Mathlib.Data.List.Induction
import Mathlib.Tactic.Tauto
import Mathlib.Tactic.SplitIfs

/-! # C42: the question window and focus stealing -/
namespace Qrexec
open Spec

theorem elapsed_append (a b : List GuiEvent) : elapsed (a ++ b) = elapsed a + elapsed b := by
  induction a with
  | nil => simp [elapsed]
  | cons e es ih => cases e <;> simp [elapsed, ih] <;> omega

theorem run_append (w : Win) (a b : List GuiEvent) : w.run (a ++ b) = (w.run a).run b := by
  simp [Win.run]

theorem run_concat (w : Win) (a : List GuiEvent) (e : GuiEvent) : w.run (a ++ [e]) = (w.run a).step e := by
  simp [Win.run]

/-- The last focus event was a gain, at time `t`. -/
def GainedAt (t : Nat) (evs : List GuiEvent) : Prop :=
  ∃ before after, evs = before ++ .focus true :: after ∧ (∀ b, .focus b ∉ after) ∧ t = elapsed before

theorem gainedAt_focusedFor {t : Nat} {evs : List GuiEvent} (h : GainedAt t evs) (ht : t + 1000 ≤ elapsed evs) :
    FocusedFor 1000 evs := by
  obtain ⟨b, a, rfl, hn, rfl⟩ := h
  refine ⟨b, a, rfl, hn, ?_⟩
  rw [elapsed_append] at ht
  simp only [elapsed] at ht
  omega

theorem gainedAt_concat {t : Nat} {evs : List GuiEvent} {e : GuiEvent} (h : GainedAt t evs)
    (he : ∀ b, e ≠ .focus b) : GainedAt t (evs ++ [e]) := by
  obtain ⟨b, a, rfl, hn, rfl⟩ := h
  refine ⟨b, a ++ [e], by simp, fun f hf => ?_, rfl⟩
  rcases List.mem_append.1 hf with hf | hf
  · exact hn f hf
  · exact he f (List.mem_singleton.1 hf).symm

theorem focusedFor_concat {evs : List GuiEvent} {e : GuiEvent} (h : FocusedFor 1000 evs)
    (he : ∀ b, e ≠ .focus b) : FocusedFor 1000 (evs ++ [e]) := by
  obtain ⟨b, a, rfl, hn, ht⟩ := h
  refine ⟨b, a ++ [e], by simp, fun f hf => ?_, ?_⟩
  · rcases List.mem_append.1 hf with hf | hf
    · exact hn f hf
    · exact he f (List.mem_singleton.1 hf).symm
  · rw [elapsed_append]; omega

/-- What holds of the helper after the events `evs`. -/
structure FocusInv (evs : List GuiEvent) (w : Win) : Prop where
  now : w.helper.now = elapsed evs
  ids : ∀ t ∈ w.helper.timers, t.1 ≤ w.helper.currentTimer
  due : ∀ t ∈ w.helper.timers, t.1 = w.helper.currentTimer → GainedAt (t.2 - 1000) evs ∧ 1000 ≤ t.2
  done : w.helper.completed = true → FocusedFor 1000 evs
  runs : ∀ t, GainedAt t evs → w.helper.completed = true ∨ (w.helper.currentTimer, t + 1000) ∈ w.helper.timers
  wants : w.helper.targetSensitivity = w.targetName.isSome
  button : w.helper.buttonSensitive = (w.helper.completed && w.targetName.isSome)

/-- Only the decision and the flag of the window differ. -/
theorem FocusInv.congr {evs : List GuiEvent} {w v : Win} (h : FocusInv evs w) (h1 : v.helper = w.helper)
    (h2 : v.targetName = w.targetName) : FocusInv evs v := by
  constructor <;> rw [h1] <;> try rw [h2]
  · exact h.now
  · exact h.ids
  · exact h.due
  · exact h.done
  · exact h.runs
  · exact h.wants
  · exact h.button

theorem gainedAt_of_concat {t : Nat} {evs : List GuiEvent} {e : GuiEvent} (h : GainedAt t (evs ++ [e]))
    (he : ∀ b, e ≠ .focus b) : GainedAt t evs := by
  obtain ⟨b, a, hab, hn, rfl⟩ := h
  rcases List.eq_nil_or_concat a with rfl | ⟨a', x, rfl⟩
  · have := List.append_inj' hab rfl
    simp only [List.cons.injEq, and_true] at this
    exact absurd this.2 (he true)
  · have hab' : evs ++ [e] = (b ++ .focus true :: a') ++ [x] := by simp [hab]
    have := List.append_inj' hab' rfl
    refine ⟨b, a', this.1, fun f hf => hn f (by simp [hf]), rfl⟩

/-- An event that does not concern the time or the focus. -/
theorem FocusInv.keep {evs : List GuiEvent} {w : Win} {e : GuiEvent} (h : FocusInv evs w) (h1 : ∀ b, e ≠ .focus b)
    (h2 : elapsed [e] = 0) : FocusInv (evs ++ [e]) w where
  now := by rw [h.now, elapsed_append, h2]; rfl
  ids := h.ids
  due t ht hi := ⟨gainedAt_concat (h.due t ht hi).1 h1, (h.due t ht hi).2⟩
  done hc := focusedFor_concat (h.done hc) h1
  runs t ht := h.runs t (gainedAt_of_concat ht h1)
  wants := h.wants
  button := h.button

theorem FocusInv.updateOk {evs : List GuiEvent} {w : Win} (h : FocusInv evs w) (d : Option Str) :
    FocusInv evs (w.updateOk d) := by
  obtain ⟨g1, g2, g3, g4, g5, g6, g7⟩ := h
  unfold Win.updateOk FocusHelper.requestSensitivity
  by_cases hc : w.helper.completed = true
  · rw [if_pos (by simp [hc])]
    exact ⟨g1, g2, g3, g4, g5, rfl, by simp [hc]⟩
  · cases d with
    | none =>
      rw [if_pos (by simp)]
      exact ⟨g1, g2, g3, g4, g5, rfl, by simp⟩
    | some x =>
      rw [if_neg (by simp [hc])]
      refine ⟨g1, g2, g3, g4, g5, rfl, ?_⟩
      dsimp only
      rw [g7]
      have : w.helper.completed = false := by simpa using hc
      rw [this]
      simp

theorem FocusInv.comboChange {evs : List GuiEvent} {w : Win} (h : FocusInv evs w) : FocusInv evs w.comboChange := by
  unfold Win.comboChange
  cases validQubeName w with
  | none => exact h.updateOk _
  | some n =>
    dsimp only
    split_ifs
    · exact h.updateOk _
    · exact h.updateOk _

theorem FocusInv.select {evs : List GuiEvent} {w : Win} (h : FocusInv evs w) (a : Option Str) (t : Str) :
    FocusInv evs (w.select a t) := (h.congr rfl rfl : FocusInv evs { w with active := a, text := t }).comboChange

theorem FocusInv.fire {evs : List GuiEvent} {w : Win} (h : FocusInv evs w) (i : Nat) :
    FocusInv evs { w with helper := w.helper.fire i } := by
  unfold FocusHelper.fire
  cases ht : w.helper.timers[i]? with
  | none => exact h.congr rfl rfl
  | some t =>
    dsimp only
    by_cases hn : w.helper.now < t.2
    · rw [if_pos hn]; exact h.congr rfl rfl
    rw [if_neg hn]
    unfold FocusHelper.timerCheckRun
    dsimp only
    have hm : t ∈ w.helper.timers := List.mem_of_getElem? ht
    have sub : ∀ x ∈ w.helper.timers.eraseIdx i, x ∈ w.helper.timers := fun x hx => (List.eraseIdx_sublist _ _).subset hx
    obtain ⟨g1, g2, g3, g4, g5, g6, g7⟩ := h
    by_cases hc : w.helper.currentTimer = t.1
    · rw [if_pos hc]
      refine ⟨g1, fun x hx => g2 x (sub x hx), fun x hx => g3 x (sub x hx), fun _ => ?_, fun _ _ => .inl rfl, g6, ?_⟩
      · obtain ⟨k1, k2⟩ := g3 t hm hc.symm
        refine gainedAt_focusedFor k1 ?_
        rw [← g1]
        omega
      · simpa using g6
    · rw [if_neg hc]
      refine ⟨g1, fun x hx => g2 x (sub x hx), fun x hx => g3 x (sub x hx), g4, fun s hs => ?_, g6, g7⟩
      rcases g5 s hs with k | k
      · exact .inl k
      · refine .inr ?_
        rw [List.mem_eraseIdx_iff_getElem?]
        obtain ⟨j, hj⟩ := List.getElem?_of_mem k
        refine ⟨j, ?_, hj⟩
        rintro rfl
        rw [ht] at hj
        exact hc (by rw [Option.some.inj hj])

theorem FocusInv.step {evs : List GuiEvent} {w : Win} (h : FocusInv evs w) (hg : w.gone = false) (e : GuiEvent)
    (he : e ≠ .deleted) : FocusInv (evs ++ [e]) (w.step e) ∧ (w.step e).gone = false := by
  have ok : ∀ v : Win, (v.clickedOk).helper = v.helper ∧ (v.clickedOk).targetName = v.targetName ∧ (v.clickedOk).gone = v.gone := by
    intro v; unfold Win.clickedOk; split_ifs <;> exact ⟨rfl, rfl, rfl⟩
  have cancel : ∀ v : Win, (v.clickedCancel).helper = v.helper ∧ (v.clickedCancel).targetName = v.targetName ∧
      (v.clickedCancel).gone = v.gone := by
    intro v; unfold Win.clickedCancel; split_ifs <;> exact ⟨rfl, rfl, rfl⟩
  have upd : ∀ (v : Win) d, (v.updateOk d).gone = v.gone := fun v d => rfl
  unfold Win.step
  rw [if_neg (by simp [hg])]
  cases e with
  | tick ms =>
    obtain ⟨g1, g2, g3, g4, g5, g6, g7⟩ := h
    have nf : ∀ b, GuiEvent.tick ms ≠ .focus b := by simp
    refine ⟨⟨?_, g2, fun t ht hi => ⟨gainedAt_concat (g3 t ht hi).1 nf, (g3 t ht hi).2⟩,
      fun hc => focusedFor_concat (g4 hc) nf, fun t ht => g5 t (gainedAt_of_concat ht nf), g6, g7⟩, hg⟩
    rw [elapsed_append]
    simp only [elapsed]
    rw [g1]; rfl
  | fire i =>
    refine ⟨(h.fire i).keep (by simp) rfl, ?_⟩
    exact hg
  | focus f =>
    obtain ⟨g1, g2, g3, g4, g5, g6, g7⟩ := h
    have hnow : elapsed (evs ++ [GuiEvent.focus f]) = elapsed evs := by rw [elapsed_append]; rfl
    refine ⟨?_, hg⟩
    cases f with
    | true =>
      unfold FocusHelper.changedFocus FocusHelper.schedule
      dsimp only
      rw [if_pos rfl]
      have last : GainedAt (elapsed evs) (evs ++ [GuiEvent.focus true]) := ⟨evs, [], rfl, by simp, rfl⟩
      refine ⟨by rw [hnow]; exact g1, ?_, ?_, fun hc => by simp at hc, fun t ht => .inr ?_, g6, by simp⟩
      · intro t ht
        dsimp only at ht ⊢
        rcases List.mem_append.1 ht with ht | ht
        · have := g2 t ht; omega
        · rw [List.mem_singleton.1 ht]; exact Nat.le_refl _
      · intro t ht hi
        dsimp only at ht hi
        rcases List.mem_append.1 ht with ht | ht
        · have := g2 t ht; omega
        · rw [List.mem_singleton.1 ht, g1]
          refine ⟨?_, by dsimp only; omega⟩
          dsimp only
          rw [Nat.add_sub_cancel]
          exact last
      · obtain ⟨b, a, hab, hn, rfl⟩ := ht
        rcases List.eq_nil_or_concat a with rfl | ⟨a', x, rfl⟩
        · have := (List.append_inj' hab rfl).1
          subst this
          dsimp only
          rw [g1]
          simp
        · have hab' : evs ++ [GuiEvent.focus true] = (b ++ .focus true :: a') ++ [x] := by simp [hab]
          have := (List.append_inj' hab' rfl).2
          simp only [List.cons.injEq, and_true] at this
          exact absurd (by simp [← this]) (hn true)
    | false =>
      unfold FocusHelper.changedFocus
      dsimp only
      rw [if_neg (by simp)]
      refine ⟨by rw [hnow]; exact g1, ?_, ?_, fun hc => by simp at hc, fun t ht => ?_, g6, by simp⟩
      · intro t ht
        dsimp only at ht ⊢
        have := g2 t ht; omega
      · intro t ht hi
        dsimp only at ht hi
        have := g2 t ht; omega
      · obtain ⟨b, a, hab, hn, rfl⟩ := ht
        rcases List.eq_nil_or_concat a with rfl | ⟨a', x, rfl⟩
        · have := (List.append_inj' hab rfl).2
          simp at this
        · have hab' : evs ++ [GuiEvent.focus false] = (b ++ .focus true :: a') ++ [x] := by simp [hab]
          have := (List.append_inj' hab' rfl).2
          simp only [List.cons.injEq, and_true] at this
          exact absurd (by simp [← this]) (hn false)
  | select a t =>
    refine ⟨(h.select a t).keep (by simp) rfl, ?_⟩
    dsimp only
    unfold Win.select Win.comboChange
    split
    · split_ifs
      · exact hg
      · exact hg
    · exact hg
  | okPress =>
    dsimp only
    split_ifs
    · exact ⟨(h.congr (ok w).1 (ok w).2.1).keep (by simp) rfl, by rw [(ok w).2.2]; exact hg⟩
    · exact ⟨h.keep (by simp) rfl, hg⟩
  | activate =>
    dsimp only
    unfold Win.entryActivate
    split
    · split_ifs
      · exact ⟨h.keep (by simp) rfl, hg⟩
      · exact ⟨(h.congr (ok w).1 (ok w).2.1).keep (by simp) rfl, by rw [(ok w).2.2]; exact hg⟩
    · exact ⟨h.keep (by simp) rfl, hg⟩
  | cancelPress => exact ⟨(h.congr (cancel w).1 (cancel w).2.1).keep (by simp) rfl, by
      dsimp only; rw [(cancel w).2.2]; exact hg⟩
  | escape => exact ⟨(h.congr (cancel w).1 (cancel w).2.1).keep (by simp) rfl, by
      dsimp only; rw [(cancel w).2.2]; exact hg⟩
  | otherKey => exact ⟨h.keep (by simp) rfl, hg⟩
  | deleted => exact absurd rfl he

theorem run_gone (w : Win) (h : w.gone = true) (evs : List GuiEvent) : w.run evs = w := by
  induction evs with
  | nil => rfl
  | cons e es ih =>
    have : w.step e = w := by unfold Win.step; rw [if_pos h]
    show (w.step e).run es = w
    rw [this, ih]

theorem mkWindow_eq {p : Question} {w : Win} (h : mkWindow p = .ok w) :
    ∃ es, createEntries p.icons = .ok es ∧
      w = (({ entries := es, whitelist := p.targets } : Win).comboChange).setInitialTarget p.source p.defaultTarget := by
  unfold mkWindow at h
  simp only [bind_eq_ok, pure_ok, Except.ok.injEq] at h
  obtain ⟨_, _, _, _, es, h1, _, _, h2⟩ := h
  exact ⟨es, h1, h2.symm⟩

theorem mkWindow_inv {p : Question} {w : Win} (h : mkWindow p = .ok w) :
    FocusInv [] w ∧ w.gone = false ∧ w.confirmed = none := by
  obtain ⟨es, _, rfl⟩ := mkWindow_eq h
  have nog : ∀ t, ¬ GainedAt t [] := by
    rintro t ⟨b, a, h, _⟩
    simp at h
  have base : FocusInv [] ({ entries := es, whitelist := p.targets } : Win) :=
    ⟨rfl, by simp, by simp, by simp, fun t ht => absurd ht (nog t), rfl, rfl⟩
  have cc : ∀ v : Win, v.comboChange.gone = v.gone ∧ v.comboChange.confirmed = v.confirmed := by
    intro v
    unfold Win.comboChange
    split
    · split_ifs <;> exact ⟨rfl, rfl⟩
    · exact ⟨rfl, rfl⟩
  have b2 := base.comboChange
  have k2 := cc ({ entries := es, whitelist := p.targets } : Win)
  generalize ({ entries := es, whitelist := p.targets } : Win).comboChange = v at b2 k2
  unfold Win.setInitialTarget
  split_ifs
  · exact ⟨b2, k2⟩
  · exact ⟨b2, k2⟩
  · split
    · exact ⟨b2, k2⟩
    · refine ⟨b2.select _ _, ?_⟩
      unfold Win.select
      rw [(cc _).1, (cc _).2]
      exact k2

theorem run_inv {p : Question} {w : Win} (h : mkWindow p = .ok w) (evs : List GuiEvent)
    (hg : (w.run evs).gone = false) : FocusInv evs (w.run evs) := by
  induction evs using List.reverseRecOn with
  | nil => exact (mkWindow_inv h).1
  | append_singleton evs e ih =>
    rw [run_concat] at hg ⊢
    by_cases hg' : (w.run evs).gone = true
    · rw [show (w.run evs).step e = w.run evs by unfold Win.step; rw [if_pos hg']] at hg
      rw [hg'] at hg; cases hg
    · have hg' : (w.run evs).gone = false := by simpa using hg'
      refine ((ih hg').step hg' e ?_).1
      rintro rfl
      unfold Win.step at hg
      rw [if_neg (by simp [hg'])] at hg
      cases hg

/-- **C42.** The window takes no decision - whatever the order of focus changes, timers, selections, keys and buttons -
unless it has the focus and has had it for a second since it gained it. -/
theorem C42_decision (p : Question) (w : Win) (h : mkWindow p = .ok w) (evs : List GuiEvent) (e : GuiEvent)
    (hc : ((w.run evs).step e).confirmed ≠ (w.run evs).confirmed) :
    FocusedFor 1000 evs ∧ (e = .okPress ∨ e = .activate ∨ e = .cancelPress ∨ e = .escape) := by
  by_cases hg : (w.run evs).gone = true
  · exact absurd (by unfold Win.step; rw [if_pos hg]) hc
  have inv := run_inv h evs (by simpa using hg)
  generalize w.run evs = v at *
  have ok : v.clickedOk.confirmed ≠ v.confirmed → v.helper.completed = true := by
    intro hh; by_contra hx; exact hh (by unfold Win.clickedOk; rw [if_neg hx])
  have cancel : v.clickedCancel.confirmed ≠ v.confirmed → v.helper.completed = true := by
    intro hh; by_contra hx; exact hh (by unfold Win.clickedCancel; rw [if_neg hx])
  unfold Win.step at hc
  rw [if_neg hg] at hc
  cases e with
  | tick ms => exact absurd rfl hc
  | fire i => exact absurd rfl hc
  | focus f => exact absurd rfl hc
  | select a t =>
    refine absurd ?_ hc
    dsimp only
    unfold Win.select Win.comboChange
    split
    · split_ifs <;> rfl
    · rfl
  | okPress =>
    dsimp only at hc
    split_ifs at hc with hb
    · exact ⟨inv.done (ok hc), .inl rfl⟩
    · exact absurd rfl hc
  | activate =>
    dsimp only at hc
    unfold Win.entryActivate at hc
    split at hc
    · split_ifs at hc
      · exact absurd rfl hc
      · exact ⟨inv.done (ok hc), .inr (.inl rfl)⟩
    · exact absurd rfl hc
  | cancelPress => exact ⟨inv.done (cancel hc), .inr (.inr (.inl rfl))⟩
  | escape => exact ⟨inv.done (cancel hc), .inr (.inr (.inr rfl))⟩
  | otherKey => exact absurd rfl hc
  | deleted => exact absurd rfl hc

/-- **C42, button.** The OK button of an open window is sensitive only then, too, and only while a target is chosen. -/
theorem C42_button (p : Question) (w : Win) (h : mkWindow p = .ok w) (evs : List GuiEvent)
    (hg : (w.run evs).gone = false) (hb : (w.run evs).helper.buttonSensitive = true) :
    FocusedFor 1000 evs ∧ (w.run evs).targetName ≠ none := by
  have inv := run_inv h evs hg
  rw [inv.button, Bool.and_eq_true] at hb
  exact ⟨inv.done hb.1, by intro hn; rw [hn] at hb; simp at hb⟩

theorem confirmed_by {p : Question} {w : Win} (h : mkWindow p = .ok w) (evs : List GuiEvent)
    (hc : (w.run evs).confirmed = some true) :
    ∃ pre e post, evs = pre ++ e :: post ∧ (e = .okPress ∨ e = .activate) ∧ FocusedFor 1000 pre := by
  induction evs using List.reverseRecOn with
  | nil =>
    have := (mkWindow_inv h).2.2
    rw [show w.run [] = w from rfl, this] at hc
    cases hc
  | append_singleton evs e ih =>
    by_cases hs : (w.run evs).confirmed = some true
    · obtain ⟨pre, e', post, rfl, h1, h2⟩ := ih hs
      exact ⟨pre, e', post ++ [e], by simp, h1, h2⟩
    · rw [run_concat] at hc
      have hd := C42_decision p w h evs e (by rw [hc]; exact fun hx => hs hx.symm)
      refine ⟨evs, e, [], by simp, ?_, hd.1⟩
      have cf : ∀ v : Win, v.confirmed ≠ some true → v.clickedCancel.confirmed ≠ some true := by
        intro v hv
        unfold Win.clickedCancel
        split_ifs
        · simp
        · exact hv
      rcases hd.2 with rfl | rfl | rfl | rfl
      · exact .inl rfl
      · exact .inr rfl
      · unfold Win.step at hc
        by_cases hg : (w.run evs).gone = true
        · rw [if_pos hg] at hc; exact absurd hc hs
        · rw [if_neg hg] at hc; exact absurd hc (cf _ hs)
      · unfold Win.step at hc
        by_cases hg : (w.run evs).gone = true
        · rw [if_pos hg] at hc; exact absurd hc hs
        · rw [if_neg hg] at hc; exact absurd hc (cf _ hs)

/-- **C42, answer.** A call is allowed only if the button was pressed, or Enter in the text field, while the window had the
focus for a second. -/
theorem C42_answer (p : Question) (w : Win) (h : mkWindow p = .ok w) (evs : List GuiEvent)
    (ha : (w.run evs).answer ≠ c!"deny") :
    ∃ pre e post, evs = pre ++ e :: post ∧ (e = .okPress ∨ e = .activate) ∧ FocusedFor 1000 pre := by
  refine confirmed_by h evs ?_
  unfold Win.answer at ha
  cases hc : (w.run evs).confirmed with
  | none => rw [hc] at ha; exact absurd rfl ha
  | some b =>
    cases b with
    | false => rw [hc] at ha; exact absurd rfl ha
    | true => rfl

/-- **C42, usable.** An open window that has had the focus for a second will take decisions as soon as its timer fires, and
then the button is sensitive if a target is chosen. -/
theorem C42_usable (p : Question) (w : Win) (h : mkWindow p = .ok w) (evs : List GuiEvent)
    (hg : (w.run evs).gone = false) (hf : FocusedFor 1000 evs) :
    ∃ i, let v := (w.run evs).step (.fire i)
      v.helper.completed = true ∧ (v.helper.buttonSensitive = true ↔ (w.run evs).targetName ≠ none) := by
  have inv := run_inv h evs hg
  obtain ⟨b, a, hab, hn, ht⟩ := hf
  have he : elapsed evs = elapsed b + elapsed a := by rw [hab, elapsed_append]; rfl
  generalize w.run evs = v at *
  have iff : ∀ o : Option Str, o.isSome = true ↔ o ≠ none := by intro o; cases o <;> simp
  rcases inv.runs (elapsed b) ⟨b, a, hab, hn, rfl⟩ with hc | hm
  · refine ⟨v.helper.timers.length, ?_⟩
    have : v.step (.fire v.helper.timers.length) = v := by
      unfold Win.step FocusHelper.fire
      rw [if_neg (by simp [hg])]
      dsimp only
      rw [List.getElem?_eq_none (Nat.le_refl _)]
    rw [this]
    refine ⟨hc, ?_⟩
    rw [inv.button, hc, Bool.true_and, iff]
  · obtain ⟨i, hi⟩ := List.getElem?_of_mem hm
    refine ⟨i, ?_⟩
    have : v.step (.fire i) = { v with helper := { v.helper with timers := v.helper.timers.eraseIdx i, buttonSensitive := v.helper.targetSensitivity, completed := true } } := by
      unfold Win.step FocusHelper.fire
      rw [if_neg (by simp [hg])]
      dsimp only
      rw [hi]
      dsimp only
      rw [if_neg (by rw [inv.now]; omega)]
      unfold FocusHelper.timerCheckRun
      rw [if_pos rfl]
    rw [this]
    refine ⟨rfl, ?_⟩
    dsimp only
    rw [inv.wants, iff]

def exQuestion : Question :=
  ⟨c!"work", c!"qubes.Filecopy", c!"+", [c!"vault", c!"@dispvm:tpl"], c!"vault", [c!"work", c!"vault", c!"tpl", c!"@dispvm:tpl"]⟩

set_option maxRecDepth 20000 in
/-- The focus is stolen just before the user types: the early press does nothing, the later one confirms. -/
example : ∃ w, mkWindow exQuestion = .ok w ∧
    (w.run [.tick 500, .focus true, .tick 900, .okPress, .focus false, .focus true, .tick 100, .fire 0, .okPress]).answer = c!"deny" ∧
    (w.run [.tick 500, .focus true, .tick 900, .okPress, .tick 100, .fire 0, .okPress, .deleted]).answer = c!"allow:vault" :=
  ⟨_, rfl, by decide, by decide⟩

end Qrexec
