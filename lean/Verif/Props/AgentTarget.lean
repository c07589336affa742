import Verif.Props.AgentFocus
import Verif.Lemmas.Str

/-! # C44: the answers of the question window -/
namespace Qrexec
open Spec

theorem startsWith_iff' {p s : Str} : startsWith p s = true ↔ p <+: s := by
  unfold startsWith; rw [List.isPrefixOf_iff_prefix]

theorem namedAs_iff {t s : Str} : NamedAs t s ↔ entryName t = s := by
  unfold entryName
  constructor
  · rintro (⟨v⟩ | ⟨h⟩)
    · rw [if_pos (startsWith_iff'.2 ⟨v, rfl⟩)]; rfl
    · rename_i h
      rw [if_neg (fun hh => h (startsWith_iff'.1 hh))]
  · intro h
    by_cases hp : startsWith c!"@dispvm:" t = true
    · rw [if_pos hp] at h
      obtain ⟨v, rfl⟩ := startsWith_iff'.1 hp
      rw [← h]
      exact .disposable v
    · rw [if_neg hp] at h
      subst h
      exact .qube t (fun hh => hp (startsWith_iff'.2 hh))

theorem createEntries_ok {icons : List Str} {es : List (Str × Str)} (h : createEntries icons = .ok es) :
    es = icons.map (fun n => (entryName n, n)) ∧
      ∀ n ∈ icons, ∀ c ∈ (if startsWith c!"@dispvm:" n then n.drop 8 else n), pySanitizeChar [] c = c := by
  induction icons generalizing es with
  | nil => cases h; exact ⟨rfl, by simp⟩
  | cons n rest ih =>
    unfold createEntries at h
    simp only [bind_eq_ok, pure_ok, Except.ok.injEq] at h
    obtain ⟨_, h1, es', h2, rfl⟩ := h
    obtain ⟨rfl, h3⟩ := ih h2
    refine ⟨rfl, ?_⟩
    intro m hm
    rcases List.mem_cons.1 hm with rfl | hm
    · unfold sanitizeDomainName pySanitizeName at h1
      dsimp only at h1
      generalize (if startsWith c!"@dispvm:" m = true then m.drop 8 else m) = x at h1
      split_ifs at h1 with hx
      simp only [Bool.true_and, Bool.not_eq_true', beq_eq_false_iff_ne, ne_eq, not_not] at hx
      exact List.map_inj_left.1 (hx.symm.trans (List.map_id x).symm)
    · exact h3 m hm

theorem entryFor_some {icons : List Str} {key api : Str}
    (h : entryFor (icons.map fun n => (entryName n, n)) key = some api) : api ∈ icons ∧ entryName api = key := by
  unfold entryFor at h
  obtain ⟨e, he, rfl⟩ := Option.map_eq_some_iff.1 h
  have h1 := List.mem_of_find?_eq_some he
  have h2 := List.find?_some he
  rw [List.mem_reverse] at h1
  obtain ⟨n, hn, rfl⟩ := List.mem_map.1 h1
  exact ⟨hn, by simpa using h2⟩

theorem entryFor_none {icons : List Str} {key : Str}
    (h : entryFor (icons.map fun n => (entryName n, n)) key = none) : ∀ n ∈ icons, entryName n ≠ key := by
  unfold entryFor at h
  rw [Option.map_eq_none_iff, List.find?_eq_none] at h
  intro n hn hk
  exact h (entryName n, n) (by rw [List.mem_reverse]; exact List.mem_map.2 ⟨n, hn, rfl⟩) (by simpa using hk)

theorem no_space {n : Str} (h : ∀ c ∈ n, pySanitizeChar [] c = c) : ' ' ∉ n := by
  intro hc
  exact absurd (h _ hc) (by decide)

/-- **C44, names.** Different targets are shown under different names. -/
theorem C44_names (p : Question) (w : Win) (h : mkWindow p = .ok w) (t t' s : Str) (ht : t ∈ p.icons) (ht' : t' ∈ p.icons)
    (hs : NamedAs t s) (hs' : NamedAs t' s) : t = t' := by
  obtain ⟨es, hes, _⟩ := mkWindow_eq h
  obtain ⟨_, hsan⟩ := createEntries_ok hes
  cases hs with
  | disposable v =>
    generalize hx : c!"Disposable VM (" ++ v ++ c!")" = x at hs'
    cases hs' with
    | disposable v' =>
      rw [List.append_cancel_right_eq, List.append_cancel_left_eq] at hx
      rw [hx]
    | qube _ hn =>
      have := hsan t' ht'
      rw [if_neg (fun hh => hn (startsWith_iff'.1 hh))] at this
      refine absurd ?_ (no_space this)
      rw [← hx]
      simp
  | qube _ hn =>
    have hns := hsan t ht
    rw [if_neg (fun hh => hn (startsWith_iff'.1 hh))] at hns
    generalize hx : t = x at hs'
    cases hs' with
    | disposable v' =>
      refine absurd ?_ (no_space hns)
      rw [hx]
      simp
    | qube _ hn => rfl

/-- The target that `comboChange` sets. -/
def comboTarget (w : Win) : Option Str :=
  match validQubeName w with
  | some name => if name.isEmpty then none else entryFor w.entries name
  | none => none

theorem comboChange_target (w : Win) : w.comboChange.targetName = comboTarget w ∧ w.comboChange.entries = w.entries ∧
    w.comboChange.whitelist = w.whitelist ∧ w.comboChange.active = w.active ∧ w.comboChange.text = w.text := by
  unfold Win.comboChange comboTarget
  cases validQubeName w with
  | none => exact ⟨rfl, rfl, rfl, rfl, rfl⟩
  | some n =>
    dsimp only
    split_ifs <;> exact ⟨rfl, rfl, rfl, rfl, rfl⟩

theorem comboTarget_congr {v w : Win} (h1 : v.entries = w.entries) (h2 : v.whitelist = w.whitelist)
    (h3 : v.active = w.active) (h4 : v.text = w.text) : comboTarget v = comboTarget w := by
  unfold comboTarget validQubeName
  rw [h1, h2, h3, h4]

/-- The target always is the one of the combo box. -/
def TargetInv (es : List (Str × Str)) (wl : List Str) (w : Win) : Prop :=
  w.entries = es ∧ w.whitelist = wl ∧ w.targetName = comboTarget w

theorem TargetInv.comboChange {es : List (Str × Str)} {wl : List Str} {w : Win} (h1 : w.entries = es) (h2 : w.whitelist = wl) :
    TargetInv es wl w.comboChange := by
  obtain ⟨k1, k2, k3, k4, k5⟩ := comboChange_target w
  exact ⟨k2.trans h1, k3.trans h2, k1.trans (comboTarget_congr k2 k3 k4 k5).symm⟩

theorem TargetInv.step {es : List (Str × Str)} {wl : List Str} {w : Win} (h : TargetInv es wl w) (e : GuiEvent) :
    TargetInv es wl (w.step e) := by
  have cong : ∀ v : Win, v.entries = w.entries → v.whitelist = w.whitelist → v.active = w.active → v.text = w.text →
      v.targetName = w.targetName → TargetInv es wl v := fun v a b c d f =>
    ⟨a.trans h.1, b.trans h.2.1, f.trans (h.2.2.trans (comboTarget_congr a b c d).symm)⟩
  have ok : TargetInv es wl w.clickedOk := by
    unfold Win.clickedOk; split_ifs <;> exact cong _ rfl rfl rfl rfl rfl
  have cancel : TargetInv es wl w.clickedCancel := by
    unfold Win.clickedCancel; split_ifs <;> exact cong _ rfl rfl rfl rfl rfl
  unfold Win.step
  by_cases hg : w.gone = true
  · rw [if_pos hg]; exact h
  rw [if_neg hg]
  cases e with
  | tick ms => exact cong _ rfl rfl rfl rfl rfl
  | fire i => exact cong _ rfl rfl rfl rfl rfl
  | focus f => exact cong _ rfl rfl rfl rfl rfl
  | select a t => exact TargetInv.comboChange h.1 h.2.1
  | okPress => dsimp only; split_ifs; exacts [ok, h]
  | activate =>
    dsimp only
    unfold Win.entryActivate
    split
    · split_ifs; exacts [h, ok]
    · exact h
  | cancelPress => exact cancel
  | escape => exact cancel
  | otherKey => exact h
  | deleted => exact cong _ rfl rfl rfl rfl rfl

theorem targetInv_run {p : Question} {w : Win} (h : mkWindow p = .ok w) (evs : List GuiEvent) :
    TargetInv (p.icons.map fun n => (entryName n, n)) p.targets (w.run evs) := by
  have start : TargetInv (p.icons.map fun n => (entryName n, n)) p.targets w := by
    obtain ⟨es, hes, rfl⟩ := mkWindow_eq h
    obtain ⟨rfl, _⟩ := createEntries_ok hes
    have base : TargetInv (p.icons.map fun n => (entryName n, n)) p.targets
        ({ entries := p.icons.map fun n => (entryName n, n), whitelist := p.targets } : Win).comboChange :=
      TargetInv.comboChange rfl rfl
    generalize ({ entries := p.icons.map fun n => (entryName n, n), whitelist := p.targets } : Win).comboChange = v at base
    unfold Win.setInitialTarget
    split_ifs
    · exact base
    · exact base
    · split
      · exact base
      · exact TargetInv.comboChange base.1 base.2.1
  induction evs using List.reverseRecOn with
  | nil => exact start
  | append_singleton evs e ih => rw [run_concat]; exact ih.step e

theorem validEntry_iff {icons wl : List Str} {key : Str}
    (inj : ∀ t ∈ icons, ∀ t' ∈ icons, entryName t = entryName t' → t = t') :
    validEntry (icons.map fun n => (entryName n, n)) wl key = true ↔ ∃ t ∈ wl, t ∈ icons ∧ NamedAs t key := by
  unfold validEntry
  cases h : entryFor (icons.map fun n => (entryName n, n)) key with
  | none =>
    simp only [Bool.false_eq_true, false_iff, not_exists, not_and]
    intro t _ hi hs
    exact entryFor_none h t hi (namedAs_iff.1 hs)
  | some api =>
    obtain ⟨h1, h2⟩ := entryFor_some h
    simp only [List.contains_iff_mem]
    constructor
    · exact fun hw => ⟨api, hw, h1, namedAs_iff.2 h2⟩
    · rintro ⟨t, hw, hi, hs⟩
      rw [inj api h1 t hi (h2.trans (namedAs_iff.1 hs).symm)]
      exact hw

/-- **C44, chosen.** At any time the target that would be answered is exactly the one chosen in the combo box - an offered
one - and none if there is no such choice. -/
theorem C44_chosen (p : Question) (w : Win) (h : mkWindow p = .ok w) (evs : List GuiEvent) (t : Str) :
    (w.run evs).targetName = some t ↔ ChosenTarget p (w.run evs).active (w.run evs).text t := by
  obtain ⟨h1, h2, h3⟩ := targetInv_run h evs
  have inj : ∀ t ∈ p.icons, ∀ t' ∈ p.icons, entryName t = entryName t' → t = t' := fun t ht t' ht' he =>
    C44_names p w h t t' (entryName t) ht ht' (namedAs_iff.2 rfl) (namedAs_iff.2 he.symm)
  rw [h3]
  generalize w.run evs = v at *
  clear h3
  have val := fun key => validEntry_iff (wl := p.targets) (key := key) inj
  have look : ∀ key, key ≠ [] → validEntry (p.icons.map fun n => (entryName n, n)) p.targets key = true →
      (entryFor (p.icons.map fun n => (entryName n, n)) key = some t ↔ NameOf p t key) := by
    intro key hk hv
    unfold validEntry at hv
    cases he : entryFor (p.icons.map fun n => (entryName n, n)) key with
    | none => rw [he] at hv; cases hv
    | some api =>
      rw [he] at hv
      obtain ⟨g1, g2⟩ := entryFor_some he
      constructor
      · rintro hx
        cases hx
        exact ⟨by simpa using hv, g1, namedAs_iff.2 g2, hk⟩
      · rintro ⟨_, k2, k3, _⟩
        rw [inj api g1 t k2 (g2.trans (namedAs_iff.1 k3).symm)]
  have bad : ∀ key, ¬ (key ≠ [] ∧ validEntry (p.icons.map fun n => (entryName n, n)) p.targets key = true) →
      ∀ t', ¬ NameOf p t' key := by
    rintro key hb t' ⟨k1, k2, k3, k4⟩
    exact hb ⟨k4, (val key).2 ⟨t', k1, k2, k3⟩⟩
  -- what the typed text gives
  have typed : (match (if validEntry v.entries v.whitelist v.text = true then some v.text else none) with
      | some name => if name.isEmpty then none else entryFor v.entries name
      | none => none) = some t ↔ NameOf p t v.text := by
    rw [h1, h2]
    by_cases hv : validEntry (p.icons.map fun n => (entryName n, n)) p.targets v.text = true
    · rw [if_pos hv]
      dsimp only
      by_cases he : v.text.isEmpty = true
      · rw [if_pos he]
        simp only [reduceCtorEq, false_iff]
        exact bad _ (fun hx => hx.1 (List.isEmpty_iff.1 he)) t
      · rw [if_neg he]
        exact look _ (fun hx => he (List.isEmpty_iff.2 hx)) hv
    · rw [if_neg hv]
      simp only [reduceCtorEq, false_iff]
      exact bad _ (fun hx => hv hx.2) t
  unfold comboTarget validQubeName ChosenTarget
  cases ha : v.active with
  | none =>
    dsimp only
    rw [typed]
    constructor
    · exact fun hx => .inr ⟨hx, by simp⟩
    · rintro (⟨s, hs, _⟩ | ⟨hx, _⟩)
      · cases hs
      · exact hx
  | some sel =>
    dsimp only
    by_cases hv : (!sel.isEmpty && validEntry v.entries v.whitelist sel) = true
    · rw [if_pos hv]
      dsimp only
      rw [h1, h2] at hv
      simp only [Bool.and_eq_true, Bool.not_eq_true'] at hv
      have hne : sel ≠ [] := by rintro rfl; simp at hv
      rw [if_neg (by simp [hv.1]), h1, look sel hne hv.2]
      constructor
      · exact fun hx => .inl ⟨sel, rfl, hx⟩
      · rintro (⟨s, hs, hx⟩ | ⟨_, hn⟩)
        · cases hs; exact hx
        · obtain ⟨t', k1, k2, k3⟩ := (val sel).1 hv.2
          exact absurd ⟨k1, k2, k3, hne⟩ (hn sel t' rfl)
    · rw [if_neg hv, typed]
      have nb := bad sel (fun hx => hv (by
        rw [h1, h2, hx.2]
        cases sel with
        | nil => exact absurd rfl hx.1
        | cons => rfl))
      constructor
      · exact fun hx => .inr ⟨hx, fun s t' hs => by cases hs; exact nb t'⟩
      · rintro (⟨s, hs, hx⟩ | ⟨hx, _⟩)
        · cases hs; exact absurd hx (nb t)
        · exact hx

/-- **C44.** The window answers "deny", or allows one of the offered targets: the one chosen in the combo box. -/
theorem C44_answer (p : Question) (w : Win) (h : mkWindow p = .ok w) (evs : List GuiEvent) :
    (w.run evs).answer = c!"deny" ∨
      ∃ t, (w.run evs).answer = c!"allow:" ++ t ∧ t ∈ p.targets ∧ t ≠ [] ∧
        ChosenTarget p (w.run evs).active (w.run evs).text t := by
  have hch := C44_chosen p w h evs
  unfold Win.answer
  cases hc : (w.run evs).confirmed with
  | none => exact .inl rfl
  | some b =>
    cases b with
    | false => exact .inl rfl
    | true =>
      cases ht : (w.run evs).targetName with
      | none => exact .inl rfl
      | some t =>
        dsimp only
        by_cases he : t.isEmpty = true
        · rw [if_pos he]; exact .inl rfl
        · rw [if_neg he]
          have hx := (hch t).1 ht
          refine .inr ⟨t, rfl, ?_, fun hh => he (List.isEmpty_iff.2 hh), hx⟩
          rcases hx with ⟨s, _, hx⟩ | ⟨hx, _⟩ <;> exact hx.1

/-- **C44, pressed.** Pressing a sensitive OK button allows the chosen target. -/
theorem C44_pressed (p : Question) (w : Win) (h : mkWindow p = .ok w) (evs : List GuiEvent)
    (hg : (w.run evs).gone = false) (hb : (w.run evs).helper.buttonSensitive = true) :
    ∃ t ∈ p.targets, ChosenTarget p (w.run evs).active (w.run evs).text t ∧
      (w.run (evs ++ [.okPress, .deleted])).answer = c!"allow:" ++ t := by
  have inv := run_inv h evs hg
  have hch := C44_chosen p w h evs
  rw [show evs ++ [GuiEvent.okPress, .deleted] = (evs ++ [.okPress]) ++ [.deleted] by simp, run_concat, run_concat]
  generalize w.run evs = v at *
  rw [inv.button, Bool.and_eq_true] at hb
  cases ht : v.targetName with
  | none => rw [ht] at hb; simp at hb
  | some t =>
    have hx := (hch t).1 ht
    have hn : t ∈ p.targets ∧ t ≠ [] := by
      have key : ∀ s, NameOf p t s → t ∈ p.targets ∧ t ≠ [] := by
        rintro s ⟨k1, _, k3, k4⟩
        refine ⟨k1, ?_⟩
        rintro rfl
        rw [namedAs_iff] at k3
        exact k4 k3.symm
      rcases hx with ⟨s, _, hx⟩ | ⟨hx, _⟩ <;> exact key _ hx
    refine ⟨t, hn.1, hx, ?_⟩
    have e1 : v.step .okPress = { v with confirmed := some true, closing := true } := by
      unfold Win.step
      rw [if_neg (by simp [hg])]
      dsimp only
      rw [if_pos (by rw [inv.button, hb.1, hb.2]; rfl)]
      unfold Win.clickedOk
      rw [if_pos hb.1]
    rw [e1]
    unfold Win.step
    rw [if_neg (by simp [hg])]
    unfold Win.answer
    dsimp only
    rw [ht]
    dsimp only
    rw [if_neg (fun hh => hn.2 (List.isEmpty_iff.1 hh))]

/-- **C44, default.** The default target, if it is offered and not the caller, is chosen when the window opens. -/
theorem C44_default (p : Question) (w : Win) (h : mkWindow p = .ok w) (ht : p.defaultTarget ∈ p.targets)
    (hi : p.defaultTarget ∈ p.icons) (hs : p.defaultTarget ≠ p.source) (hne : p.defaultTarget ≠ []) :
    w.targetName = some p.defaultTarget := by
  have hc := C44_chosen p w h [] p.defaultTarget
  rw [show w.run [] = w from rfl] at hc
  rw [hc]
  obtain ⟨es, hes, rfl⟩ := mkWindow_eq h
  obtain ⟨rfl, _⟩ := createEntries_ok hes
  obtain ⟨_, k2, k3, _, _⟩ := comboChange_target ({ entries := p.icons.map fun n => (entryName n, n), whitelist := p.targets } : Win)
  generalize ({ entries := p.icons.map fun n => (entryName n, n), whitelist := p.targets } : Win).comboChange = v at *
  dsimp only at k2 k3
  unfold Win.setInitialTarget
  rw [if_neg (fun hx => hne (List.isEmpty_iff.1 hx)), if_neg hs, k2, k3]
  cases hf : (p.icons.map fun n => (entryName n, n)).find? fun e => e.2 = p.defaultTarget && p.targets.contains e.2 with
  | none =>
    rw [List.find?_eq_none] at hf
    exact absurd (by simp [ht]) (hf _ (List.mem_map.2 ⟨p.defaultTarget, hi, rfl⟩))
  | some e =>
    dsimp only
    have h1 := List.mem_of_find?_eq_some hf
    have h2 := List.find?_some hf
    obtain ⟨n, hn, rfl⟩ := List.mem_map.1 h1
    simp only [Bool.and_eq_true, decide_eq_true_eq] at h2
    unfold Win.select
    rw [(comboChange_target _).2.2.2.1]
    dsimp only
    refine .inl ⟨entryName n, rfl, ?_⟩
    rw [h2.1]
    refine ⟨ht, hi, namedAs_iff.2 rfl, ?_⟩
    unfold entryName
    split_ifs
    · simp
    · exact hne

set_option maxRecDepth 20000 in
/-- Another target is typed in before the button is pressed; a name that is not offered disables the button. -/
example : ∃ w, mkWindow exQuestion = .ok w ∧
    (w.run [.focus true, .tick 1000, .fire 0, .select none c!"Disposable VM (tpl)", .okPress, .deleted]).answer =
      c!"allow:@dispvm:tpl" ∧
    (w.run [.focus true, .tick 1000, .fire 0, .select none c!"work", .okPress, .activate, .deleted]).answer = c!"deny" :=
  ⟨_, rfl, by decide, by decide⟩

end Qrexec
