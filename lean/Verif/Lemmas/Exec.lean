import Verif.Spec.Answer
import Verif.Lemmas.Allow

namespace Qrexec
open Spec

theorem truthy_eq_some {o : Option Str} {x : Str} : truthy o = some x ↔ o = some x ∧ x ≠ [] := by
  unfold truthy
  split
  · simp only [Option.some.injEq]
    constructor
    · rintro rfl; exact ⟨rfl, by simp⟩
    · exact fun h => h.1
  · rename_i h
    constructor
    · simp
    · rintro ⟨rfl, hx⟩
      cases x with
      | nil => exact absurd rfl hx
      | cons c cs => exact absurd rfl (h c cs)

theorem truthy_eq_none {o : Option Str} : truthy o = none ↔ o = none ∨ o = some [] := by
  unfold truthy
  split
  · simp
  · rename_i h
    rcases o with _ | ⟨_ | ⟨c, cs⟩⟩
    · simp
    · simp
    · exact absurd rfl (h c cs)

theorem splitOn_cons_ne {sep c : Char} {cs : Str} (h : c ≠ sep) :
    ∃ w ws, splitOn sep cs = w :: ws ∧ splitOn sep (c :: cs) = (c :: w) :: ws := by
  have hne : splitOn sep cs ≠ [] := by
    cases cs with
    | nil => simp [splitOn]
    | cons a as =>
      simp only [splitOn]
      split_ifs
      · simp
      · split <;> simp
  cases hs : splitOn sep cs with
  | nil => exact absurd hs hne
  | cons w ws => exact ⟨w, ws, rfl, by simp [splitOn, h, hs]⟩

theorem splitOn_of_not_mem {sep : Char} {s : Str} (h : sep ∉ s) : splitOn sep s = [s] := by
  induction s with
  | nil => rfl
  | cons c cs ih =>
    simp only [List.mem_cons, not_or] at h
    obtain ⟨w, ws, h1, h2⟩ := splitOn_cons_ne (cs := cs) (Ne.symm h.1)
    rw [h2]
    rw [ih h.2] at h1
    cases h1
    rfl

theorem splitOn_append {sep : Char} {a b : Str} (h : sep ∉ a) :
    splitOn sep (a ++ sep :: b) = a :: splitOn sep b := by
  induction a with
  | nil => simp [splitOn]
  | cons c cs ih =>
    simp only [List.mem_cons, not_or] at h
    obtain ⟨w, ws, h1, h2⟩ := splitOn_cons_ne (cs := cs ++ sep :: b) (Ne.symm h.1)
    rw [List.cons_append, h2]
    rw [ih h.2] at h1
    cases h1
    rfl

theorem splitOn_joinWith {sep : Char} {ws : List Str} (hne : ws ≠ []) (h : ∀ w ∈ ws, sep ∉ w) :
    splitOn sep (joinWith sep ws) = ws := by
  induction ws with
  | nil => exact absurd rfl hne
  | cons w ws ih =>
    cases ws with
    | nil => exact splitOn_of_not_mem (h w (by simp))
    | cons w2 ws =>
      simp only [joinWith]
      rw [splitOn_append (h w (by simp)), ih (by simp) (fun x hx => h x (by simp [hx]))]

theorem splitOnce_append {sep : Char} {a b : Str} (h : sep ∉ a) :
    splitOnce sep (a ++ sep :: b) = some (a, b) := by
  induction a with
  | nil => simp [splitOnce]
  | cons c cs ih =>
    simp only [List.mem_cons, not_or] at h
    simp [splitOnce, Ne.symm h.1, ih h.2]

/-- Rendering then reading fields gives them back. -/
theorem readAnswer_answerText {fs : List (Str × Str)} (hne : fs ≠ [])
    (hk : ∀ f ∈ fs, '\n' ∉ f.1 ∧ '=' ∉ f.1 ∧ '\n' ∉ f.2) :
    readAnswer (answerText fs) = some fs := by
  unfold readAnswer answerText
  rw [splitOn_joinWith (by simpa using hne)]
  · clear hne
    induction fs with
    | nil => rfl
    | cons f fs ih =>
      have h1 := hk f (by simp)
      simp only [List.map_cons, List.mapM_cons, splitOnce_append h1.2.1,
        ih fun x hx => hk x (by simp [hx])]
      rfl
  · intro w hw
    obtain ⟨f, hf, rfl⟩ := List.mem_map.1 hw
    have h1 := hk f hf
    simp only [List.mem_append, List.mem_cons, not_or]
    exact ⟨h1.1, by decide, h1.2.2⟩

theorem policySourceLine_eq (req : Request) :
    policySourceLine req =
      if req.requestedSource = [] then [] else [(c!"policy_source", req.source)] := by
  unfold policySourceLine
  cases req.requestedSource <;> simp

/-- The fields of an executed allow are the specified ones. -/
theorem fields_ok {r : AllowRes} {fs : List (Str × Str)}
    (h : r.fields = .ok fs) : AnswerFor r.request r.user r.autostart r.target fs := by
  unfold AllowRes.fields at h
  split_ifs at h with h1 h2 h3
  · cases h
    exact .dom0 ((isDom0_iff _).1 h2) (fun h => h1 (by simp [h]))
  · simp only [bind_eq_ok, pure_ok, Except.ok.injEq, lookup_eq_ok, getUuid_eq_ok] at h
    obtain ⟨d, hd, u, hu, rfl⟩ := h
    obtain ⟨t, ht⟩ := startsWith_iff.1 h3
    rw [policySourceLine_eq]
    refine .disposable ht (fun h => h1 (by simp [h])) ?_ hu
    rw [ht] at hd
    exact hd
  · simp only [bind_eq_ok, lookup_eq_ok] at h
    obtain ⟨d, hd, h⟩ := h
    have hs : r.target ≠ r.request.source := fun h => h1 (by simp [h])
    have hd0 : ¬ Dom0 r.target := fun h => h2 ((isDom0_iff _).2 h)
    split_ifs at h with h4
    · unfold AllowRes.remoteFields at h
      split at h
      · simp at h
      · rename_i relay hrel
        split at h
        · simp at h
        · rename_i tr htr
          simp only [bind_eq_ok, pure_ok, Except.ok.injEq, lookup_eq_ok, getUuid_eq_ok] at h
          obtain ⟨rd, hrd, u, hu, rfl⟩ := h
          rw [policySourceLine_eq]
          obtain ⟨hr1, hr2⟩ := truthy_eq_some.1 hrel
          obtain ⟨ht1, ht2⟩ := truthy_eq_some.1 htr
          exact .remote hd0 hs hd (by simpa using h4) hr1 hr2 ht1 ht2 hrd hu
    · simp only [bind_eq_ok, pure_ok, Except.ok.injEq, getUuid_eq_ok] at h
      obtain ⟨u, hu, rfl⟩ := h
      rw [policySourceLine_eq]
      exact .plain hd0 hs hd (by simpa using h4) hu

theorem execute_ok {r : AllowRes} {s : Str}
    (h : r.execute = .ok s) :
    ∃ fs, AnswerFor r.request r.user r.autostart r.target fs ∧ s = answerText fs := by
  unfold AllowRes.execute at h
  simp only [bind_eq_ok, pure_ok, Except.ok.injEq] at h
  obtain ⟨fs, h1, rfl⟩ := h
  exact ⟨fs, fields_ok h1, rfl⟩

/-- The allow made from an approved ask. -/
def approved (a : AskRes) (t : Str) : AllowRes :=
  { rule := a.rule, request := a.request, user := a.user, target := t, autostart := a.autostart }

theorem fromAsk_ok {a : AskRes} {t : Str} {r : AllowRes} (h : AllowRes.fromAsk a t = .ok r) :
    r = approved a t := by
  unfold AllowRes.fromAsk at h
  split_ifs at h with h2
  · simp only [bind_eq_ok, pure_ok, Except.ok.injEq] at h
    obtain ⟨t', h1, rfl⟩ := h
    obtain ⟨tok, htok, rfl⟩ := map_eq_ok.1 h1
    obtain ⟨rfl, _⟩ := mkDispvmTemplate_ok htok
    obtain ⟨t0, rfl⟩ := startsWith_iff.1 h2
    rfl
  · simp only [ok_bind, pure_ok, Except.ok.injEq] at h; exact h.symm

theorem handleUserResponse_ok {a : AskRes} {b : Bool} {t : Str} {r : AllowRes}
    (h : a.handleUserResponse b t = .ok r) : b = true ∧ t ∈ a.targetsForAsk ∧
    r = approved a t := by
  unfold AskRes.handleUserResponse at h
  split_ifs at h with h1 h2
  exact ⟨by simpa using h1, by simpa using h2, fromAsk_ok h⟩

/-- What an ask resolution that ends with an answer went through. -/
theorem execAsk_ok {mode : Mode} {agent : Agent} {a : AskRes} {evs : List Event} {s : Str}
    (h : execAsk mode agent a = (evs, .ok s)) :
    (mode.assumeYes = false ∧ mode.justEvaluate = true ∧ s = denyAnswer ∧ evs = []) ∨
    ∃ t evs', t ∈ a.targetsForAsk ∧
      ((mode.assumeYes = true ∧ t = a.request.target.str ∧ evs = evs') ∨
       (mode.assumeYes = false ∧ mode.justEvaluate = false ∧
        ∃ g, GuiOf a.request.info a.request.source g ∧
          agent g (questionOf a) = .ok (c!"allow:" ++ t) ∧
          evs = Event.ask g (questionOf a) :: evs')) ∧
      execAllow mode (approved a t) = (evs', .ok s) := by
  unfold execAsk at h
  split_ifs at h with h1 h2
  · split at h
    · rename_i r hr
      obtain ⟨_, ht, rfl⟩ := handleUserResponse_ok hr
      exact Or.inr ⟨_, evs, ht, Or.inl ⟨h1, rfl, rfl⟩, h⟩
    · simp at h
  · simp only [Prod.mk.injEq, Except.ok.injEq] at h
    exact Or.inl ⟨by simpa using h1, h2, h.2.symm, h.1.symm⟩
  · split at h
    · simp at h
    · rename_i d hd
      split at h
      · simp at h
      · rename_i g hg
        simp only at h
        split at h
        · simp at h
        · rename_i resp hresp
          split_ifs at h with h3 h4
          · simp at h
          · split at h
            · rename_i r hr
              obtain ⟨_, ht, rfl⟩ := handleUserResponse_ok hr
              obtain ⟨t0, h5⟩ := startsWith_iff.1 h4
              have h6 : resp.drop 6 = t0 := by rw [h5]; rfl
              rw [h6] at ht h
              simp only [Prod.mk.injEq] at h
              obtain ⟨hg1, hg2⟩ := truthy_eq_some.1 hg
              refine Or.inr ⟨t0, _, ht, Or.inr ⟨by simpa using h1, by simpa using h2, g,
                ⟨d, hd, hg1, hg2⟩, ?_, h.1.symm⟩, ?_⟩
              · rw [← h5]; exact hresp
              · rw [← h.2]
            · simp at h
          · simp at h

/-- The stages of a request that is not refused. -/
theorem handleRequest_ok {sys : Option Info} {policy : Except Err (List Rule)} {agent : Agent}
    {mode : Mode} {source target sa rs : Str} {evs : List Event} {s : Str}
    (h : handleRequest sys policy agent mode source target sa rs = (evs, .ok s)) :
    s = denyAnswer ∨ ∃ info rules req res, sys = some info ∧ policy = .ok rules ∧
      mkRequest (splitServiceArg sa).1 (splitServiceArg sa).2 source target info rs = .ok req ∧
      evaluate rules req = .ok res ∧ execResolution mode agent res = (evs, .ok s) := by
  unfold handleRequest at h
  split at h
  · simp at h; exact Or.inl h.2.symm
  · rename_i info
    simp only at h
    generalize htr : tryRequest policy mode agent (splitServiceArg sa).1 (splitServiceArg sa).2
      source target info rs = tr at h
    obtain ⟨evs0, x⟩ := tr
    simp only at h
    split at h
    · simp only [Prod.mk.injEq, Except.ok.injEq] at h
      obtain ⟨rfl, rfl⟩ := h
      unfold tryRequest at htr
      split at htr
      · simp at htr
      · rename_i rules
        split at htr
        · simp at htr
        · rename_i req hreq
          split at htr
          · simp at htr
          · rename_i res hres
            exact Or.inr ⟨info, rules, req, res, rfl, rfl, hreq, hres, htr⟩
    · simp at h; exact Or.inl h.2.symm
    · split_ifs at h
      · unfold onDenied at h
        split_ifs at h
        · split at h
          · simp at h
          · split at h <;> (simp at h; exact Or.inl h.2.symm)
        · simp at h; exact Or.inl h.2.symm
      · simp at h

end Qrexec
