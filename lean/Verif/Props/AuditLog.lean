import Verif.Spec.AuditLog
import Verif.Props.Answer
import Verif.Lemmas.RuleLine

/-!
# C114: the log of decisions
-/
namespace Qrexec
open Spec

/-! ## The model with the log is the model without -/

theorem execAllowL_run (mode : Mode) (r : AllowRes) : (execAllowL mode r).run = execAllow mode r := by
  unfold execAllowL; split_ifs <;> rfl

theorem execAskL_run (mode : Mode) (agent : Agent) (a : AskRes) :
    (execAskL mode agent a).run = execAsk mode agent a := by
  unfold execAskL execAsk
  split_ifs
  · cases a.handleUserResponse true a.request.target.str with
    | ok r => exact execAllowL_run mode r
    | error e => rfl
  · rfl
  · cases a.request.info.get? a.request.source with
    | none => rfl
    | some d =>
      simp only
      cases truthy d.guivm with
      | none => rfl
      | some g =>
        simp only
        cases agent g _ with
        | error e => rfl
        | ok resp =>
          simp only
          split_ifs
          · rfl
          · cases a.handleUserResponse true (resp.drop 6) with
            | ok r => simp only [execAllowL_run]
            | error e => rfl
          · rfl

theorem tryRequestL_run (policy : Except Err (List Rule)) (mode : Mode) (agent : Agent)
    (service argument source target : Str) (info : Info) (rs : Str) :
    (tryRequestL policy mode agent service argument source target info rs).run =
      tryRequest policy mode agent service argument source target info rs := by
  unfold tryRequestL tryRequest
  cases policy with
  | error e => rfl
  | ok rules =>
    simp only
    cases mkRequest service argument source target info rs with
    | error e => rfl
    | ok req =>
      simp only
      cases evaluate rules req with
      | error e => rfl
      | ok res =>
        cases res with
        | allow r => exact execAllowL_run mode r
        | ask a => exact execAskL_run mode agent a

/-- Without the log, `handleRequestL` is `handleRequest`, which the other properties are about. -/
theorem logged_forget (sys : Option Info) (policy : Except Err (List Rule)) (agent : Agent)
    (mode : Mode) (source target sa rs : Str) :
    (handleRequestL sys policy agent mode source target sa rs).2 =
      handleRequest sys policy agent mode source target sa rs := by
  unfold handleRequestL handleRequest
  cases sys with
  | none => rfl
  | some info =>
    simp only [← tryRequestL_run]
    generalize tryRequestL policy mode agent (splitServiceArg sa).1 (splitServiceArg sa).2 source
      target info rs = l
    obtain ⟨log, off, evs, x⟩ := l
    cases x with
    | ok s => rfl
    | error e => cases e <;> rfl

/-! ## What each step logs -/

/-- The log of a resolution: nothing, or one record which is no refusal. -/
theorem execResolutionL_log (mode : Mode) (agent : Agent) (res : Resolution) :
    ((execResolutionL mode agent res).log = [] ∧
      (mode.justEvaluate = false → ∃ e, (execResolutionL mode agent res).run.2 = .error e)) ∨
    (mode.justEvaluate = false ∧ (∃ e, (execResolutionL mode agent res).log = [e] ∧ ¬ SaysRefused e ∧
      (SaysAllowed e → ∃ r : AllowRes, e = .allowed r.request.service r.request.argument
        r.request.source r.request.target.str r.target ∧
        (execResolutionL mode agent res).run.2 = r.execute ∧
        (res = .allow r ∨ ∃ a t, res = .ask a ∧ t ∈ a.targetsForAsk ∧ r = approved a t)) ∧
      (¬ SaysAllowed e → ∃ n, (execResolutionL mode agent res).run.2 = .error (.accessDenied n)))) := by
  have key : ∀ r : AllowRes, ((execAllowL mode r).log = [] ∧ mode.justEvaluate = true) ∨
      (mode.justEvaluate = false ∧
      (execAllowL mode r).log = [.allowed r.request.service r.request.argument
        r.request.source r.request.target.str r.target] ∧
      (execAllowL mode r).run.2 = r.execute) := by
    intro r
    unfold execAllowL
    split_ifs with hj
    · exact Or.inl ⟨rfl, hj⟩
    · exact Or.inr ⟨by simpa using hj, rfl, by unfold execAllow; rw [if_neg hj]⟩
  cases res with
  | allow r =>
    rcases key r with ⟨h, hk⟩ | ⟨h1, h2, h3⟩
    · exact Or.inl ⟨h, (fun hf => by rw [hk] at hf; cases hf)⟩
    · exact Or.inr ⟨h1, _, h2, (fun h => h), fun _ => ⟨r, rfl, h3, Or.inl rfl⟩,
        fun h => absurd trivial h⟩
  | ask a =>
    simp only [execResolutionL]
    unfold execAskL
    split_ifs with hy hj
    · cases hr : a.handleUserResponse true a.request.target.str with
      | error e => exact Or.inl ⟨rfl, fun _ => ⟨_, rfl⟩⟩
      | ok r =>
        obtain ⟨_, ht, he⟩ := handleUserResponse_ok hr
        rcases key r with ⟨h, hk⟩ | ⟨h1, h2, h3⟩
        · exact Or.inl ⟨h, (fun hf => by rw [hk] at hf; cases hf)⟩
        · exact Or.inr ⟨h1, _, h2, (fun h => h), fun _ => ⟨r, rfl, h3, Or.inr ⟨a, _, rfl, ht, he⟩⟩,
            fun h => absurd trivial h⟩
    · exact Or.inl ⟨rfl, (fun hf => by rw [hj] at hf; cases hf)⟩
    · have hj' : mode.justEvaluate = false := by simpa using hj
      cases a.request.info.get? a.request.source with
      | none => exact Or.inl ⟨rfl, fun _ => ⟨_, rfl⟩⟩
      | some d =>
        simp only
        cases truthy d.guivm with
        | none => exact Or.inr ⟨hj', _, rfl, (fun h => h), (fun h => h.elim), fun _ => ⟨_, rfl⟩⟩
        | some g =>
          simp only
          cases agent g _ with
          | error e => exact Or.inl ⟨rfl, fun _ => ⟨_, rfl⟩⟩
          | ok resp =>
            simp only
            split_ifs
            · exact Or.inl ⟨rfl, fun _ => ⟨_, rfl⟩⟩
            · cases hr : a.handleUserResponse true (resp.drop 6) with
              | error e => exact Or.inl ⟨rfl, fun _ => ⟨_, rfl⟩⟩
              | ok r =>
                obtain ⟨_, ht, he⟩ := handleUserResponse_ok hr
                rcases key r with ⟨h, hk⟩ | ⟨h1, h2, h3⟩
                · exact Or.inl ⟨h, (fun hf => by rw [hk] at hf; cases hf)⟩
                · exact Or.inr ⟨h1, _, h2, (fun h => h),
                    fun _ => ⟨r, rfl, h3, Or.inr ⟨a, _, rfl, ht, he⟩⟩, fun h => absurd trivial h⟩
            · exact Or.inr ⟨hj', _, rfl, (fun h => h), (fun h => h.elim), fun _ => ⟨_, rfl⟩⟩

theorem evaluate_request {rules : List Rule} {req : Request} {res : Resolution}
    (h : evaluate rules req = .ok res) :
    (∀ r, res = .allow r → r.request = req) ∧ ∀ a, res = .ask a → a.request = req := by
  unfold evaluate at h
  obtain ⟨r, hr, h⟩ := bind_eq_ok.1 h
  unfold evalAction at h
  split at h
  · simp at h
  · obtain ⟨a, ha, rfl⟩ := map_eq_ok.1 h
    unfold evalAllow at ha
    simp only [bind_eq_ok, pure_ok, Except.ok.injEq] at ha
    obtain ⟨_, _, _, _, _, _, _, _, _, _, _, _, _, _, rfl⟩ := ha
    exact ⟨(fun r hr => by cases hr; rfl), (fun r hr => by cases hr)⟩
  · obtain ⟨a, ha, rfl⟩ := map_eq_ok.1 h
    obtain ⟨_, _, _, _, _, _, _, _, rfl⟩ := evalAsk_ok ha
    exact ⟨(fun r hr => by cases hr), (fun r hr => by cases hr; rfl)⟩

/-- Why `AllowResolution.execute` itself fails. -/
theorem execute_fails {r : AllowRes} {e : Err} (h : r.execute = .error e) :
    e = .keyError ∨ (e.isAccessDenied = true ∧ (r.request.source = r.target ∨
      ∃ d, r.request.info.get? r.target = some d ∧ d.cls = c!"RemoteVM" ∧
        (truthy d.relayvm = none ∨ truthy d.transportRpc = none))) := by
  unfold AllowRes.execute at h
  have hf : r.fields = .error e := by
    cases hx : r.fields with
    | error e' => rw [hx] at h; cases h; rfl
    | ok fs => rw [hx] at h; cases h
  have hlook : ∀ n : Str, ∀ e', r.request.info.lookup n = .error e' → e' = .keyError := by
    intro n e' hl
    unfold Info.lookup at hl
    split at hl
    · cases hl
    · cases hl; rfl
  have huuid : ∀ d : Dom, ∀ e', d.getUuid = .error e' → e' = .keyError := by
    intro d e' hl
    unfold Dom.getUuid at hl
    split at hl
    · cases hl
    · cases hl; rfl
  unfold AllowRes.fields at hf
  by_cases h1 : (r.request.source == r.target) = true
  · rw [if_pos h1] at hf
    cases hf
    exact Or.inr ⟨rfl, Or.inl (by simpa using h1)⟩
  rw [if_neg h1] at hf
  by_cases h2 : isDom0 r.target = true
  · rw [if_pos h2] at hf; cases hf
  rw [if_neg h2] at hf
  by_cases h3 : startsWith c!"@dispvm:" r.target = true
  · rw [if_pos h3] at hf
    cases hl : r.request.info.lookup (r.target.drop 8) with
    | error e' =>
      rw [hl] at hf; cases hf
      exact Or.inl (hlook _ _ hl)
    | ok d =>
      rw [hl] at hf
      simp only [ok_bind] at hf
      cases hu : d.getUuid with
      | error e' =>
        rw [hu] at hf; cases hf
        exact Or.inl (huuid _ _ hu)
      | ok u => rw [hu] at hf; cases hf
  · rw [if_neg h3] at hf
    cases hl : r.request.info.lookup r.target with
    | error e' =>
      rw [hl] at hf; cases hf
      exact Or.inl (hlook _ _ hl)
    | ok d =>
      have hd : r.request.info.get? r.target = some d := by
        unfold Info.lookup at hl
        split at hl
        · cases hl; assumption
        · cases hl
      rw [hl] at hf
      simp only [ok_bind] at hf
      by_cases hc : (d.cls == c!"RemoteVM") = true
      · rw [if_pos hc] at hf
        have hc' : d.cls = c!"RemoteVM" := by simpa using hc
        unfold AllowRes.remoteFields at hf
        cases ht : truthy d.relayvm with
        | none =>
          rw [ht] at hf
          cases hf
          exact Or.inr ⟨rfl, Or.inr ⟨d, hd, hc', Or.inl ht⟩⟩
        | some relay =>
          rw [ht] at hf
          simp only at hf
          cases hq : truthy d.transportRpc with
          | none =>
            rw [hq] at hf
            cases hf
            exact Or.inr ⟨rfl, Or.inr ⟨d, hd, hc', Or.inr hq⟩⟩
          | some tr =>
            rw [hq] at hf
            simp only at hf
            cases hl : r.request.info.lookup relay with
            | error e' =>
              rw [hl] at hf; cases hf
              exact Or.inl (hlook _ _ hl)
            | ok d =>
              rw [hl] at hf
              simp only [ok_bind] at hf
              cases hu : d.getUuid with
              | error e' =>
                rw [hu] at hf; cases hf
                exact Or.inl (huuid _ _ hu)
              | ok u => rw [hu] at hf; cases hf
      · rw [if_neg hc] at hf
        cases hu : d.getUuid with
        | error e' =>
          rw [hu] at hf; cases hf
          exact Or.inl (huuid _ _ hu)
        | ok u => rw [hu] at hf; cases hf

/-! ## The log of a request -/

/-- Everything there is to know about the log of a request. -/
theorem log_cases (sys : Option Info) (policy : Except Err (List Rule)) (agent : Agent)
    (mode : Mode) (source target sa rs : Str) :
    ∃ pre post, (handleRequestL sys policy agent mode source target sa rs).1 = pre ++ post ∧
      ((pre = [] ∧ (mode.justEvaluate = false → ∀ info rules req res, sys = some info →
          policy = .ok rules → requestOf sa source target info rs = .ok req →
          evaluate rules req = .ok res → ∃ e, (execResolution mode agent res).2 = .error e)) ∨
        mode.justEvaluate = false ∧ ∃ e info rules req res, pre = [e] ∧ ¬ SaysRefused e ∧
        sys = some info ∧ policy = .ok rules ∧ requestOf sa source target info rs = .ok req ∧
        evaluate rules req = .ok res ∧
        (SaysAllowed e → ∃ r : AllowRes, e = .allowed r.request.service r.request.argument
          r.request.source r.request.target.str r.target ∧ r.request = req ∧
          (execResolution mode agent res).2 = r.execute) ∧
        (¬ SaysAllowed e → ∃ n, (execResolution mode agent res).2 = .error (.accessDenied n))) ∧
      ((post = [] ∧ ∃ info evs x, sys = some info ∧ tryRequest policy mode agent
          (splitServiceArg sa).1 (splitServiceArg sa).2 source target info rs = (evs, x) ∧
          handleRequest sys policy agent mode source target sa rs = (evs, x) ∧
          ∀ e, x = .error e → e.isAccessDenied = false) ∨
       ∃ e, post = [e] ∧ RefusedNames sa source target e ∧
        ((handleRequest sys policy agent mode source target sa rs).2 = .ok denyAnswer ∨
         (handleRequest sys policy agent mode source target sa rs).2 = .error .keyError)) := by
  cases sys with
  | none =>
    exact ⟨[], [.noInfo sa source target], rfl,
      Or.inl ⟨rfl, (fun _ info _ _ _ h => by cases h)⟩, Or.inr ⟨_, rfl, ⟨rfl, rfl, rfl⟩, Or.inl rfl⟩⟩
  | some info =>
    have hpre : ∀ l, l = tryRequestL policy mode agent (splitServiceArg sa).1 (splitServiceArg sa).2
        source target info rs → ((l.log = [] ∧ (mode.justEvaluate = false → ∀ info' rules req res,
          some info = some info' → policy = .ok rules → requestOf sa source target info' rs = .ok req →
          evaluate rules req = .ok res → ∃ e, (execResolution mode agent res).2 = .error e)) ∨ mode.justEvaluate = false ∧ ∃ e info' rules req res,
          l.log = [e] ∧ ¬ SaysRefused e ∧
        some info = some info' ∧ policy = .ok rules ∧ requestOf sa source target info' rs = .ok req ∧
        evaluate rules req = .ok res ∧
        (SaysAllowed e → ∃ r : AllowRes, e = .allowed r.request.service r.request.argument
          r.request.source r.request.target.str r.target ∧ r.request = req ∧
          (execResolution mode agent res).2 = r.execute) ∧
        (¬ SaysAllowed e → ∃ n, (execResolution mode agent res).2 = .error (.accessDenied n))) := by
      rintro l rfl
      unfold tryRequestL
      cases policy with
      | error e => exact Or.inl ⟨rfl, (fun _ _ _ _ _ _ h => by cases h)⟩
      | ok rules =>
        simp only
        cases hreq : mkRequest (splitServiceArg sa).1 (splitServiceArg sa).2 source target info rs with
        | error e =>
          refine Or.inl ⟨rfl, ?_⟩
          rintro _ _ _ _ _ ⟨rfl⟩ _ h
          rw [requestOf, hreq] at h; cases h
        | ok req =>
          simp only
          cases hev : evaluate rules req with
          | error e =>
            refine Or.inl ⟨rfl, ?_⟩
            rintro _ _ _ _ _ ⟨rfl⟩ ⟨rfl⟩ h h'
            rw [requestOf, hreq] at h; cases h
            rw [hev] at h'; cases h'
          | ok res =>
            simp only
            have hrun : (execResolutionL mode agent res).run = execResolution mode agent res := by
              cases res with
              | allow r => exact execAllowL_run mode r
              | ask a => exact execAskL_run mode agent a
            rcases execResolutionL_log mode agent res with ⟨h, hk⟩ | ⟨hj, e, h1, h2, h3, h4⟩
            · refine Or.inl ⟨h, ?_⟩
              rintro hf _ _ _ _ ⟨rfl⟩ ⟨rfl⟩ h h'
              rw [requestOf, hreq] at h; cases h
              rw [hev] at h'; cases h'
              rw [← hrun]; exact hk hf
            · refine Or.inr ⟨hj, e, info, rules, req, res, h1, h2, rfl, rfl, hreq, hev, ?_, ?_⟩
              · intro he
                obtain ⟨r, hr, hx, hres⟩ := h3 he
                rw [hrun] at hx
                refine ⟨r, hr, ?_, hx⟩
                obtain ⟨q1, q2⟩ := evaluate_request hev
                rcases hres with rfl | ⟨a, t, rfl, _, rfl⟩
                · exact q1 _ rfl
                · exact q2 _ rfl
              · intro he
                rw [← hrun]; exact h4 he
    have hrun := tryRequestL_run policy mode agent (splitServiceArg sa).1 (splitServiceArg sa).2
        source target info rs
    have hpre := hpre _ rfl
    have hfg := logged_forget (some info) policy agent mode source target sa rs
    rw [← hfg]
    unfold handleRequestL
    simp only
    revert hpre hrun
    generalize tryRequestL policy mode agent (splitServiceArg sa).1 (splitServiceArg sa).2 source
      target info rs = l
    obtain ⟨log, off, evs, x⟩ := l
    intro hrun hpre
    simp only at hrun hpre
    cases x with
    | ok s =>
      exact ⟨log, [], by simp, hpre, Or.inl ⟨rfl, info, evs, .ok s, rfl, hrun.symm, rfl,
        (fun e he => by cases he)⟩⟩
    | error e =>
      by_cases hps : e = .policySyntax
      · subst hps
        exact ⟨log, [.badPolicy sa source target], rfl, hpre,
          Or.inr ⟨_, rfl, ⟨rfl, rfl, rfl⟩, Or.inl rfl⟩⟩
      have hden : ∀ n evs, (onDenied info mode n (splitServiceArg sa).1 (splitServiceArg sa).2 source
          target evs).2 = .ok denyAnswer ∨ (onDenied info mode n (splitServiceArg sa).1
          (splitServiceArg sa).2 source target evs).2 = .error .keyError := by
        intro n evs
        unfold onDenied
        split
        · split
          · exact Or.inr rfl
          · split <;> exact Or.inl rfl
        · exact Or.inl rfl
      by_cases hd : e.isAccessDenied = true
      · refine ⟨log, [.denied sa source target off], ?_, hpre, Or.inr ⟨_, rfl, ⟨rfl, rfl, rfl⟩, ?_⟩⟩
        · cases e <;> first | rfl | (exact absurd rfl hps) | cases hd
        · cases e <;> first | exact hden _ _ | (exact absurd rfl hps) | cases hd
      · refine ⟨log, [], ?_, hpre, Or.inl ⟨rfl, info, evs, .error e, rfl, hrun.symm, ?_, ?_⟩⟩
        · cases e <;> first | (exact absurd rfl hd) | simp [Err.isAccessDenied]
        · cases e <;> first | (exact absurd rfl hd) | rfl
        · intro e' he; cases he; simpa using hd

/-- What a refused request went through. -/
theorem refused_cause {sys : Option Info} {policy : Except Err (List Rule)} {agent : Agent}
    {mode : Mode} {source target sa rs : Str} {evs : List Event} {info : Info} {rules : List Rule}
    {req : Request} {res : Resolution} {x : Except Err Str}
    (h0 : sys = some info) (h1 : policy = .ok rules)
    (h2 : requestOf sa source target info rs = .ok req) (h3 : evaluate rules req = .ok res)
    (h : handleRequest sys policy agent mode source target sa rs = (evs, x)) :
    (∃ s, (execResolution mode agent res).2 = .ok s ∧ x = .ok s) ∨
    (∃ e, (execResolution mode agent res).2 = .error e ∧
      ((e.isAccessDenied = true ∧ (x = .ok denyAnswer ∨ x = .error .keyError)) ∨
       (e.isAccessDenied = false ∧ x = .error e))) := by
  subst h0 h1
  unfold handleRequest at h
  simp only [handleRequest_eval h2 h3] at h
  cases hx : execResolution mode agent res with
  | mk evs' y =>
    rw [hx] at h
    cases y with
    | ok s => exact Or.inl ⟨s, rfl, (Prod.mk.inj h).2.symm⟩
    | error e =>
      refine Or.inr ⟨e, rfl, ?_⟩
      by_cases hps : e = .policySyntax
      · subst hps
        exact Or.inl ⟨rfl, Or.inl (Prod.mk.inj h).2.symm⟩
      by_cases hd : e.isAccessDenied = true
      · refine Or.inl ⟨hd, ?_⟩
        have h' : onDenied info mode e.notify (splitServiceArg sa).1 (splitServiceArg sa).2 source
            target evs' = (evs, x) := by
          revert h; cases e <;> first | exact id | exact absurd rfl hps | cases hd
        unfold onDenied at h'
        split at h'
        · split at h'
          · exact Or.inr (Prod.mk.inj h').2.symm
          · split at h' <;> exact Or.inl (Prod.mk.inj h').2.symm
        · exact Or.inl (Prod.mk.inj h').2.symm
      · refine Or.inr ⟨by simpa using hd, ?_⟩
        have h' : (evs', Except.error e) = (evs, x) := by
          revert h; cases e <;> first | exact absurd rfl hd | exact id
        exact (Prod.mk.inj h').2.symm

theorem execute_ne_deny {r : AllowRes} : r.execute ≠ .ok denyAnswer := by
  intro h
  obtain ⟨fs, hf, he⟩ := execute_ok h
  have h0 : ∃ c, denyAnswer = 'r' :: c := ⟨_, rfl⟩
  have h1 : ∃ c, answerText fs = 'u' :: c := by
    cases hf <;> exact ⟨_, rfl⟩
  obtain ⟨c, h0⟩ := h0
  obtain ⟨d, h1⟩ := h1
  rw [h0, h1] at he
  exact absurd (List.cons.inj he).1 (by decide)

/-- **C114.** A call that is let through leaves exactly one record; it says allowed, and it names
the service, the argument, the calling qube (the RemoteVM for which a relay speaks), the requested
target, and the target for which the answer is. -/
theorem C114_allow_recorded (sys : Option Info) (policy : Except Err (List Rule)) (agent : Agent)
    (mode : Mode) (source target sa rs : Str) (evs : List Event) (s : Str)
    (hj : mode.justEvaluate = false)
    (h : handleRequest sys policy agent mode source target sa rs = (evs, .ok s))
    (hs : s ≠ denyAnswer) :
    ∃ info req user autostart t fs, sys = some info ∧
      requestOf sa source target info rs = .ok req ∧ AnswerFor req user autostart t fs ∧
      s = answerText fs ∧
      (handleRequestL sys policy agent mode source target sa rs).1 =
        [.allowed (splitServiceArg sa).1 (splitServiceArg sa).2 (if rs = [] then source else rs)
          req.target.str t] := by
  rcases handleRequest_ok h with h' | ⟨info, rules, req, res, h0, h1, h2, h3, h4⟩
  · exact absurd h' hs
  obtain ⟨pre, post, hl, hp, hq⟩ := log_cases sys policy agent mode source target sa rs
  have hx : (execResolution mode agent res).2 = .ok s := by rw [h4]
  have hpost : post = [] := by
    rcases hq with ⟨h, _⟩ | ⟨e, he, _, hn | hn⟩
    · exact h
    · rw [h] at hn; exact absurd (Except.ok.inj hn) hs
    · rw [h] at hn; cases hn
  subst hpost
  rcases hp with ⟨_, hp⟩ | ⟨_, e, info', rules', req', res', he, hr, g0, g1, g2, g3, g4, g5⟩
  · obtain ⟨e, he⟩ := hp hj info rules req res h0 h1 h2 h3
    rw [hx] at he; cases he
  · rw [h0] at g0; cases g0
    rw [h1] at g1; cases g1
    have h2' : requestOf sa source target info rs = .ok req := h2
    rw [h2'] at g2; cases g2
    rw [h3] at g3; cases g3
    by_cases ha : SaysAllowed e
    · obtain ⟨r, hr, hreq, hex⟩ := g4 ha
      rw [hx] at hex
      obtain ⟨fs, hf, hst⟩ := execute_ok hex.symm
      rw [hreq] at hf
      refine ⟨info, req, _, _, _, fs, h0, h2, hf, hst, ?_⟩
      obtain ⟨q1, q2, _, _, _, _, q3⟩ := mkRequest_ok h2
      have hsrc : req.source = if rs = [] then source else rs := by
        rcases q3 with ⟨a, b, _⟩ | ⟨a, b, _⟩
        · rw [if_pos a, b]
        · rw [if_neg a, b]
      rw [hl, he, hr, hreq, q1, q2, hsrc]; rfl
    · obtain ⟨n, hn⟩ := g5 ha
      rw [hx] at hn; cases hn

theorem RefusedNames.refused {c s t : Str} {e : LogEntry} (h : RefusedNames c s t e) :
    SaysRefused e := by
  cases e <;> first | trivial | exact h

theorem tryRequest_ok {policy : Except Err (List Rule)} {mode : Mode} {agent : Agent}
    {source target sa : Str} {info : Info} {rs : Str} {evs : List Event} {s : Str}
    (h : tryRequest policy mode agent (splitServiceArg sa).1 (splitServiceArg sa).2 source target
      info rs = (evs, .ok s)) :
    ∃ rules req res, policy = .ok rules ∧ requestOf sa source target info rs = .ok req ∧
      evaluate rules req = .ok res ∧ execResolution mode agent res = (evs, .ok s) := by
  unfold tryRequest at h
  split at h
  · simp at h
  · rename_i rules
    split at h
    · simp at h
    · rename_i req hreq
      split at h
      · simp at h
      · rename_i res hres
        exact ⟨rules, req, res, rfl, hreq, hres, h⟩

/-- **C114.** A call that is answered with a refusal leaves exactly one record that says so, the
last one, and it names the service, the calling qube and the target as they reached the daemon. -/
theorem C114_deny_recorded (sys : Option Info) (policy : Except Err (List Rule)) (agent : Agent)
    (mode : Mode) (source target sa rs : Str) (evs : List Event)
    (hj : mode.justEvaluate = false)
    (h : handleRequest sys policy agent mode source target sa rs = (evs, .ok denyAnswer)) :
    ∃ pre e, (handleRequestL sys policy agent mode source target sa rs).1 = pre ++ [e] ∧
      RefusedNames sa source target e ∧ (∀ e' ∈ pre, ¬ SaysRefused e') ∧ pre.length ≤ 1 := by
  obtain ⟨pre, post, hl, hp, hq⟩ := log_cases sys policy agent mode source target sa rs
  rcases hq with ⟨_, info, evs', x, h0, ht, hx, _⟩ | ⟨e, he, hn, _⟩
  · exfalso
    rw [h] at hx
    obtain ⟨rfl, rfl⟩ := Prod.mk.inj hx
    obtain ⟨rules, req, res, h1, h2, h3, h4⟩ := tryRequest_ok ht
    rcases hp with ⟨_, hp⟩ | ⟨_, e, info', rules', req', res', he, hr, g0, g1, g2, g3, g4, g5⟩
    · obtain ⟨e, he⟩ := hp hj info rules req res h0 h1 h2 h3
      rw [h4] at he; cases he
    · rw [h0] at g0; cases g0
      rw [h1] at g1; cases g1
      rw [h2] at g2; cases g2
      rw [h3] at g3; cases g3
      by_cases ha : SaysAllowed e
      · obtain ⟨r, _, _, hex⟩ := g4 ha
        rw [h4] at hex
        exact execute_ne_deny hex.symm
      · obtain ⟨n, hn⟩ := g5 ha
        rw [h4] at hn; cases hn
  · refine ⟨pre, e, by rw [hl, he], hn, ?_, ?_⟩
    · rcases hp with ⟨rfl, _⟩ | ⟨_, e', _, _, _, _, rfl, hr, _⟩
      · simp
      · intro x hx; rw [List.mem_singleton.1 hx]; exact hr
    · rcases hp with ⟨rfl, _⟩ | ⟨_, e', _, _, _, _, rfl, hr, _⟩ <;> simp

/-- **C114.** A record of a refusal means that the caller gets a refusal, or no answer at all (when
the calling qube is unknown to qubesd). -/
theorem C114_deny_true (sys : Option Info) (policy : Except Err (List Rule)) (agent : Agent)
    (mode : Mode) (source target sa rs : Str) (e : LogEntry)
    (h : e ∈ (handleRequestL sys policy agent mode source target sa rs).1) (he : SaysRefused e) :
    RefusedNames sa source target e ∧
    ((handleRequest sys policy agent mode source target sa rs).2 = .ok denyAnswer ∨
     (handleRequest sys policy agent mode source target sa rs).2 = .error .keyError) := by
  obtain ⟨pre, post, hl, hp, hq⟩ := log_cases sys policy agent mode source target sa rs
  rw [hl] at h
  have hin : e ∈ post := by
    rcases List.mem_append.1 h with h | h
    · exfalso
      rcases hp with ⟨rfl, _⟩ | ⟨_, e', _, _, _, _, rfl, hr, _⟩
      · cases h
      · rw [List.mem_singleton.1 h] at he; exact hr he
    · exact h
  rcases hq with ⟨rfl, _⟩ | ⟨e', rfl, hn, hx⟩
  · cases hin
  · rw [List.mem_singleton.1 hin]; exact ⟨hn, hx⟩

/-- **C114 (partial).** A record that says allowed: the caller is let through; or the target turned
out to be the calling qube itself, or a RemoteVM without relay or transport service, and the caller
is refused; or the caller gets no answer, because qubesd does not know the target or its UUID.  The
full claim, that a call recorded as allowed is let through, is false: see
`C114_allowed_then_denied`. -/
theorem C114_allowed_true_partial (sys : Option Info) (policy : Except Err (List Rule)) (agent : Agent)
    (mode : Mode) (source target sa rs service argument src requested t : Str)
    (h : .allowed service argument src requested t ∈
      (handleRequestL sys policy agent mode source target sa rs).1) :
    ∃ info req, sys = some info ∧ requestOf sa source target info rs = .ok req ∧
      service = req.service ∧ argument = req.argument ∧ src = req.source ∧
      requested = req.target.str ∧
      ((∃ user autostart fs, AnswerFor req user autostart t fs ∧
          (handleRequest sys policy agent mode source target sa rs).2 = .ok (answerText fs)) ∨
       ((src = t ∨ ∃ d, info.get? t = some d ∧ d.cls = c!"RemoteVM" ∧
          (truthy d.relayvm = none ∨ truthy d.transportRpc = none)) ∧
        (handleRequest sys policy agent mode source target sa rs).2 = .ok denyAnswer) ∨
       (handleRequest sys policy agent mode source target sa rs).2 = .error .keyError) := by
  obtain ⟨pre, post, hl, hp, hq⟩ := log_cases sys policy agent mode source target sa rs
  rw [hl] at h
  have hin : LogEntry.allowed service argument src requested t ∈ pre := by
    rcases List.mem_append.1 h with h | h
    · exact h
    · exfalso
      rcases hq with ⟨rfl, _⟩ | ⟨e', rfl, hn, hx⟩
      · cases h
      · rw [← List.mem_singleton.1 h] at hn; exact hn
  rcases hp with ⟨rfl, _⟩ | ⟨_, e, info, rules, req, res, rfl, hr, h0, h1, h2, h3, g4, g5⟩
  · cases hin
  have hin := List.mem_singleton.1 hin
  subst hin
  obtain ⟨r, he, hreq, hex⟩ := g4 trivial
  injection he with e1 e2 e3 e4 e5
  subst e1 e2 e3 e4 e5
  refine ⟨info, req, h0, h2, by rw [hreq], by rw [hreq], by rw [hreq], by rw [hreq], ?_⟩
  have hinfo : req.info = info := (mkRequest_ok h2).2.2.1
  rcases hhr : handleRequest sys policy agent mode source target sa rs with ⟨evs, x⟩
  rcases refused_cause h0 h1 h2 h3 hhr with ⟨s, hs, hx⟩ | ⟨e, hs, hx⟩
  · rw [hs] at hex
    obtain ⟨fs, hf, hst⟩ := execute_ok hex.symm
    rw [hreq] at hf
    exact Or.inl ⟨_, _, fs, hf, by rw [hx, hst]⟩
  · rw [hs] at hex
    have hc := execute_fails hex.symm
    rw [hreq, hinfo] at hc
    rcases hx with ⟨hd, hx | hx⟩ | ⟨hd, hx⟩
    · refine Or.inr (Or.inl ⟨?_, hx⟩)
      rcases hc with hc | ⟨_, hc⟩
      · rw [hc] at hd; cases hd
      · rw [hreq]; exact hc
    · exact Or.inr (Or.inr hx)
    · rcases hc with hc | hc
      · rw [hc] at hx; exact Or.inr (Or.inr hx)
      · rw [hc.1] at hd; cases hd

/-- **C114.** A call that is only evaluated is never recorded as allowed, and leaves at most one
record. -/
theorem C114_just_evaluate (sys : Option Info) (policy : Except Err (List Rule)) (agent : Agent)
    (mode : Mode) (source target sa rs : Str) (hj : mode.justEvaluate = true) :
    (∀ e ∈ (handleRequestL sys policy agent mode source target sa rs).1, SaysRefused e) ∧
    (handleRequestL sys policy agent mode source target sa rs).1.length ≤ 1 := by
  obtain ⟨pre, post, hl, hp, hq⟩ := log_cases sys policy agent mode source target sa rs
  rcases hp with ⟨rfl, _⟩ | ⟨hf, _⟩
  · rw [hl]
    rcases hq with ⟨rfl, _⟩ | ⟨e', rfl, hn, hx⟩
    · simp
    · simp only [List.nil_append, List.mem_singleton, List.length_singleton]
      exact ⟨(fun e he => by rw [he]; exact RefusedNames.refused hn), (Nat.le_refl _)⟩
  · rw [hj] at hf; cases hf

/-! ## The text of the records -/

theorem word_cancel {a b x y : Str} (ha : ' ' ∉ a) (hb : ' ' ∉ b) (h : a ++ ' ' :: x = b ++ ' ' :: y) :
    a = b ∧ x = y := by
  have h1 : splitOnce ' ' (a ++ ' ' :: x) = some (a, x) := splitOnce_eq_some.2 ⟨rfl, ha⟩
  have h2 : splitOnce ' ' (a ++ ' ' :: x) = some (b, y) := splitOnce_eq_some.2 ⟨h, hb⟩
  rw [h1] at h2
  exact Prod.mk.inj (Option.some.inj h2)

theorem logPrefix_inj {c s t r c' s' t' r' : Str} (hc : ' ' ∉ c) (hs : ' ' ∉ s) (ht : ' ' ∉ t)
    (hc' : ' ' ∉ c') (hs' : ' ' ∉ s') (ht' : ' ' ∉ t')
    (h : logPrefix c s t ++ ' ' :: r = logPrefix c' s' t' ++ ' ' :: r') :
    c = c' ∧ s = s' ∧ t = t' ∧ r = r' := by
  have e : ∀ c s t r : Str, logPrefix c s t ++ ' ' :: r =
      c!"qrexec:" ++ ' ' :: ((c ++ c!":") ++ ' ' :: (s ++ ' ' :: (c!"->" ++ ' ' ::
        ((t ++ c!":") ++ ' ' :: r)))) := by
    intro c s t r
    simp [logPrefix]
  rw [e, e] at h
  have w : ∀ x : Str, ' ' ∉ x → ' ' ∉ x ++ c!":" := by
    intro x hx hm
    rcases List.mem_append.1 hm with h | h
    · exact hx h
    · exact absurd h (by decide)
  obtain ⟨_, h⟩ := word_cancel (by decide) (by decide) h
  obtain ⟨h1, h⟩ := word_cancel (w _ hc) (w _ hc') h
  obtain ⟨h2, h⟩ := word_cancel hs hs' h
  obtain ⟨_, h⟩ := word_cancel (by decide) (by decide) h
  obtain ⟨h3, h⟩ := word_cancel (w _ ht) (w _ ht') h
  exact ⟨List.append_cancel_right h1, h2, List.append_cancel_right h3, h⟩

/-- What a record says about a call: whether it was let through, the service with the argument, the
calling qube, the requested target. -/
def LogEntry.verdict : LogEntry → Option (Bool × Str × Str × Str)
  | .allowed s a src r _ => some (true, s ++ a, src, r)
  | .noInfo s src t => some (false, s, src, t)
  | .badPolicy s src t => some (false, s, src, t)
  | .denied s src t _ => some (false, s, src, t)
  | _ => none

/-- The rest of the text after the prefix. -/
theorem verdict_text {e : LogEntry} {b : Bool} {c s t : Str} (why : Str)
    (h : e.verdict = some (b, c, s, t)) :
    ∃ r, e.text why = logPrefix c s t ++ ' ' :: r ∧
      ((b = true ∧ ∃ u, r = c!"allowed to " ++ u) ∨
       (b = false ∧ ((∃ u, r = c!"denied: " ++ u) ∨ ∃ u, r = c!"error " ++ u))) := by
  cases e with
  | noGui a b => cases h
  | badReply a b => cases h
  | allowed s a src r u =>
    cases h
    exact ⟨c!"allowed to " ++ u, by simp [LogEntry.text], Or.inl ⟨rfl, u, rfl⟩⟩
  | noInfo s src u =>
    cases h
    exact ⟨c!"error " ++ (c!"getting system info: " ++ why), by simp [LogEntry.text],
      Or.inr ⟨rfl, Or.inr ⟨_, rfl⟩⟩⟩
  | badPolicy s src u =>
    cases h
    exact ⟨c!"error " ++ (c!"loading policy: " ++ why), by simp [LogEntry.text],
      Or.inr ⟨rfl, Or.inr ⟨_, rfl⟩⟩⟩
  | denied s src u o =>
    cases h
    cases o with
    | none => exact ⟨c!"denied: " ++ why, by simp [LogEntry.text], Or.inr ⟨rfl, Or.inl ⟨_, rfl⟩⟩⟩
    | some o =>
      exact ⟨c!"denied: " ++ (c!"target " ++ o ++ c!" is not a valid choice"),
        by simp [LogEntry.text], Or.inr ⟨rfl, Or.inl ⟨_, rfl⟩⟩⟩

/-- **C114.** Two records with the same text say the same about the same call, provided service,
qube and target are single words. -/
theorem C114_text_unambiguous (e e' : LogEntry) (b b' : Bool) (c s t c' s' t' why why' : Str)
    (h : e.verdict = some (b, c, s, t)) (h' : e'.verdict = some (b', c', s', t'))
    (hw : ' ' ∉ c ∧ ' ' ∉ s ∧ ' ' ∉ t) (hw' : ' ' ∉ c' ∧ ' ' ∉ s' ∧ ' ' ∉ t')
    (he : e.text why = e'.text why') : b = b' ∧ c = c' ∧ s = s' ∧ t = t' := by
  obtain ⟨r, h1, h2⟩ := verdict_text why h
  obtain ⟨r', h1', h2'⟩ := verdict_text why' h'
  rw [h1, h1'] at he
  obtain ⟨q1, q2, q3, q4⟩ := logPrefix_inj hw.1 hw.2.1 hw.2.2 hw'.1 hw'.2.1 hw'.2.2 he
  refine ⟨?_, q1, q2, q3⟩
  subst q4
  rcases h2 with ⟨rfl, u, rfl⟩ | ⟨rfl, ⟨u, rfl⟩ | ⟨u, rfl⟩⟩ <;>
    rcases h2' with ⟨rfl, v, hv⟩ | ⟨rfl, ⟨v, hv⟩ | ⟨v, hv⟩⟩ <;>
    first | rfl | exact absurd (List.cons.inj hv).1 (by decide)

/-- **C114.** The record of an allowed call also names the target that was chosen. -/
theorem C114_text_target (s a src r u s' a' src' r' u' why why' : Str)
    (hw : ' ' ∉ s ++ a ∧ ' ' ∉ src ∧ ' ' ∉ r) (hw' : ' ' ∉ s' ++ a' ∧ ' ' ∉ src' ∧ ' ' ∉ r')
    (he : (LogEntry.allowed s a src r u).text why = (LogEntry.allowed s' a' src' r' u').text why') :
    s ++ a = s' ++ a' ∧ src = src' ∧ r = r' ∧ u = u' := by
  have e : ∀ s a src r u why : Str, (LogEntry.allowed s a src r u).text why =
      logPrefix (s ++ a) src r ++ ' ' :: (c!"allowed to " ++ u) := by
    intro s a src r u why; simp [LogEntry.text]
  rw [e, e] at he
  obtain ⟨q1, q2, q3, q4⟩ := logPrefix_inj hw.1 hw.2.1 hw.2.2 hw'.1 hw'.2.1 hw'.2.2 he
  exact ⟨q1, q2, q3, List.append_cancel_left q4⟩

/-- **C114.** Exactly this is written for a call that is let through. -/
theorem C114_allowed_text (s a src r u why : Str) : (LogEntry.allowed s a src r u).text why =
    c!"qrexec: " ++ s ++ a ++ c!": " ++ src ++ c!" -> " ++ r ++ c!": allowed to " ++ u := by
  simp [LogEntry.text, logPrefix]

/-! ## What is violated -/

/-- **C114, violated.** A call is recorded as allowed, and then as denied: the answer is a
refusal. -/
theorem C114_allowed_then_denied :
    (handleRequestL (some exInfo2) (.ok [exAllowAll]) exAgent {} c!"relay" c!"relay" c!"svc" []).1 =
      [.allowed c!"svc" c!"+" c!"relay" c!"relay" c!"relay",
        .denied c!"svc" c!"relay" c!"relay" none] ∧
    (handleRequest (some exInfo2) (.ok [exAllowAll]) exAgent {} c!"relay" c!"relay" c!"svc" []).2 =
      .ok denyAnswer := by decide

example : (handleRequestL (some exInfo2) (.ok [exAllowAll]) exAgent {} c!"work" c!"lost" c!"svc" []).1 =
      [.allowed c!"svc" c!"+" c!"work" c!"lost" c!"lost",
        .denied c!"svc" c!"work" c!"lost" none] := by decide

/-- **C114, violated.** The record of an allowed call names the RemoteVM a relay claims to speak
for, not the relay, which is the qube that called. -/
theorem C114_relay_not_named :
    (handleRequestL (some exInfo2) (.ok [exAllowAll]) exAgent {} c!"relay" c!"work" c!"svc"
      c!"far").1 = [.allowed c!"svc" c!"+" c!"far" c!"work" c!"work"] := by decide

/-- **C114, violated.** A call to which the GUI agent could not be asked is refused without any
record of the decision. -/
theorem C114_no_record :
    handleRequestL (some exInfo) (.ok [exAsk]) (fun _ _ => .error .osError) {} c!"work" c!"vault"
      c!"svc" [] = ([], (handleRequest (some exInfo) (.ok [exAsk]) (fun _ _ => .error .osError) {}
        c!"work" c!"vault" c!"svc" [])) ∧
    (handleRequest (some exInfo) (.ok [exAsk]) (fun _ _ => .error .osError) {}
        c!"work" c!"vault" c!"svc" []).2 = .error .osError := by decide

/-- **C114, violated.** The GUI qube that is asked can add any line it likes to the log: its reply
is written as it is. -/
theorem C114_forged_line (info : Info) (rules : List Rule) (agent : Agent) (source target sa rs : Str)
    (req : Request) (a : AskRes) (g line why : Str)
    (hreq : requestOf sa source target info rs = .ok req)
    (hev : evaluate rules req = .ok (.ask a)) (hg : GuiOf info a.request.source g)
    (hag : agent g (questionOf a) = .ok ('\n' :: line)) (hline : '\n' ∉ line) :
    IsLineOf line (logFile why
      (handleRequestL (some info) (.ok rules) agent {} source target sa rs).1) := by
  have hinfo : a.request.info = info := by
    rw [(evaluate_request hev).2 a rfl]; exact (mkRequest_ok hreq).2.2.1
  obtain ⟨d, hd, hd1, hd2⟩ := hg
  have ht : truthy d.guivm = some g := truthy_eq_some.2 ⟨hd1, hd2⟩
  have hreq' : mkRequest (splitServiceArg sa).1 (splitServiceArg sa).2 source target info rs =
    .ok req := hreq
  have hq : agent g ⟨a.request.source, a.request.service, a.request.argument, a.targetsForAsk,
      a.defaultTarget.getD []⟩ = .ok ('\n' :: line) := hag
  have hlog : (handleRequestL (some info) (.ok rules) agent {} source target sa rs).1 =
      [.badReply a.request.service ('\n' :: line), .denied sa source target none] := by
    unfold handleRequestL
    simp only [tryRequestL, hreq', hev, execResolutionL, execAskL, Bool.false_eq_true, if_false,
      hinfo, hd, ht, hq]
    have h1 : (('\n' :: line) == c!"deny") = false := by
      cases hb : (('\n' :: line) == c!"deny") with
      | false => rfl
      | true =>
        have := eq_of_beq hb
        exact absurd (List.cons.inj this).1 (by decide)
    have h2 : startsWith c!"allow:" ('\n' :: line) = false := rfl
    simp only [h1, h2, Bool.false_eq_true, if_false]
    rfl
  rw [hlog]
  refine ⟨hline, c!"invalid ask response for " ++ a.request.service ++ c!": " ++ c!"\n",
    (LogEntry.denied sa source target none).text why ++ c!"\n", ?_, Or.inr ⟨_, rfl⟩⟩
  simp [logFile, LogEntry.text]

/-- So a call that was never made can be reported as allowed. -/
example : IsLineOf ((LogEntry.allowed c!"admin.vm.Remove" c!"+" c!"vault" c!"work" c!"work").text [])
    (logFile c!"invalid response" (handleRequestL (some exInfo) (.ok [exAsk]) (fun _ _ => .ok
      ('\n' :: (LogEntry.allowed c!"admin.vm.Remove" c!"+" c!"vault" c!"work" c!"work").text []))
      {} c!"work" c!"vault" c!"svc" []).1) := by
  refine C114_forged_line exInfo [exAsk] _ c!"work" c!"vault" c!"svc" [] (exReq c!"work" (.name c!"vault"))
    _ c!"dom0" _ _ (by decide) rfl ⟨_, rfl, rfl, by decide⟩ rfl (by decide)

/-! ## Concrete cases -/

example : handleRequestL (some exInfo) (.ok [exAsk]) (fun _ _ => .ok c!"allow:vault") {} c!"work"
    c!"vault" c!"svc" [] =
    ([.allowed c!"svc" c!"+" c!"work" c!"vault" c!"vault"],
      handleRequest (some exInfo) (.ok [exAsk]) (fun _ _ => .ok c!"allow:vault") {} c!"work"
        c!"vault" c!"svc" []) ∧
    (handleRequest (some exInfo) (.ok [exAsk]) (fun _ _ => .ok c!"allow:vault") {} c!"work"
        c!"vault" c!"svc" []).2 ≠ .ok denyAnswer := by decide

example : (handleRequestL (some exInfo) (.ok [exAsk]) (fun _ _ => .ok c!"allow:nosuch") {} c!"work"
    c!"vault" c!"svc" []).1 = [.denied c!"svc" c!"work" c!"vault" (some c!"nosuch")] := by decide

example : (handleRequestL (some exInfo) (.error .policySyntax) exAgent {} c!"work"
    c!"vault" c!"svc" []).1 = [.badPolicy c!"svc" c!"work" c!"vault"] := by decide

example : (handleRequestL none (.ok [exAsk]) exAgent {} c!"work"
    c!"vault" c!"svc" []).1 = [.noInfo c!"svc" c!"work" c!"vault"] := by decide

end Qrexec
