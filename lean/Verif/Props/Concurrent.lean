import Verif.Model.Concurrent
import Verif.Props.Cache
import Verif.Props.AuditLog

/-!
# C120: requests to the policy daemon at the same time
-/
namespace Qrexec
open Spec

/-! ## The coroutine is `handleRequest` -/

/-- The request runs to its end, the GUI domain answering as `agent`. -/
def Task.run (agent : Agent) : Task → Run Str
  | .ask g p k => (.ask g p :: ((k (agent g p)).run agent).1, ((k (agent g p)).run agent).2)
  | .notify ev k => (ev :: (k.run agent).1, (k.run agent).2)
  | .done r => ([], r)

/-- A run followed by more. -/
def thenRun (x : Run Str) (f : Except Err Str → Run Str) : Run Str :=
  (x.1 ++ (f x.2).1, (f x.2).2)

theorem allowTask_run (agent : Agent) (mode : Mode) (r : AllowRes) (k : Except Err Str → Task) :
    (allowTask mode r k).run agent = thenRun (execAllow mode r) fun x => (k x).run agent := by
  unfold allowTask execAllow thenRun
  by_cases hj : mode.justEvaluate = true
  · simp only [if_pos hj, List.nil_append]
  · simp only [if_neg hj]
    cases lookupGui r.request.info r.request.source with
    | none => simp only [List.nil_append]
    | some g =>
      simp only
      by_cases hn : r.rule.action.notify = true
      · simp only [if_pos hn, Task.run, List.cons_append, List.nil_append]
      · simp only [if_neg hn, List.nil_append]

theorem askTask_run (agent : Agent) (mode : Mode) (a : AskRes) (k : Except Err Str → Task) :
    (askTask mode a k).run agent = thenRun (execAsk mode agent a) fun x => (k x).run agent := by
  unfold askTask execAsk
  by_cases hy : mode.assumeYes = true
  · simp only [if_pos hy]
    cases a.handleUserResponse true a.request.target.str with
    | error e => simp only [thenRun, List.nil_append]
    | ok r => simp only [allowTask_run]
  · simp only [if_neg hy]
    by_cases hj : mode.justEvaluate = true
    · simp only [if_pos hj, thenRun, List.nil_append]
    · simp only [if_neg hj]
      cases a.request.info.get? a.request.source with
      | none => simp only [thenRun, List.nil_append]
      | some d =>
        simp only
        cases truthy d.guivm with
        | none => simp only [thenRun, List.nil_append]
        | some g =>
          simp only [Task.run]
          generalize agent g _ = x
          cases x with
          | error e => simp only [answeredTask, thenRun, List.cons_append, List.nil_append]
          | ok resp =>
            simp only [answeredTask]
            by_cases h1 : (resp == c!"deny") = true
            · simp only [if_pos h1, thenRun, List.cons_append, List.nil_append]
            · simp only [if_neg h1]
              by_cases h2 : startsWith c!"allow:" resp = true
              · simp only [if_pos h2]
                cases a.handleUserResponse true (resp.drop 6) with
                | error e => simp only [thenRun, List.cons_append, List.nil_append]
                | ok r => simp only [allowTask_run, thenRun, List.cons_append]
              · simp only [if_neg h2, thenRun, List.cons_append, List.nil_append]

theorem endTask_run (agent : Agent) (info : Info) (mode : Mode) (s a src t : Str)
    (evs : List Event) (res : Except Err Str) :
    thenRun (evs, res) (fun x => (endTask info mode s a src t x).run agent) =
      match res with
      | .ok s => (evs, .ok s)
      | .error .policySyntax => (evs, .ok c!"result=deny")
      | .error e =>
        if e.isAccessDenied then onDenied info mode e.notify s a src t evs
        else (evs, .error e) := by
  have key : ∀ e : Err, e ≠ .policySyntax →
      thenRun (evs, .error e) (fun x => (endTask info mode s a src t x).run agent) =
      if e.isAccessDenied then onDenied info mode e.notify s a src t evs
        else (evs, .error e) := by
    intro e he
    have hend : endTask info mode s a src t (.error e) =
      if e.isAccessDenied then
        if e.notify && !mode.justEvaluate then
          match info.get? src with
          | none => .done (.error .keyError)
          | some d => match truthy d.guivm with
            | some g => .notify (.notify g false s a src t) (.done (.ok c!"result=deny"))
            | none => .done (.ok c!"result=deny")
        else .done (.ok c!"result=deny")
      else .done (.error e) := by
      cases e <;> first | rfl | exact absurd rfl he
    unfold thenRun
    simp only [hend]
    by_cases h1 : e.isAccessDenied = true
    · simp only [if_pos h1]
      unfold onDenied
      by_cases h2 : (e.notify && !mode.justEvaluate) = true
      · simp only [if_pos h2]
        cases info.get? src with
        | none => simp only [Task.run, List.append_nil]
        | some d =>
          simp only
          cases truthy d.guivm with
          | none => simp only [Task.run, List.append_nil]
          | some g => simp only [Task.run]
      · simp only [if_neg h2, Task.run, List.append_nil]
    · simp only [if_neg h1, Task.run, List.append_nil]
  cases res with
  | ok s => simp only [thenRun, endTask, Task.run, List.append_nil]
  | error e =>
    cases e <;> first | exact key _ (by intro h; cases h) | skip
    simp only [thenRun, endTask, Task.run, List.append_nil]

/-- The coroutine, run to its end, does what `handleRequest` does. -/
theorem task_run (agent : Agent) (q : PdRequest) (policy : Except Err (List Rule)) :
    (q.task policy).run agent = handleRequest q.sys policy agent q.mode q.source q.target
      q.serviceAndArg q.requestedSource := by
  unfold PdRequest.task handleRequest
  cases q.sys with
  | none => rfl
  | some info =>
    simp only
    have hfin : ∀ evs res,
        thenRun (evs, res) (fun x => (endTask info q.mode (splitServiceArg q.serviceAndArg).1
          (splitServiceArg q.serviceAndArg).2 q.source q.target x).run agent) = _ :=
      fun evs res => endTask_run agent info q.mode _ _ q.source q.target evs res
    have hnil : ∀ e, (endTask info q.mode (splitServiceArg q.serviceAndArg).1
          (splitServiceArg q.serviceAndArg).2 q.source q.target (.error e)).run agent =
        thenRun ([], .error e) (fun x => (endTask info q.mode
          (splitServiceArg q.serviceAndArg).1
          (splitServiceArg q.serviceAndArg).2 q.source q.target x).run agent) := by
      intro e; simp only [thenRun, List.nil_append]
    unfold tryRequest
    cases policy with
    | error e => exact (hnil e).trans (hfin [] (.error e))
    | ok rules =>
      simp only
      cases mkRequest (splitServiceArg q.serviceAndArg).1 (splitServiceArg q.serviceAndArg).2
          q.source q.target info q.requestedSource with
      | error e => exact (hnil e).trans (hfin [] (.error e))
      | ok req =>
        simp only
        cases evaluate rules req with
        | error e => exact (hnil e).trans (hfin [] (.error e))
        | ok res =>
          cases res with
          | allow r =>
            simp only [allowTask_run, execResolution]
            exact hfin (execAllow q.mode r).1 (execAllow q.mode r).2
          | ask a =>
            simp only [askTask_run, execResolution]
            exact hfin (execAsk q.mode agent a).1 (execAsk q.mode agent a).2

/-! ## A request asks at most one question -/

/-- It asks no (more) questions. -/
inductive NoAsk : Task → Prop where
  | done {r : Except Err Str} : NoAsk (.done r)
  | notify {ev : Event} {k : Task} (he : ∀ g p, ev ≠ .ask g p) (h : NoAsk k) : NoAsk (.notify ev k)

/-- It asks at most one question, and then no more. -/
inductive AsksOnce : Task → Prop where
  | no {t : Task} (h : NoAsk t) : AsksOnce t
  | ask {g : Str} {p : AskParams} {k : Except Err Str → Task} (h : ∀ r, NoAsk (k r)) :
      AsksOnce (.ask g p k)

theorem noAsk_end (info : Info) (mode : Mode) (s a src t : Str) (res : Except Err Str) :
    NoAsk (endTask info mode s a src t res) := by
  unfold endTask
  split
  · exact .done
  · exact .done
  · split
    · split
      · split
        · exact .done
        · split
          · exact .notify (fun _ _ h => by cases h) .done
          · exact .done
      · exact .done
    · exact .done

theorem noAsk_allow (mode : Mode) (r : AllowRes) {k : Except Err Str → Task}
    (hk : ∀ x, NoAsk (k x)) : NoAsk (allowTask mode r k) := by
  unfold allowTask
  split
  · exact hk _
  · split
    · split
      · exact .notify (fun _ _ h => by cases h) (hk _)
      · exact hk _
    · exact hk _

theorem noAsk_answered (mode : Mode) (a : AskRes) {k : Except Err Str → Task}
    (hk : ∀ x, NoAsk (k x)) (r : Except Err Str) : NoAsk (answeredTask mode a k r) := by
  unfold answeredTask
  split
  · exact hk _
  · split
    · exact hk _
    · split
      · split
        · exact noAsk_allow mode _ hk
        · exact hk _
      · exact hk _

theorem asksOnce_ask (mode : Mode) (a : AskRes) {k : Except Err Str → Task}
    (hk : ∀ x, NoAsk (k x)) : AsksOnce (askTask mode a k) := by
  unfold askTask
  split
  · split
    · exact .no (noAsk_allow mode _ hk)
    · exact .no (hk _)
  · split
    · exact .no (hk _)
    · split
      · exact .no (hk _)
      · split
        · exact .no (hk _)
        · exact .ask (noAsk_answered mode a hk)

theorem asksOnce_task (q : PdRequest) (policy : Except Err (List Rule)) :
    AsksOnce (q.task policy) := by
  unfold PdRequest.task
  split
  · exact .no .done
  · simp only
    split
    · exact .no (noAsk_end ..)
    · split
      · exact .no (noAsk_end ..)
      · split
        · exact .no (noAsk_end ..)
        · exact .no (noAsk_allow _ _ (noAsk_end _ _ _ _ _ _))
        · exact asksOnce_ask _ _ (noAsk_end _ _ _ _ _ _)

/-! ## The specification: what a request sees -/

/-- What happens to a request after it started. -/
inductive Heard where
  | answer (r : Except Err Str)
  | taken

variable {D : Type}

/-- What the request `id` hears of what happens. -/
def heardBy (id : Nat) : PdEv D → Option Heard
  | .reply i r => if i = id then some (.answer r) else none
  | .notified i => if i = id then some .taken else none
  | _ => none

/-- A request `t0` that is alone in the world: after hearing the first list it has sent the
second and is at `t`. -/
inductive Alone (t0 : Task) : List Heard → List Event → Task → Prop where
  | start : Alone t0 [] t0.sends t0
  | answer {hs : List Heard} {evs : List Event} {g : Str} {p : AskParams}
      {k : Except Err Str → Task} {r : Except Err Str} (h : Alone t0 hs evs (.ask g p k)) :
      Alone t0 (hs ++ [.answer r]) (evs ++ (k r).sends) (k r)
  | taken {hs : List Heard} {evs : List Event} {ev : Event} {k : Task}
      (h : Alone t0 hs evs (.notify ev k)) : Alone t0 (hs ++ [.taken]) (evs ++ k.sends) k

/-- What has been sent for the request `id`. -/
def PdState.sentFor (s : PdState D) (id : Nat) : List Event :=
  (s.sent.filter fun x => x.1 == id).map Prod.snd

/-- The daemon has just been started. -/
def PdState.Fresh (s : PdState D) (d0 : D) : Prop :=
  s.world = { disk := d0 } ∧ (∀ id, s.tasks id = none) ∧ s.sent = []

theorem sentFor_goTo (s : PdState D) (id : Nat) (t : Task) (i : Nat) :
    (s.goTo id t).sentFor i = s.sentFor i ++ if i = id then t.sends else [] := by
  unfold PdState.goTo PdState.sentFor
  simp only [List.filter_append, List.map_append]
  congr 1
  by_cases h : i = id
  · subst h
    simp [List.filter_map, Function.comp_def]
  · rw [if_neg h]
    have : (t.sends.map fun e => (id, e)).filter (fun x => x.1 == i) = [] := by
      rw [List.filter_eq_nil_iff]
      intro x hx
      obtain ⟨e, _, rfl⟩ := List.mem_map.1 hx
      simpa using fun he => h he.symm
    rw [this]; rfl

/-- What a request does alone is determined by what it hears. -/
theorem alone_unique {t0 : Task} {hs : List Heard} {e1 e2 : List Event} {t1 t2 : Task}
    (h1 : Alone t0 hs e1 t1) (h2 : Alone t0 hs e2 t2) : e1 = e2 ∧ t1 = t2 := by
  induction h1 generalizing e2 t2 with
  | start =>
    generalize hh : ([] : List Heard) = hs at h2
    cases h2 with
    | start => exact ⟨rfl, rfl⟩
    | answer h => simp at hh
    | taken h => simp at hh
  | @answer hs1 evs1 g p k r h ih =>
    generalize hh : hs1 ++ [Heard.answer r] = hs' at h2
    cases h2 with
    | start => simp at hh
    | answer h' =>
      obtain ⟨rfl, hx⟩ := List.append_inj' hh rfl
      simp only [List.cons.injEq, Heard.answer.injEq, and_true] at hx
      obtain ⟨rfl, ht⟩ := ih h'
      cases ht; subst hx
      exact ⟨rfl, rfl⟩
    | taken h' =>
      obtain ⟨_, hx⟩ := List.append_inj' hh rfl
      simp at hx
  | @taken hs1 evs1 ev k h ih =>
    generalize hh : hs1 ++ [Heard.taken] = hs' at h2
    cases h2 with
    | start => simp at hh
    | answer h' =>
      obtain ⟨_, hx⟩ := List.append_inj' hh rfl
      simp at hx
    | taken h' =>
      obtain ⟨rfl, hx⟩ := List.append_inj' hh rfl
      obtain ⟨rfl, ht⟩ := ih h'
      cases ht
      exact ⟨rfl, rfl⟩

/-! ## Isolation -/

theorem heard_snoc (id : Nat) (es : List (PdEv D)) (e : PdEv D) :
    (es ++ [e]).filterMap (heardBy id) = es.filterMap (heardBy id) ++ (heardBy id e).toList := by
  rw [List.filterMap_append]
  cases h : heardBy id e <;> simp [h]

/-- Every request is either not there, or has done what it does alone. -/
theorem pd_inv {Reads : List D → Except Err (List Rule) → Prop} {d0 : D} {s0 s : PdState D}
    {es : List (PdEv D)} (h0 : s0.Fresh d0) (h : PdRun Reads s0 es s) (id : Nat) :
    (s.tasks id = none ∧ es.filterMap (heardBy id) = [] ∧ s.sentFor id = [] ∧
      ∀ q d l r, PdEv.start id q d l r ∉ es) ∨
    ∃ q r t, s.tasks id = some t ∧
      Alone (q.task (policyOf r)) (es.filterMap (heardBy id)) (s.sentFor id) t ∧
      ∀ q' d' l' r', PdEv.start id q' d' l' r' ∈ es → q' = q ∧ r' = r := by
  induction h with
  | nil =>
    left
    refine ⟨h0.2.1 id, rfl, ?_, fun _ _ _ _ h => by cases h⟩
    unfold PdState.sentFor; rw [h0.2.2]; rfl
  | @snoc s1 s2 es e h hs ih =>
    cases hs with
    | @cache e w hc hne =>
      rcases ih with ⟨a, b, c, d⟩ | ⟨q, r, t, a, b, c⟩
      · refine .inl ⟨a, by rw [heard_snoc, b]; rfl, c, ?_⟩
        intro q d' l r hm
        rcases List.mem_append.1 hm with hm | hm
        · exact d _ _ _ _ hm
        · simp at hm
      · have b' : Alone (q.task (policyOf r)) ((es ++ [PdEv.cache e]).filterMap (heardBy id))
            (s1.sentFor id) t := by
          rw [heard_snoc]; simpa [heardBy] using b
        refine .inr ⟨q, r, t, a, b', ?_⟩
        intro q' d' l' r' hm
        rcases List.mem_append.1 hm with hm | hm
        · exact c _ _ _ _ hm
        · simp at hm
    | @start id' q' during loaded res w hid hc =>
      rw [heard_snoc, sentFor_goTo]
      simp only [heardBy, Option.toList, List.append_nil]
      by_cases hi : id = id'
      · subst hi
        rcases ih with ⟨a, b, c, d⟩ | ⟨q, r, t, a, b, c⟩
        · refine .inr ⟨q', res, q'.task (policyOf res), by simp [PdState.goTo], ?_, ?_⟩
          · have hc' : PdState.sentFor { s1 with world := w } id = [] := c
            rw [b, hc', if_pos rfl]; exact .start
          · intro q2 d2 l2 r2 hm
            rcases List.mem_append.1 hm with hm | hm
            · exact absurd hm (d _ _ _ _)
            · simp only [List.mem_singleton, PdEv.start.injEq] at hm
              exact ⟨hm.2.1, hm.2.2.2.2⟩
        · rw [hid] at a; cases a
      · have ht : (PdState.goTo { s1 with world := w } id' (q'.task (policyOf res))).tasks id =
          s1.tasks id := by simp [PdState.goTo, hi]
        rw [ht, if_neg hi, List.append_nil]
        rcases ih with ⟨a, b, c, d⟩ | ⟨q, r, t, a, b, c⟩
        · refine .inl ⟨a, b, c, ?_⟩
          intro q2 d2 l2 r2 hm
          rcases List.mem_append.1 hm with hm | hm
          · exact d _ _ _ _ hm
          · simp only [List.mem_singleton, PdEv.start.injEq] at hm
            exact hi hm.1
        · refine .inr ⟨q, r, t, a, b, ?_⟩
          intro q2 d2 l2 r2 hm
          rcases List.mem_append.1 hm with hm | hm
          · exact c _ _ _ _ hm
          · simp only [List.mem_singleton, PdEv.start.injEq] at hm
            exact absurd hm.1 hi
    | @reply id' g p k r hk =>
      rw [heard_snoc, sentFor_goTo]
      have hst : ∀ q d l r', PdEv.start id q d l r' ∈ es ++ [.reply id' r] →
          PdEv.start id q d l r' ∈ es := by
        intro q d l r' hm
        rcases List.mem_append.1 hm with hm | hm
        · exact hm
        · simp at hm
      by_cases hi : id = id'
      · subst hi
        rcases ih with ⟨a, b, c, d⟩ | ⟨q, r', t, a, b, c⟩
        · rw [hk] at a; cases a
        · rw [hk] at a; cases a
          refine .inr ⟨q, r', k r, by simp [PdState.goTo], ?_, fun _ _ _ _ hm =>
            c _ _ _ _ (hst _ _ _ _ hm)⟩
          simpa [heardBy] using Alone.answer b
      · have ht : (PdState.goTo s1 id' (k r)).tasks id = s1.tasks id := by
          simp [PdState.goTo, hi]
        have hh : heardBy id (PdEv.reply id' r : PdEv D) = none := by
          exact if_neg (fun h : id' = id => hi h.symm)
        rw [ht, if_neg hi, List.append_nil, hh]
        simp only [Option.toList, List.append_nil]
        rcases ih with ⟨a, b, c, d⟩ | ⟨q, r, t, a, b, c⟩
        · exact .inl ⟨a, b, c, fun _ _ _ _ hm => d _ _ _ _ (hst _ _ _ _ hm)⟩
        · exact .inr ⟨q, r, t, a, b, fun _ _ _ _ hm => c _ _ _ _ (hst _ _ _ _ hm)⟩
    | @notified id' ev k hk =>
      rw [heard_snoc, sentFor_goTo]
      have hst : ∀ q d l r', PdEv.start id q d l r' ∈ es ++ [.notified id'] →
          PdEv.start id q d l r' ∈ es := by
        intro q d l r' hm
        rcases List.mem_append.1 hm with hm | hm
        · exact hm
        · simp at hm
      by_cases hi : id = id'
      · subst hi
        rcases ih with ⟨a, b, c, d⟩ | ⟨q, r', t, a, b, c⟩
        · rw [hk] at a; cases a
        · rw [hk] at a; cases a
          refine .inr ⟨q, r', k, by simp [PdState.goTo], ?_, fun _ _ _ _ hm =>
            c _ _ _ _ (hst _ _ _ _ hm)⟩
          simpa [heardBy] using Alone.taken b
      · have ht : (PdState.goTo s1 id' k).tasks id = s1.tasks id := by
          simp [PdState.goTo, hi]
        have hh : heardBy id (PdEv.notified id' : PdEv D) = none := by
          exact if_neg (fun h : id' = id => hi h.symm)
        rw [ht, if_neg hi, List.append_nil, hh]
        simp only [Option.toList, List.append_nil]
        rcases ih with ⟨a, b, c, d⟩ | ⟨q, r, t, a, b, c⟩
        · exact .inl ⟨a, b, c, fun _ _ _ _ hm => d _ _ _ _ (hst _ _ _ _ hm)⟩
        · exact .inr ⟨q, r, t, a, b, fun _ _ _ _ hm => c _ _ _ _ (hst _ _ _ _ hm)⟩

/-- **C120, isolation.** Whatever else goes on, a request is where it would be if it were alone
and heard what it heard, and the same has been sent for it: other requests, the order of
replies, and what happens to the policy after it started make no difference. -/
theorem C120_isolated {Reads : List D → Except Err (List Rule) → Prop} {d0 : D}
    {s0 s : PdState D} {es : List (PdEv D)} (h0 : s0.Fresh d0) (h : PdRun Reads s0 es s)
    {id : Nat} {q : PdRequest} {during : List D} {loaded : Option (Except Err (List Rule))}
    {res : Except Err (Option (List Rule))} (hst : PdEv.start id q during loaded res ∈ es) :
    ∃ t, s.tasks id = some t ∧
      Alone (q.task (policyOf res)) (es.filterMap (heardBy id)) (s.sentFor id) t := by
  rcases pd_inv h0 h id with ⟨_, _, _, d⟩ | ⟨q', r', t, a, b, c⟩
  · exact absurd hst (d _ _ _ _)
  · obtain ⟨rfl, rfl⟩ := c _ _ _ _ hst
    exact ⟨t, a, b⟩

/-- So in two runs of the daemon in which the same request starts with the same policy and hears
the same, it does the same. -/
theorem C120_same {Reads Reads' : List D → Except Err (List Rule) → Prop} {d0 d0' : D}
    {s0 s s0' s' : PdState D} {es es' : List (PdEv D)}
    (h0 : s0.Fresh d0) (h : PdRun Reads s0 es s)
    (h0' : s0'.Fresh d0') (h' : PdRun Reads' s0' es' s') {id id' : Nat} {q : PdRequest}
    {during during' : List D} {loaded loaded' : Option (Except Err (List Rule))}
    {res : Except Err (Option (List Rule))} (hst : PdEv.start id q during loaded res ∈ es)
    (hst' : PdEv.start id' q during' loaded' res ∈ es')
    (hh : es.filterMap (heardBy id) = es'.filterMap (heardBy id')) :
    s.tasks id = s'.tasks id' ∧ s.sentFor id = s'.sentFor id' := by
  obtain ⟨t, ht, ha⟩ := C120_isolated h0 h hst
  obtain ⟨t', ht', ha'⟩ := C120_isolated h0' h' hst'
  rw [hh] at ha
  obtain ⟨h1, rfl⟩ := alone_unique ha ha'
  exact ⟨ht.trans ht'.symm, h1⟩

/-! ## The answer -/

theorem alone_finish {t0 t : Task} {hs : List Heard} {evs : List Event} (h : Alone t0 hs evs t)
    {a : Except Err Str} (ha : ∀ x, Heard.answer x ∈ hs → x = a) :
    ∃ evs', evs = evs' ++ t.sends ∧
      t0.run (fun _ _ => a) = (evs' ++ (t.run fun _ _ => a).1, (t.run fun _ _ => a).2) := by
  induction h with
  | start => exact ⟨[], rfl, rfl⟩
  | @answer hs evs g p k r h ih =>
    obtain ⟨e', h1, h2⟩ := ih (fun x hx => ha x (by simp [hx]))
    have hr : r = a := ha r (by simp)
    subst hr
    exact ⟨evs, rfl, by rw [h2, h1]; simp [Task.run, Task.sends]⟩
  | @taken hs evs ev k h ih =>
    obtain ⟨e', h1, h2⟩ := ih (fun x hx => ha x (by simp [hx]))
    exact ⟨evs, rfl, by rw [h2, h1]; simp [Task.run, Task.sends]⟩

theorem noAsk_sends {t : Task} (h : NoAsk t) : ∀ g p, Event.ask g p ∉ t.sends := by
  intro g p hm
  cases h with
  | done => simp [Task.sends] at hm
  | notify he h =>
    simp only [Task.sends, List.mem_singleton] at hm
    exact he g p hm.symm

theorem alone_asks {t0 t : Task} {hs : List Heard} {evs : List Event} (h0 : AsksOnce t0)
    (h : Alone t0 hs evs t) :
    (AsksOnce t ∧ (∀ x, Heard.answer x ∉ hs) ∧ (NoAsk t → ∀ g p, Event.ask g p ∉ evs)) ∨
    (NoAsk t ∧ ∃ a, Heard.answer a ∈ hs ∧ ∀ x, Heard.answer x ∈ hs → x = a) := by
  induction h with
  | start => exact .inl ⟨h0, by simp, noAsk_sends⟩
  | @answer hs evs g p k r h ih =>
    rcases ih with ⟨h1, h2, _⟩ | ⟨h1, _⟩
    · right
      cases h1 with
      | no hn => cases hn
      | ask hk =>
        refine ⟨hk r, r, by simp, ?_⟩
        intro x hx
        rcases List.mem_append.1 hx with hx | hx
        · exact absurd hx (h2 x)
        · simpa using hx
    · cases h1
  | @taken hs evs ev k h ih =>
    rcases ih with ⟨h1, h2, h3⟩ | ⟨h1, a, h2, h3⟩
    · cases h1 with
      | no hn =>
        left
        have hs' := h3 hn
        cases hn with
        | notify he hk =>
          refine ⟨.no hk, ?_, ?_⟩
          · intro x hx
            rcases List.mem_append.1 hx with hx | hx
            · exact h2 x hx
            · simp at hx
          · intro _ g p hm
            rcases List.mem_append.1 hm with hm | hm
            · exact hs' g p hm
            · exact noAsk_sends hk g p hm
    · right
      cases h1 with
      | notify he hk =>
        refine ⟨hk, a, by simp [h2], ?_⟩
        intro x hx
        rcases List.mem_append.1 hx with hx | hx
        · exact h3 x hx
        · simp at hx

/-- **C120, the answer.** When a request ends, its answer and everything that was sent for it
are those of `handleRequest` with the system information and the policy of the moment it
started, and a GUI domain that answers what it answered to this request. -/
theorem C120_answer {Reads : List D → Except Err (List Rule) → Prop} {d0 : D}
    {s0 s : PdState D} {es : List (PdEv D)} (h0 : s0.Fresh d0) (h : PdRun Reads s0 es s)
    {id : Nat} {q : PdRequest} {during : List D} {loaded : Option (Except Err (List Rule))}
    {res : Except Err (Option (List Rule))} (hst : PdEv.start id q during loaded res ∈ es)
    {r : Except Err Str} (hd : s.tasks id = some (.done r)) :
    ∃ a, handleRequest q.sys (policyOf res) (fun _ _ => a) q.mode q.source q.target
        q.serviceAndArg q.requestedSource = (s.sentFor id, r) ∧
      ((∃ g p, Event.ask g p ∈ s.sentFor id) → PdEv.reply id a ∈ es) := by
  obtain ⟨t, ht, ha⟩ := C120_isolated h0 h hst
  rw [hd] at ht
  cases ht
  have hone := alone_asks (asksOnce_task q (policyOf res)) ha
  have hfin : ∀ a, (∀ x, Heard.answer x ∈ es.filterMap (heardBy id) → x = a) →
      handleRequest q.sys (policyOf res) (fun _ _ => a) q.mode q.source q.target
        q.serviceAndArg q.requestedSource = (s.sentFor id, r) := by
    intro a hall
    obtain ⟨e', h1, h2⟩ := alone_finish ha hall
    rw [← task_run, h2, h1]
    simp [Task.run, Task.sends]
  rcases hone with ⟨_, h2, h3⟩ | ⟨_, a, h2, h3⟩
  · refine ⟨.error .other, hfin _ (fun x hx => absurd hx (h2 x)), ?_⟩
    rintro ⟨g, p, hm⟩
    exact absurd hm (h3 .done g p)
  · refine ⟨a, hfin a h3, fun _ => ?_⟩
    obtain ⟨e, he, hx⟩ := List.mem_filterMap.1 h2
    cases e with
    | reply i x =>
      simp only [heardBy] at hx
      split at hx
      · rename_i hi; subst hi; cases hx; exact he
      · cases hx
    | notified i =>
      simp only [heardBy] at hx
      split at hx <;> cases hx
    | cache e => cases hx
    | start => cases hx

/-- **C120, clients.** What a client of the daemon is sent is what `handleClient` sends it
with the system information and the policy of the moment its request was complete. -/
theorem C120_client {Reads : List D → Except Err (List Rule) → Prop} {d0 : D}
    {s0 s : PdState D} {es : List (PdEv D)} (h0 : s0.Fresh d0) (h : PdRun Reads s0 es s)
    {id : Nat} {sys : Option Info} {input : Wire} {args : List (Str × Str)}
    (hargs : daemonArgs (splitOn '\n' input) [] = some args) {q : PdRequest}
    (hq : clientRequest sys args = some q)
    {during : List D} {loaded : Option (Except Err (List Rule))}
    {res : Except Err (Option (List Rule))} (hst : PdEv.start id q during loaded res ∈ es)
    {r : Except Err Str} (hd : s.tasks id = some (.done r)) :
    ∃ a, handleClient sys (policyOf res) (fun _ _ => a) input = (s.sentFor id, clientBytes r) ∧
      ((∃ g p, Event.ask g p ∈ s.sentFor id) → PdEv.reply id a ∈ es) := by
  obtain ⟨a, ha, hr⟩ := C120_answer h0 h hst hd
  refine ⟨a, ?_, hr⟩
  unfold clientRequest at hq
  split at hq
  · rename_i hreq
    cases hq
    unfold handleClient
    simp only [hargs]
    unfold daemonAnswer
    simp only [hreq, Bool.not_true, Bool.false_eq_true, if_false, ha]
    unfold clientBytes
    cases r with
    | error e => rfl
    | ok t =>
      simp only
      by_cases h1 : t.isEmpty = true
      · simp only [if_pos h1]
      · simp only [if_neg h1]
        by_cases h2 : isAscii t = true
        · simp only [if_pos h2]
        · simp only [if_neg h2]
  · cases hq

/-- A client whose arguments lack a required one, or are malformed, gets nothing and makes
no request. -/
theorem C120_client_none (sys : Option Info) (policy : Except Err (List Rule)) (agent : Agent)
    (input : Wire)
    (h : ∀ args, daemonArgs (splitOn '\n' input) [] = some args → clientRequest sys args = none) :
    handleClient sys policy agent input = ([], none) := by
  unfold handleClient
  split
  · rfl
  · rename_i args hargs
    have := h args hargs
    unfold clientRequest at this
    split at this
    · cases this
    · rename_i hn
      unfold daemonAnswer
      rw [if_pos]
      simpa using hn

/-- The request `exPd` is that of this client. -/
example : ∃ args, daemonArgs (splitOn '\n'
      c!"source=work\nintended_target=vault\nservice_and_arg=svc\n\n") [] = some args ∧
    ∃ q, clientRequest (some exInfo) args = some q ∧ q.source = c!"work" ∧ q.target = c!"vault" ∧
      q.serviceAndArg = c!"svc" := ⟨_, rfl, _, rfl, rfl, rfl, rfl⟩

/-! ## Nobody waits for somebody else's window -/

theorem run_silent {t : Task} {agent : Agent} (h : (t.run agent).1 = []) :
    t = .done (t.run agent).2 := by
  cases t with
  | ask => simp [Task.run] at h
  | notify => simp [Task.run] at h
  | done r => rfl

/-- **C120, no waiting.** Whatever other requests wait for, a new request can start, does not
touch the others, and has its answer at once if it needs no GUI domain. -/
theorem C120_no_wait {Reads : List D → Except Err (List Rule) → Prop} (s : PdState D)
    {c : Cache (List Rule)} (hc : s.world.cache = some c) {load : Except Err (List Rule)}
    (hl : c.outdated = true → Reads [s.world.disk] load) (id : Nat) (hid : s.tasks id = none)
    (q : PdRequest) :
    ∃ s' loaded res, PdStep Reads s (.start id q [] loaded res) s' ∧
      (∀ i, i ≠ id → s'.tasks i = s.tasks i ∧ s'.sentFor i = s.sentFor i) ∧
      ∀ agent r, handleRequest q.sys (policyOf res) agent q.mode q.source q.target
          q.serviceAndArg q.requestedSource = ([], r) → s'.tasks id = some (.done r) := by
  refine ⟨_, _, _, .start hid (.get (during := []) (load := load) hc hl), ?_, ?_⟩
  · intro i hi
    refine ⟨by simp [PdState.goTo, hi], ?_⟩
    rw [sentFor_goTo, if_neg hi, List.append_nil]
    rfl
  · intro agent r hr
    rw [← task_run] at hr
    have := run_silent (t := q.task (policyOf (c.getPolicy load).2)) (agent := agent)
      (by rw [hr])
    rw [hr] at this
    simp only [PdState.goTo, if_pos, this]

/-- A request that only evaluates never waits: it has its answer when it is taken up, nobody is
asked and nothing is sent for it. -/
theorem task_evaluation {q : PdRequest} (hj : q.mode.justEvaluate = true)
    (policy : Except Err (List Rule)) : ∃ r, q.task policy = .done r := by
  have hend : ∀ info s a src t res, ∃ r, endTask info q.mode s a src t res = .done r := by
    intro info s a src t res
    unfold endTask
    split
    · exact ⟨_, rfl⟩
    · exact ⟨_, rfl⟩
    · simp only [hj, Bool.not_true, Bool.and_false, Bool.false_eq_true, if_false]
      split <;> exact ⟨_, rfl⟩
  unfold PdRequest.task
  split
  · exact ⟨_, rfl⟩
  · simp only
    split
    · exact hend ..
    · split
      · exact hend ..
      · split
        · exact hend ..
        · unfold allowTask
          rw [if_pos hj]
          exact hend ..
        · unfold askTask
          split
          · split
            · unfold allowTask
              rw [if_pos hj]
              exact hend ..
            · exact hend ..
          · exact hend ..

/-- **C120, evaluation.** In every run of the daemon a request that only evaluates is done from
the moment it was taken up, and nothing was sent for it. -/
theorem C120_evaluation {Reads : List D → Except Err (List Rule) → Prop} {d0 : D}
    {s0 s : PdState D} {es : List (PdEv D)} (h0 : s0.Fresh d0) (h : PdRun Reads s0 es s)
    {id : Nat} {q : PdRequest} {during : List D} {loaded : Option (Except Err (List Rule))}
    {res : Except Err (Option (List Rule))} (hst : PdEv.start id q during loaded res ∈ es)
    (hj : q.mode.justEvaluate = true) :
    s.sentFor id = [] ∧ ∃ r, s.tasks id = some (.done r) := by
  obtain ⟨t, ht, ha⟩ := C120_isolated h0 h hst
  obtain ⟨r, hr⟩ := task_evaluation hj (policyOf res)
  rw [hr] at ha
  have key : ∀ hs evs t, Alone (.done r) hs evs t → evs = [] ∧ t = .done r := by
    intro hs evs t ha
    induction ha with
    | start => exact ⟨rfl, rfl⟩
    | answer _ ih => cases ih.2
    | taken _ ih => cases ih.2
  obtain ⟨h1, h2⟩ := key _ _ _ ha
  exact ⟨h1, r, by rw [ht, h2]⟩

/-! ## The policy of a request -/

/-- What an event is for the cache. -/
def cacheEvOf : PdEv D → Option (CacheEv D (List Rule))
  | .cache e => some e
  | .start _ _ d l r => some (.get d l r)
  | _ => none

theorem pd_cache {Reads : List D → Except Err (List Rule) → Prop} {s0 s : PdState D}
    {es : List (PdEv D)} (h : PdRun Reads s0 es s) :
    CacheRun Reads s0.world (es.filterMap cacheEvOf) s.world := by
  induction h with
  | nil => exact .nil
  | @snoc s1 s2 es e h hs ih =>
    rw [List.filterMap_append]
    cases hs with
    | cache hc hne => exact ih.snoc hc
    | start hid hc => exact ih.snoc hc
    | reply hk =>
      rw [show [PdEv.reply _ _].filterMap (cacheEvOf (D := D)) = [] from rfl, List.append_nil]
      exact ih
    | notified hk =>
      rw [show [PdEv.notified _].filterMap (cacheEvOf (D := D)) = [] from rfl, List.append_nil]
      exact ih

theorem pdRun_prefix {Reads : List D → Except Err (List Rule) → Prop} {s0 s : PdState D}
    {es a b : List (PdEv D)} (h : PdRun Reads s0 es s) (he : es = a ++ b) :
    ∃ m, PdRun Reads s0 a m := by
  induction h generalizing b with
  | nil =>
    have : a = [] := (List.append_eq_nil_iff.1 he.symm).1
    subst this
    exact ⟨_, .nil⟩
  | @snoc s1 s2 es e h hs ih =>
    rcases List.eq_nil_or_concat b with rfl | ⟨b', x, rfl⟩
    · rw [List.append_nil] at he
      subst he
      exact ⟨_, h.snoc hs⟩
    · rw [List.concat_eq_append, ← List.append_assoc] at he
      exact ih (List.append_inj' he rfl).1

/-- **C120, the policy.** A request taken up after the notification of the `n`-th edit was read
is decided by a policy loaded after that edit, or fails with the error of such a load; whatever
is waiting meanwhile. -/
theorem C120_fresh {Reads : List D → Except Err (List Rule) → Prop} {d0 : D}
    {s0 s : PdState D} {before after : List (PdEv D)} (h0 : s0.Fresh d0) {id : Nat}
    {q : PdRequest} {during : List D} {loaded : Option (Except Err (List Rule))}
    {res : Except Err (Option (List Rule))}
    (h : PdRun Reads s0 (before ++ .start id q during loaded res :: after) s) {n : Nat}
    (hd : PdEv.cache (.deliver n) ∈ before) :
    (∃ e, loaded = some (.error e) ∧ policyOf res = .error e) ∨
    ∃ p, policyOf res = .ok p ∧
      LoadedAfter n p ((before ++ [PdEv.start id q during loaded res]).filterMap cacheEvOf) := by
  obtain ⟨m, hm⟩ := pdRun_prefix (a := before ++ [PdEv.start id q during loaded res]) (b := after) h
    (by simp)
  have hc := pd_cache hm
  rw [h0.1, List.filterMap_append] at hc
  have hc' := C37_fresh Reads d0 (before.filterMap cacheEvOf) m.world during loaded res hc n
    (List.mem_filterMap.2 ⟨_, hd, rfl⟩)
  rcases hc' with ⟨e, h1, rfl⟩ | ⟨p, rfl, h2⟩
  · exact .inl ⟨e, h1, rfl⟩
  · exact .inr ⟨p, rfl, by rw [List.filterMap_append]; exact h2⟩

/-- **C120, grants.** A call that is allowed, whatever goes on meanwhile, is granted by a rule of
the policy its request was taken up with, and by the user's reply to its own question if that is
an `ask` rule; this policy is newer than every change noticed before. -/
theorem C120_granted {Reads : List D → Except Err (List Rule) → Prop} {d0 : D}
    {s0 s : PdState D} {before after : List (PdEv D)} (h0 : s0.Fresh d0) {id : Nat}
    {q : PdRequest} {during : List D} {loaded : Option (Except Err (List Rule))}
    {res : Except Err (Option (List Rule))}
    (h : PdRun Reads s0 (before ++ .start id q during loaded res :: after) s)
    (hn : ∀ info, q.sys = some info → OrdinaryNames info)
    (hrules : ∀ rules, policyOf res = .ok rules → ∀ r ∈ rules, IsRule r)
    {ans : Str} (hd : s.tasks id = some (.done (.ok ans))) (hne : ans ≠ denyAnswer) :
    ∃ a info p req r user autostart out, q.sys = some info ∧ policyOf res = .ok p ∧
      requestOf q.serviceAndArg q.source q.target info q.requestedSource = .ok req ∧
      Granted p req q.mode (fun _ _ => a) r user autostart out ∧
      ((∃ g k, Event.ask g k ∈ s.sentFor id) →
        PdEv.reply id a ∈ before ++ .start id q during loaded res :: after) ∧
      ∀ n, PdEv.cache (.deliver n) ∈ before →
        LoadedAfter n p ((before ++ [PdEv.start id q during loaded res]).filterMap cacheEvOf) := by
  obtain ⟨a, ha, hr⟩ := C120_answer h0 h (List.mem_append.2 (.inr (List.mem_cons_self ..))) hd
  obtain ⟨info, p, req, r, user, autostart, out, h1, h2, h3, h4, _⟩ :=
    C04_no_allow_without_grant q.sys (policyOf res) (fun _ _ => a) q.mode q.source q.target
      q.serviceAndArg q.requestedSource hn hrules _ _ ha hne
  refine ⟨a, info, p, req, r, user, autostart, out, h1, h2, h3, h4, hr, ?_⟩
  intro n hdn
  rcases C120_fresh h0 h hdn with ⟨e, _, he⟩ | ⟨p', hp', hl⟩
  · rw [h2] at he; cases he
  · rw [h2] at hp'; cases hp'; exact hl

/-! ## A question that outlives the policy -/

/-- The directories hold a policy, and loading gives it. -/
def readsPolicy : List (List Rule) → Except Err (List Rule) → Prop := fun l r =>
  ∃ p ∈ l, r = .ok p

/-- The daemon with the policy `p`. -/
def pdWith (p : List Rule) : PdState (List Rule) := { world := { disk := p } }

theorem pdWith_fresh (p : List Rule) : (pdWith p).Fresh p := ⟨rfl, fun _ => rfl, rfl⟩

/-- The request `work` → `vault`, `svc`. -/
def exPd : PdRequest := ⟨some exInfo, {}, c!"work", c!"vault", c!"svc", []⟩

/-- The history: the question is asked, all rules are removed and the daemon reads the
notification, and only then the user allows the call. -/
def staleHistory : List (PdEv (List Rule)) :=
  [.cache (.create true [] none), .cache .watch,
   .start 0 exPd [] (some (.ok [exAsk])) (.ok (some [exAsk])),
   .cache (.edit []), .cache (.deliver 1), .reply 0 (.ok c!"allow:vault")]

theorem exPd_waits : ∃ g p k, exPd.task (.ok [exAsk]) = .ask g p k ∧
    k (.ok c!"allow:vault") = .done (handleRequest (some exInfo) (.ok [exAsk])
      (fun _ _ => .ok c!"allow:vault") {} c!"work" c!"vault" c!"svc" []).2 := ⟨_, _, _, rfl, rfl⟩

theorem exPd_allowed : ∃ a, (handleRequest (some exInfo) (.ok [exAsk])
    (fun _ _ => .ok c!"allow:vault") {} c!"work" c!"vault" c!"svc" []).2 = .ok a ∧
    a ≠ denyAnswer := ⟨_, rfl, by decide⟩

/-- **C120, violated.** A question that is open when the policy changes is answered by the old
policy: the call is allowed although the daemon knows that the rule is gone, and every request
taken up now would be refused. -/
theorem C120_stale_violated :
    ∃ s, PdRun readsPolicy (pdWith [exAsk]) staleHistory s ∧
      (∃ a, s.tasks 0 = some (.done (.ok a)) ∧ a ≠ denyAnswer) ∧
      ∀ agent, (handleRequest (some exInfo) (.ok []) agent {} c!"work" c!"vault" c!"svc" []).2 =
        .ok denyAnswer := by
  obtain ⟨g, p, k, hk, hr⟩ := exPd_waits
  have h1 : PdRun readsPolicy (pdWith [exAsk]) ([] ++ [.cache (.create true [] none)]) _ :=
    .snoc .nil (.cache (.createLazy (c := ⟨true, none⟩) (load := .ok []) rfl rfl)
      (fun _ _ _ h => by cases h))
  have h2 := h1.snoc (.cache .watch (fun _ _ _ h => by cases h))
  have h3 := h2.snoc (.start (id := 0) (q := exPd) (during := []) rfl
    (.get (c := ⟨true, none⟩) (during := []) (load := .ok [exAsk]) rfl
      (fun _ => ⟨[exAsk], by simp [pdWith], rfl⟩)))
  have h4 := h3.snoc (.cache (.edit (d := [])) (fun _ _ _ h => by cases h))
  have h5 := h4.snoc (.cache (.deliver (n := 1) (by simp [PdState.goTo, CacheWorld.edit, pdWith]))
    (fun _ _ _ h => by cases h))
  have h6 := h5.snoc (.reply (id := 0) (g := g) (p := p) (k := k) (r := .ok c!"allow:vault")
    (congrArg some hk))
  obtain ⟨a, ha, hne⟩ := exPd_allowed
  refine ⟨_, h6, ⟨a, ?_, hne⟩, fun agent => rfl⟩
  simp only [PdState.goTo, if_pos, hr, ha]

/-- Two questions at the same time, answered in the other order: each call gets the answer to
its own question. -/
theorem C120_example :
    ∃ s, PdRun readsPolicy (pdWith [exAsk])
      [.cache (.create true [] none),
       .start 0 exPd [] (some (.ok [exAsk])) (.ok (some [exAsk])),
       .start 1 exPd [] none (.ok (some [exAsk])),
       .reply 1 (.ok c!"allow:vault"), .reply 0 (.ok c!"deny")] s ∧
      s.tasks 0 = some (.done (.ok denyAnswer)) ∧
      ∃ a, s.tasks 1 = some (.done (.ok a)) ∧ a ≠ denyAnswer := by
  obtain ⟨g, p, k, hk, hr⟩ := exPd_waits
  have hdeny : k (.ok c!"deny") = .done (.ok denyAnswer) := by
    have : ∀ t, t = exPd.task (.ok [exAsk]) → ∀ g p k, t = .ask g p k →
        k (.ok c!"deny") = .done (.ok denyAnswer) := by
      intro t ht g p k h
      rw [h] at ht
      cases ht
      rfl
    exact this _ rfl g p k hk
  have h1 : PdRun readsPolicy (pdWith [exAsk]) ([] ++ [.cache (.create true [] none)]) _ :=
    .snoc .nil (.cache (.createLazy (c := ⟨true, none⟩) (load := .ok []) rfl rfl)
      (fun _ _ _ h => by cases h))
  have h3 := h1.snoc (.start (id := 0) (q := exPd) (during := []) rfl
    (.get (c := ⟨true, none⟩) (during := []) (load := .ok [exAsk]) rfl
      (fun _ => ⟨[exAsk], by simp [pdWith], rfl⟩)))
  have h4 := h3.snoc (.start (id := 1) (q := exPd) (during := []) rfl
    (.get (c := ⟨false, some [exAsk]⟩) (during := []) (load := .ok [exAsk]) rfl
      (fun h => by simp at h)))
  have h5 := h4.snoc (.reply (id := 1) (g := g) (p := p) (k := k) (r := .ok c!"allow:vault")
    (congrArg some hk))
  have h6 := h5.snoc (.reply (id := 0) (g := g) (p := p) (k := k) (r := .ok c!"deny")
    (congrArg some hk))
  obtain ⟨a, ha, hne⟩ := exPd_allowed
  refine ⟨_, h6, ?_, ⟨a, ?_, hne⟩⟩
  · simp only [PdState.goTo, if_pos, hdeny]
  · show some (k (.ok c!"allow:vault")) = _
    rw [hr, ha]

end Qrexec
