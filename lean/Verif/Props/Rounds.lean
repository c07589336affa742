import Verif.Model.Rounds
import Verif.Lemmas.CDaemon
import Verif.Props.Ports

/-!
# C102: a round of the main loop handles what was reported, and nothing else
-/
namespace Qrexec
open Spec

/-! ## The daemon -/

/-- The client of an event. -/
def ofClient (fd : Nat) (e : DEv) : Prop :=
  (∃ ok, e = .clientHello fd ok) ∨ (∃ type domain port buf w, e = .clientMsg fd type domain port buf w) ∨ e = .clientGone fd

theorem cmdline_clients (c : DConf) (s : DState) (fd type domain port : Nat) (buf : Wire) (w : Bool) (g : Nat) (hg : g ≠ fd) :
    (cmdline c s fd type domain port buf w).1.clients g = s.clients g := by
  have hm : ∀ s1, Marked s s1 type buf → s1.clients = s.clients := by
    rintro s1 (⟨_, _, _, rfl⟩ | ⟨_, rfl⟩) <;> rfl
  rcases cmdline_cases c s fd type domain port buf w with ⟨h1, _⟩ | ⟨_, _, s1, hmk, hc⟩
  · rw [h1]; exact put_other _ _ hg
  · have e := hm s1 hmk
    rcases hc with ⟨_, _, h1⟩ | ⟨_, _, h1⟩ | ⟨_, j, _, _, h1⟩ | ⟨_, j, _, _, h1⟩ | ⟨_, _, _, h1⟩ <;> rw [h1] <;> rw [← e] <;>
      exact put_other _ _ hg

/-- What is done for one client leaves the others connected as they were. -/
theorem client_frame {c : DConf} {s s' : DState} {e : DEv} {o : List DOut} {fd g : Nat} (he : ofClient fd e)
    (h : dstep c s e = some (s', o)) (hg : g ≠ fd) : s'.clients g = s.clients g := by
  rcases he with ⟨ok, rfl⟩ | ⟨type, domain, port, buf, w, rfl⟩ | rfl
  · simp only [dstep] at h
    split_ifs at h <;> cases h <;> exact put_other _ _ hg
  · simp only [dstep, Option.some.injEq] at h
    have := cmdline_clients c s fd type domain port buf w g hg
    rw [h] at this; exact this
  · simp only [dstep, Option.some.injEq] at h
    cases h; exact put_other _ _ hg

theorem releasePort_clients (s : DState) (i : Nat) (d : Int) (g : Nat) :
    (releasePort s i d).1.clients g = .invalid ∨ (releasePort s i d).1.clients g = s.clients g := by
  unfold releasePort
  split
  · dsimp only
    split
    · by_cases e : g = (s.notify i).toNat
      · left; show put s.clients _ _ g = _; rw [e, put_same]
      · right; exact put_other _ _ e
    · exact .inr rfl
  · exact .inr rfl

theorem terminateAll_gone (s : DState) (n g : Nat) :
    (terminateAll s n).1.clients g = .invalid ∨ (terminateAll s n).1.clients g = s.clients g := by
  induction n with
  | zero => exact .inr rfl
  | succ n ih =>
    rw [terminateAll]
    split
    rename_i s2 o he
    rw [he] at ih
    dsimp only at ih
    split
    · by_cases e : g = n
      · left; show put s2.clients n _ g = _; rw [e, put_same]
      · have : put s2.clients n ClientState.invalid g = s2.clients g := put_other _ _ e
        show put s2.clients n ClientState.invalid g = _ ∨ put s2.clients n ClientState.invalid g = _
        rw [this]; exact ih
    · exact ih

/-- A client that is connected was connected before, or has just been accepted. -/
theorem clients_new {c : DConf} {s s' : DState} {e : DEv} {o : List DOut} (hp : e.possible s = true)
    (h : dstep c s e = some (s', o)) (g : Nat) (hg : s'.clients g ≠ .invalid) :
    s.clients g ≠ .invalid ∨ e = .newClient g true ∧ g < maxClients := by
  have frame : ∀ fd, ofClient fd e → s.clients fd ≠ .invalid → s.clients g ≠ .invalid ∨ e = .newClient g true ∧ g < maxClients := by
    intro fd he hc
    by_cases e1 : g = fd
    · subst e1; exact .inl hc
    · rw [client_frame he h e1] at hg; exact .inl hg
  cases e with
  | newClient fd hello =>
    simp only [dstep] at h
    split_ifs at h with h1 h2
    · cases h
      by_cases e1 : g = fd
      · subst e1; subst h2; exact .inr ⟨rfl, by omega⟩
      · left
        replace hg : put s.clients fd .hello g ≠ .invalid := hg
        rw [put_other _ _ e1] at hg; exact hg
    · cases h
      replace hg : put s.clients fd .invalid g ≠ .invalid := hg
      by_cases e1 : g = fd
      · subst e1; rw [put_same] at hg; exact absurd rfl hg
      · rw [put_other _ _ e1] at hg; exact .inl hg
  | clientHello fd ok =>
    refine frame fd (.inl ⟨ok, rfl⟩) ?_
    have : s.clients fd = .hello := by simpa [DEv.possible] using hp
    rw [this]; simp
  | clientMsg fd type domain port buf w =>
    refine frame fd (.inr (.inl ⟨type, domain, port, buf, w, rfl⟩)) ?_
    have : s.clients fd = .cmdline := by simpa [DEv.possible] using hp
    rw [this]; simp
  | clientGone fd =>
    refine frame fd (.inr (.inr rfl)) ?_
    simpa [DEv.possible] using hp
  | badTrigger ident => simp only [dstep, Option.some.injEq] at h; cases h; exact .inl hg
  | trigger ident pid =>
    simp only [dstep, Option.some.injEq] at h
    unfold executeService at h
    split at h <;> cases h <;> exact .inl hg
  | childExit pid st =>
    simp only [dstep, Option.some.injEq] at h
    unfold reap at h
    split at h
    · cases h; exact .inl hg
    · split at h <;> cases h <;> exact .inl hg
  | terminated domain port =>
    simp only [dstep] at h
    split at h
    · cases h
    · simp only [Option.some.injEq] at h
      rcases releasePort_clients s (port - baseDataPort) (asInt domain) g with h1 | h1 <;> rw [h] at h1
      · exact absurd h1 hg
      · dsimp only at h1; rw [h1] at hg; exact .inl hg
  | restart =>
    simp only [dstep, Option.some.injEq] at h
    have h1 := terminateAll_gone s maxClients g
    unfold agentRestart at h
    generalize terminateAll s maxClients = r at h h1
    obtain ⟨r1, r2⟩ := r
    cases h
    rcases h1 with h1 | h1
    · exact absurd h1 hg
    · left; rw [← h1]; exact hg

/-- All clients are found below `max_client_fd`, which is within the table. -/
def Covers (top : Nat) (s : DState) : Prop := (∀ fd, s.clients fd ≠ .invalid → fd < top) ∧ top ≤ maxClients

/-- Events that do not connect clients, and can always happen. -/
def DEv.calm : DEv → Bool
  | .childExit pid _ => pid != 0
  | e => e.ofAgent

theorem calm_possible {e : DEv} (h : e.calm = true) (s : DState) : e.possible s = true ∧ ∀ g b, e ≠ .newClient g b := by
  cases e <;> simp_all [DEv.calm, DEv.ofAgent, DEv.possible]

theorem runEvs_run {c : DConf} : ∀ (es : List DEv) {h : List (DEv × List DOut)} {s s' : DState} {tr : List (DEv × List DOut)},
    DRun c h s → (∀ e ∈ es, e.calm = true) → runEvs c es s = some (s', tr) →
    DRun c (h ++ tr) s' ∧ tr.map Prod.fst = es ∧ ∀ g, s'.clients g ≠ .invalid → s.clients g ≠ .invalid := by
  intro es
  induction es with
  | nil =>
    intro h s s' tr hr _ hrun
    cases hrun
    exact ⟨by simpa using hr, rfl, fun _ hg => hg⟩
  | cons e es ih =>
    intro h s s' tr hr hc hrun
    rw [runEvs] at hrun
    obtain ⟨p1, p2⟩ := calm_possible (hc e (by simp)) s
    cases hs : dstep c s e with
    | none => rw [hs] at hrun; cases hrun
    | some r =>
      obtain ⟨s1, o⟩ := r
      rw [hs] at hrun
      dsimp only at hrun
      cases hq : runEvs c es s1 with
      | none => rw [hq] at hrun; cases hrun
      | some q =>
        obtain ⟨s2, tr2⟩ := q
        rw [hq] at hrun
        cases hrun
        obtain ⟨i1, i2, i3⟩ := ih (hr.step p1 hs) (fun x hx => hc x (by simp [hx])) hq
        refine ⟨by simpa using i1, by simp [i2], fun g hg => ?_⟩
        rcases clients_new p1 hs g (i3 g hg) with h1 | h1
        · exact h1
        · exact absurd h1.1 (p2 g true)

theorem clientEvent_spec {st : ClientState} {fd : Nat} {r : ClientReads} {e : DEv} (h : clientEvent st fd r = some e)
    {c : DConf} {s : DState} (hs : s.clients fd = st) :
    ofClient fd e ∧ e.possible s = true ∧ ∃ x, dstep c s e = some x := by
  subst hs
  unfold clientEvent at h
  split at h
  · cases h
  · rename_i h1
    cases h
    refine ⟨.inl ⟨_, rfl⟩, by simp [DEv.possible, h1], ?_⟩
    simp only [dstep]
    split_ifs
    · exact ⟨_, rfl⟩
    · exact ⟨_, rfl⟩
  · rename_i h1
    split at h
    · cases h
      exact ⟨.inr (.inr rfl), by simp [DEv.possible, h1], ⟨_, rfl⟩⟩
    · cases h
      exact ⟨.inr (.inl ⟨_, _, _, _, _, rfl⟩), by simp [DEv.possible, h1], ⟨_, rfl⟩⟩
  · rename_i h1
    cases h
    exact ⟨.inr (.inr rfl), by simp [DEv.possible, h1], ⟨_, rfl⟩⟩

theorem filterMap_same {α β : Type} {f g : α → Option β} : ∀ (l : List α), (∀ a ∈ l, f a = g a) → l.filterMap f = l.filterMap g := by
  intro l
  induction l with
  | nil => intro _; rfl
  | cons a l ih =>
    intro h
    rw [List.filterMap_cons, List.filterMap_cons, h a (by simp), ih fun b hb => h b (by simp [hb])]

theorem flatMap_same {α β : Type} {f g : α → List β} : ∀ (l : List α), (∀ a ∈ l, f a = g a) → l.flatMap f = l.flatMap g := by
  intro l
  induction l with
  | nil => intro _; rfl
  | cons a l ih =>
    intro h
    rw [List.flatMap_cons, List.flatMap_cons, h a (by simp), ih fun b hb => h b (by simp [hb])]

theorem filterMap_nodup {α β : Type} {f : α → Option β} (hf : ∀ a b y, f a = some y → f b = some y → a = b) :
    ∀ (l : List α), l.Nodup → (l.filterMap f).Nodup := by
  intro l
  induction l with
  | nil => intro _; simp
  | cons a l ih =>
    intro h
    rw [List.nodup_cons] at h
    cases ha : f a with
    | none => rw [List.filterMap_cons_none ha]; exact ih h.2
    | some y =>
      rw [List.filterMap_cons_some ha, List.nodup_cons]
      refine ⟨fun hm => ?_, ih h.2⟩
      obtain ⟨b, hb, hy⟩ := List.mem_filterMap.1 hm
      exact h.1 (hf a b y ha hy ▸ hb)

/-- What is to be done for a client, if it is connected (`s`) when the messages of the agent have been handled. -/
def turnOf (inp : DRoundIn) (s : DState) (fd : Nat) : Option DEv :=
  if inp.ready fd then clientEvent (s.clients fd) fd (inp.reads fd) else none

theorem handleReady_run {c : DConf} {inp : DRoundIn} : ∀ (fds : List Nat), fds.Nodup → ∀ {h : List (DEv × List DOut)} {s : DState},
    DRun c h s → ∃ s' tr, handleReady c inp fds s = some (s', tr) ∧ DRun c (h ++ tr) s' ∧
      tr.map Prod.fst = fds.filterMap (turnOf inp s) ∧ ∀ g, s'.clients g ≠ .invalid → s.clients g ≠ .invalid := by
  intro fds
  induction fds with
  | nil => intro _ h s hr; exact ⟨s, [], rfl, by simpa using hr, rfl, fun _ hg => hg⟩
  | cons fd fds ih =>
    intro hn h s hr
    rw [List.nodup_cons] at hn
    rw [handleReady]
    by_cases hrd : inp.ready fd = true
    · rw [if_pos hrd]
      cases hce : clientEvent (s.clients fd) fd (inp.reads fd) with
      | none =>
        obtain ⟨s', tr, i1, i2, i3, i4⟩ := ih hn.2 hr
        refine ⟨s', tr, i1, i2, ?_, i4⟩
        rw [List.filterMap_cons_none (by unfold turnOf; rw [if_pos hrd, hce]), i3]
      | some e =>
        obtain ⟨p1, p2, ⟨s1, o⟩, p3⟩ := clientEvent_spec hce (c := c) rfl
        obtain ⟨s', tr, i1, i2, i3, i4⟩ := ih hn.2 (hr.step p2 p3)
        dsimp only
        rw [p3]
        dsimp only
        rw [i1]
        refine ⟨s', _, rfl, by simpa using i2, ?_, fun g hg => ?_⟩
        · rw [List.filterMap_cons_some (by unfold turnOf; rw [if_pos hrd, hce])]
          simp only [List.map_cons, i3, List.cons.injEq, true_and]
          refine filterMap_same _ fun g hg => ?_
          unfold turnOf
          rw [client_frame p1 p3 (fun e => hn.1 (e ▸ hg))]
        · rcases clients_new p2 p3 g (i4 g hg) with h1 | ⟨h1, _⟩
          · exact h1
          · subst h1
            rcases p1 with ⟨_, h⟩ | ⟨_, _, _, _, _, h⟩ | h <;> cases h
    · rw [if_neg hrd]
      obtain ⟨s', tr, i1, i2, i3, i4⟩ := ih hn.2 hr
      refine ⟨s', tr, i1, i2, ?_, i4⟩
      rw [List.filterMap_cons_none (by unfold turnOf; rw [if_neg hrd]), i3]

theorem collect_covers {space : Bool} {top : Nat} {s : DState} (h : Covers top s) :
    dCollect space top s = if space then (List.range maxClients).filter (fun fd => s.clients fd != .invalid) else [] := by
  unfold dCollect
  cases space
  · rfl
  · simp only [if_true]
    obtain ⟨n, hn⟩ : ∃ n, maxClients = top + n := ⟨maxClients - top, by have := h.2; omega⟩
    rw [hn, List.range_add, List.filter_append]
    have : ((List.range n).map (top + ·)).filter (fun fd => s.clients fd != .invalid) = [] := by
      rw [List.filter_eq_nil_iff]
      intro g hg
      obtain ⟨k, _, rfl⟩ := List.mem_map.1 hg
      have : ¬ s.clients (top + k) ≠ .invalid := fun hc => by have := h.1 _ hc; omega
      simpa using this
    rw [this, List.append_nil]

/-- The parts of a round. -/
theorem round_parts {c : DConf} {h tr : List (DEv × List DOut)} {top top' : Nat} {s s' : DState} {inp : DRoundIn}
    (hr : DRun c h s) (hc : Covers top s) (hok : inp.Ok s) (hround : daemonRound c top s inp = some (top', s', tr)) :
    DRun c (h ++ tr) s' ∧ Covers top' s' ∧
    ∃ before own s2, tr = before ++ own ∧ DRun c (h ++ before) s2 ∧
      before.map Prod.fst = (inp.dead.map fun d => .childExit d.1 d.2) ++
        ((if inp.space then inp.accept else none).toList.map fun a => DEv.newClient a.1 a.2) ++ inp.agent ∧
      own.map Prod.fst = ((List.range maxClients).filter fun fd => inp.space && (s.clients fd != .invalid)).filterMap (turnOf inp s2) := by
  obtain ⟨ok1, ok2, ok3⟩ := hok
  unfold daemonRound at hround
  cases h0 : runEvs c (inp.dead.map fun d => .childExit d.1 d.2) s with
  | none => rw [h0] at hround; cases hround
  | some r0 =>
    obtain ⟨s0, t0⟩ := r0
    rw [h0] at hround
    dsimp only at hround
    have hcalm0 : ∀ e ∈ inp.dead.map (fun d => DEv.childExit d.1 d.2), e.calm = true := by
      intro e he
      obtain ⟨d, hd, rfl⟩ := List.mem_map.1 he
      simpa [DEv.calm] using ok1 d hd
    obtain ⟨r0, m0, c0⟩ := runEvs_run _ hr hcalm0 h0
    have cl0 : s0.clients = s.clients := by
      have : ∀ (es : List DEv) (s s' : DState) tr, (∀ e ∈ es, ∃ p q, e = DEv.childExit p q) → runEvs c es s = some (s', tr) →
          s'.clients = s.clients := by
        intro es
        induction es with
        | nil => intro s s' tr _ h; cases h; rfl
        | cons e es ih =>
          intro s s' tr he h
          obtain ⟨p, q, rfl⟩ := he _ (List.mem_cons_self ..)
          rw [runEvs] at h
          have hs : dstep c s (.childExit p q) = some (reap s p q) := rfl
          rw [hs] at h
          have hcl : (reap s p q).1.clients = s.clients := by
            unfold reap
            split
            · rfl
            · split <;> rfl
          generalize reap s p q = w at h hcl
          obtain ⟨w1, w2⟩ := w
          dsimp only at h
          cases hq : runEvs c es w1 with
          | none => rw [hq] at h; cases h
          | some x =>
            rw [hq] at h
            cases h
            rw [ih w1 _ _ (fun e he' => he e (by simp [he'])) hq]
            exact hcl
      refine this _ _ _ _ ?_ h0
      intro e he
      obtain ⟨d, _, rfl⟩ := List.mem_map.1 he
      exact ⟨_, _, rfl⟩
    generalize hacc : (if inp.space then inp.accept else none) = acc at hround ⊢
    have hacc' : ∀ a, acc = some a → inp.accept = some a := by
      intro a ha
      rw [← hacc] at ha
      split_ifs at ha
      exact ha
    have h1 : ∃ s1 t1, runEvs c (acc.toList.map fun a => .newClient a.1 a.2) s0 = some (s1, t1) := by
      cases hh : runEvs c (acc.toList.map fun a => .newClient a.1 a.2) s0 with
      | none => rw [hh] at hround; cases hround
      | some x => exact ⟨x.1, x.2, rfl⟩
    obtain ⟨s1, t1, h1⟩ := h1
    rw [h1] at hround
    dsimp only at hround
    have hnew : DRun c (h ++ t0 ++ t1) s1 ∧ t1.map Prod.fst = (acc.toList.map fun a => DEv.newClient a.1 a.2) ∧
        (∀ g, s1.clients g ≠ .invalid → s.clients g ≠ .invalid ∨ acc = some (g, true) ∧ g < maxClients) ∧
        (∀ fd b, acc = some (fd, b) → fd < maxClients) := by
      cases ha : acc with
      | none =>
        rw [ha] at h1
        cases h1
        exact ⟨by simpa using r0, rfl, fun g hg => .inl (by rw [← cl0]; exact hg), fun _ _ h => by cases h⟩
      | some a =>
        obtain ⟨fd, b⟩ := a
        rw [ha] at h1
        have hpos : (DEv.newClient fd b).possible s0 = true := by
          have := ok2 (fd, b) (hacc' _ ha)
          simp only [DEv.possible, cl0, beq_iff_eq]
          exact this
        simp only [Option.toList_some, List.map_cons, List.map_nil, runEvs] at h1
        cases hs : dstep c s0 (.newClient fd b) with
        | none => rw [hs] at h1; cases h1
        | some x =>
          obtain ⟨x1, x2⟩ := x
          rw [hs] at h1
          cases h1
          have hfd : fd < maxClients := by
            simp only [dstep] at hs
            split_ifs at hs with q1 q2 <;> omega
          refine ⟨by simpa using r0.step hpos hs, rfl, fun g hg => ?_, fun f b' h => by cases h; exact hfd⟩
          rcases clients_new hpos hs g hg with q | ⟨q, ql⟩
          · left; rw [← cl0]; exact q
          · cases q; exact .inr ⟨rfl, ql⟩
    obtain ⟨r1, m1, c1, c1'⟩ := hnew
    cases h2 : runEvs c inp.agent s1 with
    | none => rw [h2] at hround; cases hround
    | some x2 =>
      obtain ⟨s2, t2⟩ := x2
      rw [h2] at hround
      dsimp only at hround
      have hcalm2 : ∀ e ∈ inp.agent, e.calm = true := by
        intro e he
        have := ok3 e he
        cases e <;> simp_all [DEv.calm, DEv.ofAgent]
      obtain ⟨r2, m2, c2⟩ := runEvs_run _ r1 hcalm2 h2
      have hcov0 : Covers top s0 := by unfold Covers; rw [cl0]; exact hc
      rw [collect_covers hcov0, cl0] at hround
      obtain ⟨s3, t3, g1, g2, g3, g4⟩ := handleReady_run (c := c) (inp := inp)
        (if inp.space then (List.range maxClients).filter (fun fd => s.clients fd != .invalid) else [])
        (by split_ifs
            · exact List.nodup_range.filter _
            · exact List.nodup_nil) r2
      rw [g1] at hround
      simp only [Option.some.injEq, Prod.mk.injEq] at hround
      obtain ⟨rfl, rfl, rfl⟩ := hround
      refine ⟨by simpa [List.append_assoc] using g2, ?_, t0 ++ t1 ++ t2, t3, s2, rfl, by simpa [List.append_assoc] using r2, ?_, ?_⟩
      · have hall : ∀ g, s3.clients g ≠ .invalid → s.clients g ≠ .invalid ∨ acc = some (g, true) ∧ g < maxClients :=
          fun g hg => c1 g (c2 g (g4 g hg))
        constructor
        · intro fd hfd
          rcases hall fd hfd with q | ⟨q, _⟩
          · have := hc.1 fd q
            split
            · omega
            · exact this
          · rw [q]
            show fd < max top (fd + 1)
            omega
        · have hle := hc.2
          cases ha : acc with
          | none => exact hle
          | some a =>
            obtain ⟨fd, b⟩ := a
            have := c1' fd b ha
            cases b
            · exact hle
            · show max top (fd + 1) ≤ maxClients
              omega
      · rw [List.map_append, List.map_append, m0, m1, m2]
      · rw [g3]
        cases inp.space
        · simp
        · simp

theorem covers_restart {top : Nat} {s : DState} (h : Covers top s) : Covers top (agentRestart s).1 := by
  refine ⟨fun fd hfd => ?_, h.2⟩
  have h1 := terminateAll_gone s maxClients fd
  unfold agentRestart at hfd
  generalize terminateAll s maxClients = r at hfd h1
  obtain ⟨r1, r2⟩ := r
  rcases h1 with h1 | h1
  · exact absurd h1 hfd
  · exact h.1 fd (by rw [← h1]; exact hfd)

/-- **C102, the daemon.** Whatever happens in the rounds of the main loop, its history is one of single events, each handled
when it could happen (what is said in terms of such histories, C51, C52 and others, holds for the program); all clients are
found with `max_client_fd`, and the checks of the table's bounds hold. -/
theorem C102_daemon {c : DConf} {tr : List (DEv × List DOut)} {top : Nat} {s : DState} (h : DLoop c tr top s) :
    DRun c tr s ∧ (∀ fd, s.clients fd ≠ .invalid → fd < top) ∧ top ≤ 256 ∧ ∀ space, (dCollect space top s).length ≤ 256 := by
  have key : DRun c tr s ∧ Covers top s := by
    induction h with
    | start =>
      refine ⟨.start, ?_, Nat.zero_le _⟩
      intro fd h
      exact absurd (show DState.start.clients fd = .invalid from rfl) h
    | round _ hok hr ih => exact ⟨(round_parts ih.1 ih.2 hok hr).1, (round_parts ih.1 ih.2 hok hr).2.1⟩
    | restart _ ih => exact ⟨ih.1.step (by simp only [DEv.possible]) (by simp only [dstep]), covers_restart ih.2⟩
  refine ⟨key.1, key.2.1, key.2.2, fun space => ?_⟩
  unfold dCollect
  split
  · have h1 := List.length_filter_le (fun fd => s.clients fd != .invalid) (List.range top)
    rw [List.length_range] at h1
    have h2 : top ≤ 256 := key.2.2
    omega
  · simp

/-- **C102, the daemon, a round.** After the ends of children, the connection that is accepted and the messages of the agent,
exactly those clients are served - each once, according to its state - that were connected when the round began, were
reported, and have not been disconnected by the agent's messages. A client that has been accepted in the round is not; and
without room in the vchan, only children and the agent are. -/
theorem C102_daemon_round {c : DConf} {h tr : List (DEv × List DOut)} {top top' : Nat} {s s' : DState} {inp : DRoundIn}
    (hl : DLoop c h top s) (hok : inp.Ok s) (hr : daemonRound c top s inp = some (top', s', tr)) :
    ∃ before own s2, tr = before ++ own ∧ DRun c (h ++ before) s2 ∧
      before.map Prod.fst = (inp.dead.map fun d => .childExit d.1 d.2) ++
        (if inp.space then inp.accept.toList.map fun a => DEv.newClient a.1 a.2 else []) ++ inp.agent ∧
      (∀ fd e, (e ∈ own.map Prod.fst ∧ ofClient fd e) ↔
        inp.space = true ∧ inp.ready fd = true ∧ s.clients fd ≠ .invalid ∧
          clientEvent (s2.clients fd) fd (inp.reads fd) = some e) ∧
      (∀ fd, s.clients fd ≠ .invalid → inp.space = true → inp.ready fd = true → s2.clients fd ≠ .invalid →
        ∃ e, ofClient fd e ∧ (own.map Prod.fst).count e = 1) ∧
      own.length ≤ 256 := by
  obtain ⟨hrun, hcov⟩ : DRun c h s ∧ Covers top s := ⟨(C102_daemon hl).1, (C102_daemon hl).2.1, (C102_daemon hl).2.2.1⟩
  obtain ⟨_, _, before, own, s2, e1, e2, e3, e4⟩ := round_parts hrun hcov hok hr
  have hne : ∀ fd, s.clients fd ≠ .invalid → fd < maxClients := fun fd hf => by have := hcov.1 fd hf; have := hcov.2; omega
  have uniq : ∀ f g e, ofClient f e → ofClient g e → f = g := by
    intro f g e hf hg
    rcases hf with ⟨_, rfl⟩ | ⟨_, _, _, _, _, rfl⟩ | rfl <;> rcases hg with ⟨_, h⟩ | ⟨_, _, _, _, _, h⟩ | h <;> cases h <;> rfl
  have turn_of : ∀ g e, turnOf inp s2 g = some e → ofClient g e ∧ inp.ready g = true ∧
      clientEvent (s2.clients g) g (inp.reads g) = some e := by
    intro g e hg
    unfold turnOf at hg
    split_ifs at hg with hrd
    exact ⟨(clientEvent_spec hg (c := c) rfl).1, hrd, hg⟩
  have hiff : ∀ fd e, (e ∈ own.map Prod.fst ∧ ofClient fd e) ↔
        inp.space = true ∧ inp.ready fd = true ∧ s.clients fd ≠ .invalid ∧
          clientEvent (s2.clients fd) fd (inp.reads fd) = some e := by
    intro fd e
    rw [e4, List.mem_filterMap]
    constructor
    · rintro ⟨⟨g, hg, ht⟩, hof⟩
      obtain ⟨t1, t2, t3⟩ := turn_of g e ht
      have := uniq _ _ _ hof t1
      subst this
      rw [List.mem_filter, Bool.and_eq_true] at hg
      exact ⟨hg.2.1, t2, by simpa using hg.2.2, t3⟩
    · rintro ⟨a1, a2, a3, a4⟩
      refine ⟨⟨fd, ?_, by unfold turnOf; rw [if_pos a2, a4]⟩, (clientEvent_spec a4 (c := c) rfl).1⟩
      rw [List.mem_filter, Bool.and_eq_true]
      exact ⟨List.mem_range.2 (hne fd a3), a1, by simpa using a3⟩
  refine ⟨before, own, s2, e1, e2, ?_, hiff, ?_, ?_⟩
  · rw [e3]
    cases inp.space
    · simp
    · simp
  · intro fd a1 a2 a3 a4
    have : ∃ e, clientEvent (s2.clients fd) fd (inp.reads fd) = some e := by
      unfold clientEvent
      cases hst : s2.clients fd with
      | invalid => exact absurd hst a4
      | hello => exact ⟨_, rfl⟩
      | cmdline => exact ⟨_, rfl⟩
      | running => exact ⟨_, rfl⟩
    obtain ⟨e, he⟩ := this
    obtain ⟨m1, m2⟩ := (hiff fd e).2 ⟨a2, a3, a1, he⟩
    refine ⟨e, m2, ?_⟩
    have hnd : (own.map Prod.fst).Nodup := by
      rw [e4]
      refine filterMap_nodup ?_ _ (List.nodup_range.filter _)
      intro a a' b hb hb'
      exact uniq _ _ _ (turn_of a b hb).1 (turn_of a' b hb').1
    have q1 := List.count_pos_iff.2 m1
    have q2 := List.nodup_iff_count.1 hnd e
    omega
  · have h1 : own.length = (own.map Prod.fst).length := by simp
    rw [h1, e4]
    refine Nat.le_trans (List.length_filterMap_le _ _) (Nat.le_trans (List.length_filter_le _ _) ?_)
    rw [List.length_range]; exact Nat.le_refl _

/-! ## The agent -/

theorem vaWalk_skip {s : VaState} {i : Nat} (h : ¬ vaPolled s i = true) (is : List Nat) (rs : List (Int × Bool)) :
    vaWalk (i :: is) rs s = vaWalk is rs s := by
  cases rs <;> rw [vaWalk.eq_def] <;> dsimp only <;> rw [if_neg h]

/-- **C102, the agent.** The checks of the agent never fail: for every table of connections and all results of `ppoll`, the
walk ends connections exactly in the slots whose own result was an event - their descriptor is closed and their end
reported, in order - and leaves the others as they are. -/
theorem vaWalk_spec : ∀ (is : List Nat), is.Nodup → ∀ (s : VaState) (event : Nat → Bool),
    ∃ s' o, vaWalk is ((is.filter (vaPolled s)).map fun i => ((s.conns i).fd, event i)) s = some (s', o) ∧
      s'.waiting = s.waiting ∧ s'.session = s.session ∧
      (∀ i, s'.conns i = if i ∈ is ∧ vaPolled s i = true ∧ event i = true then { s.conns i with pid := 0 } else s.conns i) ∧
      o = (is.filter fun i => vaPolled s i && event i).flatMap fun i =>
        [.closed (s.conns i).fd, .terminated (s.conns i).domain (s.conns i).port] := by
  intro is
  induction is with
  | nil => intro _ s event; exact ⟨s, [], rfl, rfl, rfl, fun i => by simp, rfl⟩
  | cons i is ih =>
    intro hn s event
    rw [List.nodup_cons] at hn
    by_cases hp : vaPolled s i = true
    · rw [List.filter_cons_of_pos hp, List.map_cons, vaWalk, if_pos hp]
      dsimp only
      rw [if_neg (by simp)]
      by_cases he : event i = true
      · rw [if_pos he]
        have hother : ∀ j, j ≠ i → (vaRelease s i).1.conns j = s.conns j := fun j hj => put_other _ _ hj
        have hpol : ∀ j ∈ is, vaPolled (vaRelease s i).1 j = vaPolled s j := by
          intro j hj
          unfold vaPolled
          rw [hother j (fun e => hn.1 (e ▸ hj))]
        obtain ⟨s', o, h1, h2, h3, h4, h5⟩ := ih hn.2 (vaRelease s i).1 event
        have hres : ((is.filter (vaPolled (vaRelease s i).1)).map fun j => (((vaRelease s i).1.conns j).fd, event j)) =
            (is.filter (vaPolled s)).map fun j => ((s.conns j).fd, event j) := by
          rw [List.filter_congr hpol]
          refine List.map_congr_left fun j hj => ?_
          rw [hother j (fun e => hn.1 (e ▸ (List.mem_filter.1 hj).1))]
        rw [hres] at h1
        rw [h1]
        refine ⟨s', _, rfl, h2, h3, ?_, ?_⟩
        · intro j
          rw [h4 j]
          by_cases ej : j = i
          · subst ej
            rw [if_neg (fun h => hn.1 h.1), if_pos ⟨by simp, hp, he⟩]
            exact put_same _ _ _
          · rw [hother j ej]
            have : vaPolled (vaRelease s i).1 j = vaPolled s j := by unfold vaPolled; rw [hother j ej]
            rw [this]
            simp [ej]
        · rw [List.filter_cons_of_pos (by simp [hp, he]), List.flatMap_cons, h5]
          have : (is.filter fun j => vaPolled (vaRelease s i).1 j && event j) = is.filter fun j => vaPolled s j && event j :=
            List.filter_congr fun j hj => by rw [hpol j hj]
          rw [this]
          show VaOut.closed _ :: (_ :: _) = VaOut.closed _ :: (_ :: _)
          congr 2
          refine flatMap_same _ fun j hj => ?_
          rw [hother j (fun e => hn.1 (e ▸ (List.mem_filter.1 hj).1))]
      · rw [if_neg he]
        obtain ⟨s', o, h1, h2, h3, h4, h5⟩ := ih hn.2 s event
        refine ⟨s', o, h1, h2, h3, fun j => ?_, ?_⟩
        · rw [h4 j]
          by_cases ej : j = i
          · subst ej; rw [if_neg (fun h => hn.1 h.1), if_neg (fun h => he h.2.2)]
          · simp [ej]
        · rw [List.filter_cons_of_neg (by simp [he]), h5]
    · rw [List.filter_cons_of_neg hp, vaWalk_skip hp]
      obtain ⟨s', o, h1, h2, h3, h4, h5⟩ := ih hn.2 s event
      refine ⟨s', o, h1, h2, h3, fun j => ?_, ?_⟩
      · rw [h4 j]
        by_cases ej : j = i
        · subst ej; rw [if_neg (fun h => hn.1 h.1), if_neg (fun h => hp h.2.1)]
        · simp [ej]
      · rw [List.filter_cons_of_neg (by simp [hp]), h5]

theorem C102_agent (s : VaState) (event : Nat → Bool) :
    ∃ s' o, vaPollRound (((List.range 256).filter (vaPolled s)).map fun i => ((s.conns i).fd, event i)) s = some (s', o) ∧
      s'.waiting = s.waiting ∧ s'.session = s.session ∧
      (∀ i, s'.conns i = if i < 256 ∧ ((s.conns i).pid ≠ 0 ∧ (s.conns i).fd ≠ -1) ∧ event i = true then
        { s.conns i with pid := 0 } else s.conns i) ∧
      o = ((List.range 256).filter fun i => vaPolled s i && event i).flatMap fun i =>
        [.closed (s.conns i).fd, .terminated (s.conns i).domain (s.conns i).port] := by
  obtain ⟨s', o, h1, h2, h3, h4, h5⟩ := vaWalk_spec (List.range 256) List.nodup_range s event
  have hpol : ∀ i, vaPolled s i = true ↔ (s.conns i).pid ≠ 0 ∧ (s.conns i).fd ≠ -1 := by
    intro i; unfold vaPolled; simp
  unfold vaPollRound
  by_cases he : (((List.range 256).filter (vaPolled s)).map fun i => ((s.conns i).fd, event i)).isEmpty = true
  · rw [if_pos he]
    rw [List.isEmpty_iff, List.map_eq_nil_iff, List.filter_eq_nil_iff] at he
    refine ⟨s, [], rfl, rfl, rfl, fun i => ?_, ?_⟩
    · rw [if_neg]
      rintro ⟨k1, k2, _⟩
      exact he i (List.mem_range.2 k1) ((hpol i).2 k2)
    · symm
      rw [List.flatMap_eq_nil_iff]
      intro i hi
      rw [List.mem_filter, Bool.and_eq_true] at hi
      exact absurd hi.2.1 (he i hi.1)
  · rw [if_neg he]
    refine ⟨s', o, h1, h2, h3, fun i => ?_, h5⟩
    rw [h4 i]
    have : (i ∈ List.range 256 ∧ vaPolled s i = true ∧ event i = true) ↔
        (i < 256 ∧ ((s.conns i).pid ≠ 0 ∧ (s.conns i).fd ≠ -1) ∧ event i = true) := by
      rw [hpol i, List.mem_range]
    by_cases hc : i ∈ List.range 256 ∧ vaPolled s i = true ∧ event i = true
    · rw [if_pos hc, if_pos (this.1 hc)]
    · rw [if_neg hc, if_neg (fun h => hc (this.2 h))]

theorem vaWalk_poll (ready : List Int) (event : Int → Bool) : ∀ (is : List Nat), is.Nodup → ∀ (s : VaState),
    (∀ i ∈ is, vaPolled s i = true → (event (s.conns i).fd = true ↔ (s.conns i).fd ∈ ready)) →
    vaWalk is ((is.filter (vaPolled s)).map fun i => ((s.conns i).fd, event (s.conns i).fd)) s = some (vaPoll ready is s) := by
  intro is
  induction is with
  | nil => intro _ s _; rfl
  | cons i is ih =>
    intro hn s hev
    rw [List.nodup_cons] at hn
    have hpol : vaPolled s i = true ↔ (s.conns i).pid ≠ 0 ∧ (s.conns i).fd ≠ -1 := by unfold vaPolled; simp
    rw [vaPoll]
    by_cases hp : vaPolled s i = true
    · rw [List.filter_cons_of_pos hp, List.map_cons, vaWalk, if_pos hp]
      dsimp only
      rw [if_neg (by simp)]
      have hi := hev i (by simp) hp
      by_cases he : event (s.conns i).fd = true
      · rw [if_pos he, if_pos ⟨(hpol.1 hp).1, (hpol.1 hp).2, hi.1 he⟩]
        have hother : ∀ j, j ≠ i → (vaRelease s i).1.conns j = s.conns j := fun j hj => put_other _ _ hj
        have hp' : ∀ j ∈ is, vaPolled (vaRelease s i).1 j = vaPolled s j := by
          intro j hj
          unfold vaPolled
          rw [hother j (fun e => hn.1 (e ▸ hj))]
        have hres : ((is.filter (vaPolled (vaRelease s i).1)).map fun j =>
              (((vaRelease s i).1.conns j).fd, event ((vaRelease s i).1.conns j).fd)) =
            (is.filter (vaPolled s)).map fun j => ((s.conns j).fd, event (s.conns j).fd) := by
          rw [List.filter_congr hp']
          refine List.map_congr_left fun j hj => ?_
          rw [hother j (fun e => hn.1 (e ▸ (List.mem_filter.1 hj).1))]
        have := ih hn.2 (vaRelease s i).1 (by
          intro j hj hpj
          rw [hp' j hj] at hpj
          rw [hother j (fun e => hn.1 (e ▸ hj))]
          exact hev j (by simp [hj]) hpj)
        rw [hres] at this
        rw [this]
      · rw [if_neg he, if_neg (fun h => he (hi.2 h.2.2))]
        exact ih hn.2 s (fun j hj => hev j (by simp [hj]))
    · rw [List.filter_cons_of_neg hp, vaWalk_skip hp, if_neg (fun h => hp (hpol.2 ⟨h.1, h.2.1⟩))]
      exact ih hn.2 s (fun j hj => hev j (by simp [hj]))

theorem vaPoll_none : ∀ (is : List Nat) (s : VaState), vaPoll [] is s = (s, []) := by
  intro is
  induction is with
  | nil => intro s; rfl
  | cons i is ih => intro s; rw [vaPoll, if_neg (by simp), ih]

theorem vaSteps_run {load : RpcService → Option SvcConf} {s s' : VaState} {t : List (VaEv × List VaOut)}
    (h : VaSteps load s t s') : ∀ {tr : List (VaEv × List VaOut)}, VaRun load tr s → VaRun load (tr ++ t) s' := by
  induction h with
  | refl => intro tr hr; simpa using hr
  | step _ hp hs ih =>
    intro tr hr
    rw [← List.append_assoc]
    exact .step (ih hr) hp hs

/-- **C102, the agent.** Whatever happens in the rounds of the agent's main loop, its history is one of single events, each
handled when it could happen. -/
theorem C102_agent_run {load : RpcService → Option SvcConf} {tr : List (VaEv × List VaOut)} {s : VaState} (h : VaLoop load tr s) :
    VaRun load tr s := by
  induction h with
  | start => exact .start
  | @round tr0 _ _ _ _ hr ih =>
    cases hr with
    | @mk s1 s2 s3 _ t1 t3 t4 o space event a1 _ a3 a4 _ a6 _ =>
      have r1 := vaSteps_run a1 ih
      have r2 : VaRun load (tr0 ++ t1 ++ [(VaEv.poll ((vaCollect space s1).filter event), o)]) s2 := by
        refine .step r1 trivial ?_
        show some (vaPoll _ _ s1) = some (s2, o)
        rw [← a3]
        symm
        unfold vaPollRound
        by_cases he : ((vaCollect space s1).map fun fd => (fd, event fd)).isEmpty = true
        · rw [if_pos he]
          rw [List.isEmpty_iff, List.map_eq_nil_iff] at he
          rw [he]
          show some (s1, []) = some (vaPoll [] _ s1)
          rw [vaPoll_none]
        · rw [if_neg he]
          cases space with
          | false => exact absurd rfl he
          | true =>
            have hcol : vaCollect true s1 = ((List.range maxClients).filter (vaPolled s1)).map fun i => (s1.conns i).fd := rfl
            rw [hcol, List.map_map]
            refine vaWalk_poll _ event _ List.nodup_range s1 fun i hi hp => ?_
            rw [List.mem_filter]
            refine ⟨fun h => ⟨List.mem_map.2 ⟨i, List.mem_filter.2 ⟨hi, hp⟩, rfl⟩, h⟩, fun h => h.2⟩
      have r3 := vaSteps_run a6 (vaSteps_run a4 r2)
      simpa [List.append_assoc] using r3

/-! ## Cases -/

/-- Two clients are connected and reported; the agent ends the connection of the first, a third connects. -/
def exRound : DRoundIn where
  dead := [(40, some 0)]
  space := true
  accept := some (7, true)
  agent := [.terminated 3 513]
  ready fd := fd == 5 || fd == 6 || fd == 7
  reads _ := ⟨true, none⟩

theorem C102_example : (daemonRound exConf 7
    { DState.start with clients := put (put DState.start.clients 5 .running) 6 .hello, ports := put DState.start.ports 0 3, notify := put DState.start.notify 0 5 }
    exRound).map (fun r => (r.1, r.2.2)) =
    some (8, [(.childExit 40 (some 0), []), (.newClient 7 true, []), (.terminated 3 513, [.closed 5]), (.clientHello 6 true, [])]) := by
  decide

/-- A loop with a round: a client connects. -/
example : ∃ tr s, DLoop exConf tr 6 s ∧ s.clients 5 = .hello := by
  have h := DLoop.round (inp := ⟨[], true, some (5, true), [], fun _ => false, fun _ => ⟨true, none⟩⟩) (.start (c := exConf))
    ⟨by simp, fun a h => rfl, by simp⟩ (top' := 6) (s' := { DState.start with clients := put DState.start.clients 5 .hello })
    (tr' := [(.newClient 5 true, [])]) rfl
  exact ⟨_, _, h, rfl⟩

end Qrexec
