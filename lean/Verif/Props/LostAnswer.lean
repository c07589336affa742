import Verif.Model.LostAnswer

/-!
# C117: the answer of a granted call
-/
namespace Qrexec

/-! ## Specification -/

/-- The agent hears of the decision about `k`: the connection is passed on, or it is told that the call is refused. -/
def AwTold (k : Nat) (e : AwEv) : Prop := e = .answered k ∨ ∃ ok, e = .reaped k ok true

/-- The answer is lost: the process of the call `k` has ended in success (the policy granted the call, the service was started), the daemon has
waited for it and knows nothing of it any more; and the agent has heard nothing. -/
def AwLost (tr : List AwEv) (k : Nat) : Prop := (∃ r, .reaped k true r ∈ tr) ∧ ∀ e ∈ tr, ¬ AwTold k e

/-! ## Invariants -/

/-- One process. -/
structure AwKidInv (tr : List AwEv) (k : Nat) (x : AwKid) : Prop where
  fresh : x.proc = .none → x = {}
  ok : x.proc = .ended true → x.stage = 4
  alive : x.proc = .none ∨ x.proc = .working → ∀ ok, .ended k ok ∉ tr
  notReaped : x.proc ≠ .reaped → ∀ ok r, .reaped k ok r ∉ tr
  reaped : x.proc = .reaped → x.pending = false
  told : x.proc ≠ .none → x.proc ≠ .reaped → x.pending = false → .answered k ∈ tr
  pend : x.pending = true → x.read < 2 ∧ ∀ e ∈ tr, ¬ AwTold k e
  none : x.proc = .none → ∀ e ∈ tr, ¬ AwTold k e
  sent : x.stage = 4 → .sent k ∈ tr
  reapedSent : ∀ r, .reaped k true r ∈ tr → .sent k ∈ tr

/-- Whom it is about. -/
def AwEv.about : AwEv → Option Nat
  | .forked k | .sent k | .ended k _ | .reaped k _ _ | .answered k | .ignored k => some k
  | _ => Option.none

theorem told_about {k : Nat} {e : AwEv} (h : AwTold k e) : e.about = some k := by
  rcases h with rfl | ⟨_, rfl⟩ <;> rfl

/-- What is observed of others changes nothing. -/
theorem AwKidInv.other {tr : List AwEv} {k : Nat} {x : AwKid} {e : AwEv} (h : AwKidInv tr k x) (he : e.about ≠ some k) :
    AwKidInv (tr ++ [e]) k x := by
  have hn : ∀ e', e'.about = some k → (e' ∈ tr ++ [e] ↔ e' ∈ tr) := by
    intro e' h'
    simp only [List.mem_append, List.mem_singleton]
    constructor
    · rintro (h | rfl)
      · exact h
      · exact absurd h' he
    · exact .inl
  have ht : (∀ e' ∈ tr, ¬ AwTold k e') → ∀ e' ∈ tr ++ [e], ¬ AwTold k e' := by
    intro h1 e' h2 h3
    exact h1 e' ((hn e' (told_about h3)).1 h2) h3
  exact {
    fresh := h.fresh
    ok := h.ok
    alive := fun a ok => by rw [hn _ rfl]; exact h.alive a ok
    notReaped := fun a ok r => by rw [hn _ rfl]; exact h.notReaped a ok r
    reaped := h.reaped
    told := fun a b c => by rw [hn _ rfl]; exact h.told a b c
    pend := fun a => ⟨(h.pend a).1, ht (h.pend a).2⟩
    none := fun a => ht (h.none a)
    sent := fun a => by rw [hn _ rfl]; exact h.sent a
    reapedSent := fun r => by rw [hn _ rfl, hn _ rfl]; exact h.reapedSent r }

theorem AwSt.set_same (s : AwSt) (k : Nat) (x : AwKid) : (s.set k x).kids k = x := by simp [AwSt.set]

theorem AwSt.set_other (s : AwSt) {k j : Nat} (x : AwKid) (h : j ≠ k) : (s.set k x).kids j = s.kids j := by simp [AwSt.set, h]

/-- A step of one process. -/
theorem aw_set {tr : List AwEv} {s : AwSt} {e : AwEv} {k : Nat} {x : AwKid} (h : ∀ j, AwKidInv tr j (s.kids j))
    (hk : AwKidInv (tr ++ [e]) k x) (he : ∀ j, j ≠ k → e.about ≠ some j) (j : Nat) : AwKidInv (tr ++ [e]) j ((s.set k x).kids j) := by
  by_cases hj : j = k
  · subst hj; rw [s.set_same]; exact hk
  · rw [s.set_other x hj]; exact (h j).other (he j hj)

theorem aw_new {tr : List AwEv} {s : AwSt} (h : AwRun tr s) : ∀ k, (s.kids k).proc = .none → s.kids k = {} ∧ s.reported k = false := by
  induction h with
  | start => intro k _; exact ⟨rfl, rfl⟩
  | @step tr s s' e hr st ih =>
    have h0 : ∀ (k : Nat) (x : AwKid), x.proc ≠ .none → ∀ j, ((s.set k x).kids j).proc = .none →
        (s.set k x).kids j = {} ∧ s.reported j = false := by
      intro k x hx j hj
      by_cases h : j = k
      · subst h; rw [s.set_same] at hj; exact absurd hj hx
      · rw [s.set_other x h] at hj ⊢; exact ih j hj
    cases st with
    | fork h1 h2 => exact h0 _ _ (by simp)
    | connect h1 h2 => exact h0 _ _ (by simp [h1])
    | @accept k h1 h2 h3 => exact h0 _ _ (fun h => by rw [(ih k h).1] at h3; cases h3)
    | hello h1 h2 => exact h0 _ _ (by simp [h1])
    | send h1 h2 => exact h0 _ _ (by simp [h1])
    | @ends k ok h1 h2 => exact h0 _ _ (by simp)
    | check h => exact ih
    | reap h1 h2 => exact h0 _ _ (by simp)
    | allReaped h1 h2 => exact ih
    | clear h => exact ih
    | collect r h => exact ih
    | interrupted h1 h2 h3 => exact ih
    | ready h =>
      intro j hj
      have := (ih j hj).1
      refine ⟨this, ?_⟩
      show (s.room && (s.kids j).unread) = false
      rw [this]; simp [AwKid.unread]
    | @readHello k _ h1 _ =>
      intro j hj
      have h := h0 k { s.kids k with read := 1 } (fun h => by rw [(ih k h).2] at h1; cases h1) j hj
      refine ⟨h.1, ?_⟩
      show (if j = k then false else s.reported j) = false
      rw [h.2]; simp
    | @readFound k _ h1 _ _ =>
      intro j hj
      have h := h0 k { s.kids k with read := 2, pending := false } (fun h => by rw [(ih k h).2] at h1; cases h1) j hj
      refine ⟨h.1, ?_⟩
      show (if j = k then false else s.reported j) = false
      rw [h.2]; simp
    | @readGone k _ h1 _ _ =>
      intro j hj
      have h := h0 k { s.kids k with read := 2 } (fun h => by rw [(ih k h).2] at h1; cases h1) j hj
      refine ⟨h.1, ?_⟩
      show (if j = k then false else s.reported j) = false
      rw [h.2]; simp
    | again h1 h2 => exact ih

theorem aw_kids {tr : List AwEv} {s : AwSt} (h : AwRun tr s) : ∀ k, AwKidInv tr k (s.kids k) := by
  induction h with
  | start => intro k; constructor <;> simp
  | @step tr s s' e hr st ih =>
    have tau : ∀ k x, AwKidInv tr k x → AwKidInv (tr ++ [.tau]) k x := fun k x h => h.other (by simp [AwEv.about])
    have ab : ∀ (k j : Nat) (e : AwEv), e.about = some k → j ≠ k → e.about ≠ some j := by
      intro k j e h h1 h2; rw [h] at h2; cases h2; exact h1 rfl
    cases st with
    | @fork k hpc hk =>
      obtain ⟨i1, i2, i3, i4, i5, i6, i7, i8, i9, i10⟩ := ih k
      refine aw_set ih ?_ fun j => ab k j _ rfl
      constructor <;> simp_all [AwTold, or_imp, forall_and]
    | @connect k h1 h2 =>
      obtain ⟨i1, i2, i3, i4, i5, i6, i7, i8, i9, i10⟩ := ih k
      refine aw_set ih (tau _ _ ?_) fun j _ => by simp [AwEv.about]
      constructor <;> simp_all
    | @accept k h0 h1 h2 =>
      obtain ⟨i1, i2, i3, i4, i5, i6, i7, i8, i9, i10⟩ := ih k
      refine aw_set ih (tau _ _ ?_) fun j _ => by simp [AwEv.about]
      have : (s.kids k).proc ≠ .none := fun h => by rw [i1 h] at h2; cases h2
      constructor <;> simp_all
    | @hello k h1 h2 =>
      obtain ⟨i1, i2, i3, i4, i5, i6, i7, i8, i9, i10⟩ := ih k
      refine aw_set ih (tau _ _ ?_) fun j _ => by simp [AwEv.about]
      constructor <;> simp_all
    | @send k h1 h2 =>
      obtain ⟨i1, i2, i3, i4, i5, i6, i7, i8, i9, i10⟩ := ih k
      refine aw_set ih ?_ fun j => ab k j _ rfl
      constructor <;> simp_all [AwTold, or_imp, forall_and]
    | @ends k ok h1 h2 =>
      obtain ⟨i1, i2, i3, i4, i5, i6, i7, i8, i9, i10⟩ := ih k
      refine aw_set ih ?_ fun j => ab k j _ rfl
      constructor <;> simp_all [AwTold, or_imp, forall_and]
    | check h => exact fun k => tau _ _ (ih k)
    | @reap k ok h1 h2 =>
      obtain ⟨i1, i2, i3, i4, i5, i6, i7, i8, i9, i10⟩ := ih k
      refine aw_set ih ?_ fun j => ab k j _ rfl
      constructor <;> simp_all [AwTold, or_imp, forall_and]
    | allReaped h1 h2 => exact fun k => tau _ _ (ih k)
    | clear h => exact fun k => tau _ _ (ih k)
    | collect r h => exact fun k => tau _ _ (ih k)
    | interrupted h1 h2 h3 => exact fun k => (ih k).other (by simp [AwEv.about])
    | ready h => exact fun k => tau _ _ (ih k)
    | @readHello k h0 h1 h2 =>
      have hn : (s.kids k).proc ≠ .none := fun h => by rw [(aw_new hr k h).2] at h1; cases h1
      obtain ⟨i1, i2, i3, i4, i5, i6, i7, i8, i9, i10⟩ := ih k
      refine aw_set ih (tau _ _ ?_) fun j _ => by simp [AwEv.about]
      constructor <;> simp_all
    | @readFound k h0 h1 h2 h3 =>
      have hn : (s.kids k).proc ≠ .none := fun h => by rw [(aw_new hr k h).2] at h1; cases h1
      obtain ⟨i1, i2, i3, i4, i5, i6, i7, i8, i9, i10⟩ := ih k
      refine aw_set ih ?_ fun j => ab k j _ rfl
      constructor <;> simp_all [AwTold, or_imp, forall_and]
    | @readGone k h0 h1 h2 h3 =>
      have hn : (s.kids k).proc ≠ .none := fun h => by rw [(aw_new hr k h).2] at h1; cases h1
      obtain ⟨i1, i2, i3, i4, i5, i6, i7, i8, i9, i10⟩ := ih k
      refine aw_set ih ?_ fun j => ab k j _ rfl
      constructor <;> simp_all [AwTold, or_imp, forall_and]
    | again h1 h2 => exact fun k => tau _ _ (ih k)

/-- When the flag is set: since the interruption by the signal nothing was read; what is unread was sent since then, or the vchan was full. -/
structure AwFlag (tr : List AwEv) (s : AwSt) : Prop where
  on : s.pc = .reaping → s.flag = true
  off : s.flag = true → s.pc = .top ∨ s.pc = .reaping ∨ s.pc = .clearing
  signal : s.signal = true → ∃ j ok, .ended j ok ∈ tr
  flag : s.flag = true → ∃ b1 room b2, tr = b1 ++ .interrupted room :: b2 ∧ (∀ r, .interrupted r ∉ b2) ∧ (∃ j ok, .ended j ok ∈ b1) ∧
    (room = true → ∀ k, (s.kids k).unread = true → (s.kids k).stage = 4 → .sent k ∈ b2 ∧ ∃ j ok, j ≠ k ∧ .ended j ok ∈ b1)

theorem aw_flag {tr : List AwEv} {s : AwSt} (h : AwRun tr s) : AwFlag tr s := by
  induction h with
  | start => constructor <;> simp
  | @step tr s s' e hr st ih =>
    have hk := aw_kids hr
    obtain ⟨i1, i2, i3, i4⟩ := ih
    have sig : s.signal = true → ∃ j ok, .ended j ok ∈ tr ++ [e] := fun h =>
      let ⟨j, ok, h⟩ := i3 h; ⟨j, ok, List.mem_append_left _ h⟩
    -- steps in which something that is unread at the end with stage 4 was so before, or has just been sent
    have keep : s.flag = true → (∀ r, e ≠ .interrupted r) →
        (∀ k, (s'.kids k).unread = true → (s'.kids k).stage = 4 → ((s.kids k).unread = true ∧ (s.kids k).stage = 4) ∨
          (e = .sent k ∧ (s.kids k).proc = .working)) →
        ∃ b1 room b2, tr ++ [e] = b1 ++ .interrupted room :: b2 ∧ (∀ r, .interrupted r ∉ b2) ∧ (∃ j ok, .ended j ok ∈ b1) ∧
          (room = true → ∀ k, (s'.kids k).unread = true → (s'.kids k).stage = 4 →
            .sent k ∈ b2 ∧ ∃ j ok, j ≠ k ∧ .ended j ok ∈ b1) := by
      intro hf he hu
      obtain ⟨b1, room, b2, rfl, h1, ⟨j, ok, h2⟩, h3⟩ := i4 hf
      refine ⟨b1, room, b2 ++ [e], by simp, fun r hr => ?_, ⟨j, ok, h2⟩, fun hroom k h4 h5 => ?_⟩
      · rcases List.mem_append.1 hr with h | h
        · exact h1 r h
        · exact he r (List.mem_singleton.1 h).symm
      · rcases hu k h4 h5 with ⟨h6, h7⟩ | ⟨rfl, h6⟩
        · obtain ⟨h8, h9⟩ := h3 hroom k h6 h7
          exact ⟨List.mem_append_left _ h8, h9⟩
        · refine ⟨List.mem_append_right _ (List.mem_singleton.2 rfl), j, ok, ?_, h2⟩
          rintro rfl
          exact (hk j).alive (.inr h6) ok (List.mem_append_left _ h2)
    -- a step of one process
    have one : ∀ (k : Nat) (x : AwKid), (x.unread = true → x.stage = 4 → ((s.kids k).unread = true ∧ (s.kids k).stage = 4) ∨
          (e = .sent k ∧ (s.kids k).proc = .working)) → ∀ j, ((s.set k x).kids j).unread = true → ((s.set k x).kids j).stage = 4 →
          ((s.kids j).unread = true ∧ (s.kids j).stage = 4) ∨ (e = .sent j ∧ (s.kids j).proc = .working) := by
      intro k x hx j
      by_cases h : j = k
      · subst h; rw [s.set_same]; exact hx
      · rw [s.set_other x h]; exact fun a b => .inl ⟨a, b⟩
    have same : ∀ k, (s.kids k).unread = true → (s.kids k).stage = 4 → ((s.kids k).unread = true ∧ (s.kids k).stage = 4) ∨
          (e = .sent k ∧ (s.kids k).proc = .working) := fun k a b => .inl ⟨a, b⟩
    have none : s.flag = true → s.pc = .handling → False := by
      intro h1 h2
      have := i2 h1
      rw [h2] at this
      rcases this with h | h | h <;> cases h
    cases st with
    | fork h1 h2 => exact ⟨i1, i2, sig, fun hf => (none hf h1).elim⟩
    | @connect k h1 h2 => exact ⟨i1, i2, sig, fun hf => keep hf (by simp) (one _ _ (fun _ h => by cases h))⟩
    | @accept k h0 h1 h2 => exact ⟨i1, i2, sig, fun hf => (none hf h0).elim⟩
    | @hello k h1 h2 => exact ⟨i1, i2, sig, fun hf => keep hf (by simp) (one _ _ (fun _ h => by cases h))⟩
    | @send k h1 h2 => exact ⟨i1, i2, sig, fun hf => keep hf (by simp) (one _ _ (fun _ _ => .inr ⟨rfl, h1⟩))⟩
    | @ends k ok h1 h2 =>
      exact ⟨i1, i2, fun _ => ⟨k, ok, by simp⟩, fun hf => keep hf (by simp) (one _ _ (fun a b => .inl ⟨a, b⟩))⟩
    | check h =>
      refine ⟨fun h' => ?_, fun hf => ?_, sig, fun hf => keep hf (by simp) same⟩
      · by_cases hf : s.flag = true
        · exact hf
        · simp [hf] at h'
      · have : s.flag = true := hf
        simp [this]
    | @reap k ok h1 h2 => exact ⟨i1, i2, sig, fun hf => keep hf (by simp) (one _ _ (fun a b => .inl ⟨a, b⟩))⟩
    | allReaped h1 h2 => exact ⟨(fun h => by cases h), fun _ => .inr (.inr rfl), sig, fun hf => keep hf (by simp) same⟩
    | clear h => exact ⟨(fun h => by cases h), (fun h => by cases h), sig, (fun h => by cases h)⟩
    | collect r h =>
      refine ⟨(fun h => by cases h), fun hf => ?_, sig, fun hf => ?_⟩ <;>
      · have := i2 hf
        rw [h] at this
        rcases this with h | h | h <;> cases h
    | interrupted h1 h2 h3 =>
      refine ⟨(fun h => by cases h), fun _ => .inl rfl, (fun h => by cases h), fun _ => ⟨tr, s.room, [], rfl, by simp, i3 h2, ?_⟩⟩
      intro hr k hu
      have h4 := (h3 hr k).2
      rw [show (s.kids k).unread = true from hu] at h4
      cases h4
    | ready h =>
      refine ⟨(fun h => by cases h), fun hf => ?_, sig, fun hf => ?_⟩ <;>
      · have := i2 hf
        rw [h] at this
        rcases this with h | h | h <;> cases h
    | readHello h0 h1 h2 => exact ⟨i1, i2, sig, fun hf => (none hf h0).elim⟩
    | readFound h0 h1 h2 h3 => exact ⟨i1, i2, sig, fun hf => (none hf h0).elim⟩
    | readGone h0 h1 h2 h3 => exact ⟨i1, i2, sig, fun hf => (none hf h0).elim⟩
    | again h1 h2 => exact ⟨(fun h => by cases h), fun hf => (none hf h1).elim, sig, fun hf => (none hf h1).elim⟩

/-! ## Theorems -/

/-- **C117.** An answer is lost only so: the daemon was woken by the end of *another* process while this one had not sent all, and this one sent the
rest and ended before the daemon had waited for all that have ended; or the daemon did not look at its sockets, since the vchan to the agent was
full. -/
theorem C117_lost_only_partial {tr : List AwEv} {s : AwSt} (h : AwRun tr s) (k : Nat) (hl : AwLost tr k) :
    ∃ b1 room b2 r b3, tr = b1 ++ .interrupted room :: b2 ++ .reaped k true r :: b3 ∧ (∀ r, .interrupted r ∉ b2) ∧
      (room = false ∨ (.sent k ∈ b2 ∧ ∃ j ok, j ≠ k ∧ .ended j ok ∈ b1)) := by
  induction h with
  | start => obtain ⟨⟨r, h⟩, _⟩ := hl; cases h
  | @step tr s s' e hr st ih =>
    obtain ⟨⟨r, hl⟩, ht⟩ := hl
    have ht' : ∀ e ∈ tr, ¬ AwTold k e := fun e h => ht e (List.mem_append_left _ h)
    rcases List.mem_append.1 hl with h | h
    · obtain ⟨b1, room, b2, r, b3, rfl, h1, h2⟩ := ih ⟨⟨r, h⟩, ht'⟩
      exact ⟨b1, room, b2, r, b3 ++ [e], by simp, h1, h2⟩
    · have h := List.mem_singleton.1 h
      have hf := aw_flag hr
      have hk := aw_kids hr k
      cases st with
      | @reap k' ok h1 h2 =>
        cases h
        have hp : (s.kids k).pending = true := by
          by_cases hp : (s.kids k).pending = true
          · exact hp
          · exact absurd (.inl rfl) (ht' _ (hk.told (by rw [h2]; simp) (by rw [h2]; simp) (by simpa using hp)))
        have hu : (s.kids k).unread = true := by
          have a := (hk.pend hp).1
          have b := hk.ok h2
          simp only [AwKid.unread, b, decide_eq_true_eq]; omega
        obtain ⟨b1, room, b2, rfl, h3, h4, h5⟩ := hf.flag (hf.on h1)
        refine ⟨b1, room, b2, _, [], rfl, h3, ?_⟩
        cases room with
        | false => exact .inl rfl
        | true => exact .inr (h5 rfl k hu (hk.ok h2))
      | _ => cases h

/-- So it is never lost while there is room in the vchan and no other process ends: what a process that is alone sends is passed on. -/
theorem C117_alone {tr : List AwEv} {s : AwSt} (h : AwRun tr s) (k : Nat) (hroom : .interrupted false ∉ tr)
    (halone : ∀ j ok, j ≠ k → .ended j ok ∉ tr) : ¬ AwLost tr k := by
  intro hl
  obtain ⟨b1, room, b2, r, b3, rfl, _, h | ⟨_, j, ok, hj, h⟩⟩ := C117_lost_only_partial h k hl
  · subst h; exact hroom (by simp)
  · exact halone j ok hj (by simp [h])

/-- A lost answer stays lost: the agent is never told, and the client waits for ever. The service has been started. -/
theorem C117_for_ever {tr tr' : List AwEv} {s' : AwSt} (h' : AwRun tr' s') (hp : tr <+: tr') (k : Nat) (hl : AwLost tr k) :
    AwLost tr' k ∧ .sent k ∈ tr' := by
  have hlost : AwLost tr' k := by
    induction h' with
    | start => rwa [List.prefix_nil.1 hp] at hl
    | @step tr'' s s' e hr st ih =>
      by_cases he : tr = tr'' ++ [e]
      · rwa [he] at hl
      · have hp' : tr <+: tr'' := by
          rcases List.prefix_concat_iff.1 (by simpa using hp) with h | h
          · exact absurd (by simpa using h) he
          · exact h
        obtain ⟨⟨r, h1⟩, h2⟩ := ih hp'
        refine ⟨⟨r, List.mem_append_left _ h1⟩, fun e' he' ht => ?_⟩
        rcases List.mem_append.1 he' with h | h
        · exact h2 e' h ht
        · rw [List.mem_singleton.1 h] at ht
          have hk := aw_kids hr k
          have hpr : (s.kids k).proc = .reaped := by
            by_cases hpr : (s.kids k).proc = .reaped
            · exact hpr
            · exact absurd h1 (hk.notReaped hpr true r)
          rcases ht with rfl | ⟨ok, rfl⟩
          · cases st with
            | readFound _ _ _ h3 => rw [hk.reaped hpr] at h3; cases h3
          · generalize hx : AwEv.reaped k ok true = x at st
            cases st with
            | @reap k' ok' _ h3 =>
              have hk' : k = k' := by injection hx
              subst hk'; rw [hpr] at h3; cases h3
            | _ => cases hx
  obtain ⟨r, h1⟩ := hlost.1
  exact ⟨hlost, (aw_kids h' k).reapedSent r h1⟩

/-- Nobody is told twice. -/
theorem C117_once {a b : List AwEv} {e : AwEv} {s : AwSt} (h : AwRun (a ++ e :: b) s) (k : Nat) (he : AwTold k e) :
    ∀ e' ∈ a, ¬ AwTold k e' := by
  generalize htr : a ++ e :: b = tr at h
  induction h generalizing b with
  | start => simp at htr
  | @step tr s s' x hr st ih =>
    rcases List.eq_nil_or_concat b with rfl | ⟨b', y, rfl⟩
    · obtain ⟨rfl, hx⟩ := List.append_inj' htr rfl
      cases hx
      have hk := aw_kids hr k
      suffices hp : (s.kids k).pending = true from (hk.pend hp).2
      rcases he with rfl | ⟨ok, rfl⟩
      · cases st with
        | readFound _ _ _ h3 => exact h3
      · generalize hx : AwEv.reaped k ok true = x at st
        cases st with
        | @reap _ ok' _ h3 => cases ok' <;> simp at hx; rw [hx.1]; exact hx.2.2
        | _ => cases hx
    · refine ih (b := b') ?_
      have : (a ++ e :: b') ++ [y] = tr ++ [x] := by simpa using htr
      exact (List.append_inj' this rfl).1

/-- A call that was refused or failed is never lost: when the daemon has waited for it, the agent has been told. -/
theorem C117_refused {tr : List AwEv} {s : AwSt} (h : AwRun tr s) (k : Nat) (r : Bool) (hr : .reaped k false r ∈ tr) :
    ∃ e ∈ tr, AwTold k e := by
  induction h with
  | start => cases hr
  | @step tr s s' e hrun st ih =>
    rcases List.mem_append.1 hr with h | h
    · obtain ⟨e', h1, h2⟩ := ih h
      exact ⟨e', List.mem_append_left _ h1, h2⟩
    · have h := List.mem_singleton.1 h
      have hk := aw_kids hrun k
      cases st with
      | @reap k' ok h1 h2 =>
        cases h
        cases hp : (s.kids k).pending with
        | true => exact ⟨_, List.mem_append_right _ (List.mem_singleton.2 rfl), .inr ⟨false, by simp⟩⟩
        | false => exact ⟨_, List.mem_append_left _ (hk.told (by rw [h2]; simp) (by rw [h2]; simp) hp), .inl rfl⟩
      | _ => cases h

/-! ## Counterexamples -/

open AwStep in
/-- The daemon forks the process 0, and 0 connects and is accepted. -/
theorem aw_first : ∃ s : AwSt, AwRun [.tau, .tau, .tau, .forked 0, .tau, .tau] s ∧ s.pc = .handling ∧ s.flag = false ∧ s.signal = false ∧
    s.reported = (fun _ => false) ∧ s.kids = fun j => if j = 0 then { proc := .working, stage := 2, pending := true } else {} := by
  refine ⟨_, .step (.step (.step (.step (.step (.step .start (check rfl)) (collect true rfl)) (ready rfl)) (fork (k := 0) rfl rfl))
    (connect (k := 0) rfl rfl)) (accept (k := 0) rfl rfl rfl), rfl, rfl, rfl, ?_, ?_⟩
  · funext k; simp [AwSt.set, AwKid.unread]
  · funext j; by_cases h : j = 0 <;> simp [AwSt.set, h]

open AwStep in
/-- **C117 is violated** when the agent is slow to read: the vchan is full, the process sends its message and ends, the daemon waits for it and
forgets it. The service has been started, the caller is never told. -/
theorem C117_full_violated : ∃ tr s, AwRun tr s ∧ AwLost tr 0 ∧ .sent 0 ∈ tr ∧ ∀ j ok, j ≠ 0 → .ended j ok ∉ tr := by
  obtain ⟨s, h, h1, h2, h3, h4, h5⟩ := aw_first
  obtain ⟨pc, flag, signal, room, kids, reported⟩ := s
  subst h1 h2 h3 h4 h5
  refine ⟨_, _, .step (.step (.step (.step (.step (.step (.step (.step (.step h (again rfl (fun _ => rfl))) (check rfl))
    (collect false rfl)) (hello (k := 0) rfl rfl)) (send (k := 0) rfl rfl)) (ends (k := 0) (ok := true) rfl (fun _ => rfl)))
    (interrupted rfl rfl (fun h => by cases h))) (check rfl)) (reap (k := 0) (ok := true) rfl rfl), ⟨⟨false, by simp⟩, ?_⟩, by simp, ?_⟩
  · intro e he ht
    rcases ht with rfl | ⟨ok, rfl⟩ <;> simp at he
  · intro j ok hj; simp; exact fun h => absurd h hj

open AwStep in
/-- **C117 is violated** when another call ends at the same time: the daemon is woken by the end of 1 (whose call was refused), and before it has waited
for all that have ended, 0 sends its messages and ends. -/
theorem C117_race_violated : ∃ tr s, AwRun tr s ∧ AwLost tr 0 ∧ .sent 0 ∈ tr ∧ ∀ r, .interrupted false ∉ tr ∧ .reaped 1 true r ∉ tr := by
  obtain ⟨s, h, h1, h2, h3, h4, h5⟩ := aw_first
  obtain ⟨pc, flag, signal, room, kids, reported⟩ := s
  subst h1 h2 h3 h4 h5
  refine ⟨_, _, .step (.step (.step (.step (.step (.step (.step (.step (.step (.step (.step (.step h (fork (k := 1) rfl rfl)) (again rfl (fun _ => rfl)))
    (check rfl)) (collect true rfl)) (ends (k := 1) (ok := false) rfl (fun h => by cases h))) (interrupted rfl rfl ?_))
    (hello (k := 0) rfl rfl)) (send (k := 0) rfl rfl)) (ends (k := 0) (ok := true) rfl (fun _ => rfl)))
    (check rfl)) (reap (k := 1) (ok := false) rfl rfl)) (reap (k := 0) (ok := true) rfl rfl), ⟨⟨false, by simp⟩, ?_⟩, by simp, ?_⟩
  · intro _ j
    by_cases h0 : j = 0
    · subst h0; simp [AwSt.set, AwKid.unread]
    · by_cases h1 : j = 1
      · subst h1; simp [AwSt.set, AwKid.unread]
      · simp [AwSt.set, AwKid.unread, h0, h1]
  · intro e he ht
    rcases ht with rfl | ⟨ok, rfl⟩ <;> simp at he
  · intro r; simp [AwSt.set]

open AwStep in
/-- The usual run: the message is read before the process has been waited for, and passed on. -/
theorem C117_example : ∃ tr s, AwRun tr s ∧ (∃ r, .reaped 0 true r ∈ tr) ∧ .answered 0 ∈ tr := by
  obtain ⟨s, h, h1, h2, h3, h4, h5⟩ := aw_first
  obtain ⟨pc, flag, signal, room, kids, reported⟩ := s
  subst h1 h2 h3 h4 h5
  refine ⟨_, _, .step (.step (.step (.step (.step (.step (.step (.step (.step (.step (.step (.step (.step (.step (.step (.step (.step (.step (.step h
    (again rfl (fun _ => rfl))) (check rfl)) (collect true rfl)) (hello (k := 0) rfl rfl)) (send (k := 0) rfl rfl))
    (ends (k := 0) (ok := true) rfl (fun _ => rfl))) (ready rfl)) (readHello (k := 0) rfl rfl rfl)) (again rfl ?_)) (check rfl)) (collect true rfl))
    (ready rfl)) (readFound (k := 0) rfl rfl rfl rfl)) (again rfl ?_)) (check rfl)) (collect true rfl)) (interrupted rfl rfl ?_)) (check rfl))
    (reap (k := 0) (ok := true) rfl rfl), ⟨false, by simp⟩, by simp⟩
  · intro j; by_cases h : j = 0 <;> simp [AwSt.set, AwKid.unread, h]
  · intro j; by_cases h : j = 0 <;> simp [AwSt.set, AwKid.unread, h]
  · intro _ j; by_cases h : j = 0 <;> simp [AwSt.set, AwKid.unread, h]

end Qrexec
