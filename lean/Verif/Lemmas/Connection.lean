import Verif.Model.Connection
import Verif.Props.ExitCode
import Mathlib.Tactic.SplitIfs

/-!
# Lemmas for C118
-/
namespace Qrexec

/-- Nothing that was read or sent is forgotten, and if no send fails (`ok`) none has failed. -/
structure Grow (ok : Prop) (s s' : IoSt) : Prop where
  sent : s.sent <+: s'.sent
  out : s.readOut <+: s'.readOut
  err : s.readErr <+: s'.readErr
  good : ok → s.sendOk = true → s'.sendOk = true

theorem Grow.refl (ok : Prop) (s : IoSt) : Grow ok s s :=
  ⟨List.prefix_refl _, List.prefix_refl _, List.prefix_refl _, fun _ h => h⟩

theorem Grow.same {ok : Prop} {s s' : IoSt} (h1 : s'.sent = s.sent) (h2 : s'.readOut = s.readOut) (h3 : s'.readErr = s.readErr)
    (h4 : s'.sendOk = s.sendOk) : Grow ok s s' :=
  ⟨by rw [h1]; exact List.prefix_refl _, by rw [h2]; exact List.prefix_refl _, by rw [h3]; exact List.prefix_refl _, fun _ h => h4.trans h⟩

theorem Grow.trans {ok : Prop} {a b c : IoSt} (h : Grow ok a b) (k : Grow ok b c) : Grow ok a c :=
  ⟨h.sent.trans k.sent, h.out.trans k.out, h.err.trans k.err, fun o g => k.good o (h.good o g)⟩

theorem remoteLoop_grow (ok : Prop) (c : IoCfg) (q : List InItem) (ks : List Sys) (s : IoSt) : Grow ok s (remoteLoop c q ks s).2 := by
  induction q generalizing ks s with
  | nil => exact Grow.same rfl rfl rfl rfl
  | cons i q ih =>
    cases i with
    | broken => exact Grow.same rfl rfl rfl rfl
    | msg t d =>
      rw [remoteLoop]
      dsimp only
      have cont : ∀ ks' s1, Grow ok s s1 → Grow ok s (remoteLoop c q ks' s1).2 := fun ks' s1 h => h.trans (ih ks' s1)
      split_ifs
      · exact Grow.same rfl rfl rfl rfl
      · exact cont _ _ (Grow.same rfl rfl rfl rfl)
      · exact Grow.same rfl rfl rfl rfl
      · split
        · exact cont _ _ (Grow.same rfl rfl rfl rfl)
        all_goals exact Grow.same rfl rfl rfl rfl
      · split
        · exact cont _ _ (Grow.same rfl rfl rfl rfl)
        all_goals exact Grow.same rfl rfl rfl rfl
      all_goals first | exact cont _ _ (Grow.same rfl rfl rfl rfl) | exact Grow.same rfl rfl rfl rfl

theorem handleRemote_grow (ok : Prop) (c : IoCfg) (ks : List Sys) (s : IoSt) : Grow ok s (handleRemoteData c ks s).2 := by
  unfold handleRemoteData
  split_ifs
  · exact remoteLoop_grow ..
  · split
    · refine Grow.trans ?_ (remoteLoop_grow _ _ _ _ _)
      exact Grow.same rfl rfl rfl rfl
    all_goals exact Grow.same rfl rfl rfl rfl

theorem sendChunk_grow (ok : Prop) (t : Nat) (d : Str) (o : OutStep) (s : IoSt) (ho : ok → o.hdrOk = true ∧ o.bodyOk = true) :
    Grow ok s (sendChunk t d o s).2 := by
  unfold sendChunk
  split_ifs with h1 h2 h3 h4
  · exact ⟨List.prefix_refl _, List.prefix_refl _, List.prefix_refl _, fun k => by rw [(ho k).1] at h1; cases h1⟩
  · exact ⟨List.prefix_refl _, List.prefix_refl _, List.prefix_refl _, fun k => by rw [(ho k).1] at h1; cases h1⟩
  · exact ⟨List.prefix_append .., List.prefix_refl _, List.prefix_refl _, fun _ h => h⟩
  · exact ⟨List.prefix_refl _, List.prefix_refl _, List.prefix_refl _, fun k => absurd (ho k).2 h4⟩
  · exact ⟨List.prefix_append .., List.prefix_refl _, List.prefix_refl _, fun _ h => h⟩

theorem inputOut_grow (ok : Prop) (c : IoCfg) (t : Nat) (os : List OutStep) (s : IoSt)
    (ho : ok → ∀ o ∈ os, o.hdrOk = true ∧ o.bodyOk = true) : Grow ok s (inputOut c t os s).2 := by
  induction os generalizing s with
  | nil => exact Grow.refl ..
  | cons o os ih =>
    have ih := fun s => ih s (fun k x hx => ho k x (List.mem_cons_of_mem _ hx))
    have hoo : ok → o.hdrOk = true ∧ o.bodyOk = true := fun k => ho k o (List.mem_cons_self ..)
    rw [inputOut]
    dsimp only
    have go : ∀ d s1, Grow ok s s1 → Grow ok s (match sendChunk t d o s1 with
        | (none, s) => inputOut c t os s
        | (some r, s) => (r, s)).2 := by
      intro d s1 h
      have h2 := h.trans (sendChunk_grow ok t d o s1 hoo)
      generalize sendChunk t d o s1 = r at h2 ⊢
      obtain ⟨r, s2⟩ := r
      cases r with
      | none => exact h2.trans (ih s2)
      | some r => exact h2
    by_cases h1 : o.space ≤ 8
    · rw [if_pos h1]; exact Grow.refl ..
    rw [if_neg h1]
    by_cases h2 : (s.pfx.length != 0) = true
    · rw [if_pos h2]; exact go _ _ (Grow.same rfl rfl rfl rfl)
    rw [if_neg h2]
    by_cases h3 : (s.stdout == false) = true
    · rw [if_pos h3]; exact Grow.refl ..
    rw [if_neg h3]
    cases o.read with
    | again => exact Grow.refl ..
    | error => exact Grow.refl ..
    | connReset => exact sendChunk_grow ok _ _ _ _ hoo
    | got d => exact go _ _ ⟨List.prefix_refl _, List.prefix_append .., List.prefix_refl _, fun _ h => h⟩

theorem inputErr_grow (ok : Prop) (c : IoCfg) (os : List OutStep) (s : IoSt)
    (ho : ok → ∀ o ∈ os, o.hdrOk = true ∧ o.bodyOk = true) : Grow ok s (inputErr c os s).2 := by
  induction os generalizing s with
  | nil => exact Grow.refl ..
  | cons o os ih =>
    have ih := fun s => ih s (fun k x hx => ho k x (List.mem_cons_of_mem _ hx))
    have hoo : ok → o.hdrOk = true ∧ o.bodyOk = true := fun k => ho k o (List.mem_cons_self ..)
    rw [inputErr]
    dsimp only
    by_cases h1 : o.space ≤ 8
    · rw [if_pos h1]; exact Grow.refl ..
    rw [if_neg h1]
    cases o.read with
    | again => exact Grow.refl ..
    | error => exact Grow.refl ..
    | connReset => exact sendChunk_grow ok _ _ _ _ hoo
    | got d =>
      dsimp only
      have h3 : Grow ok s (s.gotErr c o (d.take (min (o.space - 8).toNat c.maxChunk))) :=
        ⟨List.prefix_refl _, List.prefix_refl _, List.prefix_append .., fun _ h => h⟩
      have h4 := h3.trans (sendChunk_grow ok msgStderr (d.take (min (o.space - 8).toNat c.maxChunk)) o _ hoo)
      generalize sendChunk msgStderr _ o _ = r at h4 ⊢
      obtain ⟨r, s2⟩ := r
      cases r with
      | none => exact h4.trans (ih s2)
      | some r => exact h4

theorem sendEof_grow (ok : Prop) (c : IoCfg) (k : Bool) (s : IoSt) (hk : ok → k = true) : Grow ok s (sendEof c k s) := by
  unfold sendEof
  split_ifs with h
  · exact ⟨List.prefix_append .., List.prefix_refl _, List.prefix_refl _, fun _ h => h⟩
  · exact ⟨List.prefix_refl _, List.prefix_refl _, List.prefix_refl _, fun o => absurd (hk o) h⟩

theorem closeStdin_grow (ok : Prop) (c : IoCfg) (k : Bool) (s : IoSt) (hk : ok → k = true) : Grow ok s (closeStdin c k s) := by
  unfold closeStdin
  dsimp only
  split_ifs
  · exact (sendEof_grow ok c k s hk).trans (Grow.same rfl rfl rfl rfl)
  · exact Grow.same rfl rfl rfl rfl
  · exact Grow.same rfl rfl rfl rfl

theorem closeStdout_grow (ok : Prop) (c : IoCfg) (s : IoSt) : Grow ok s (closeStdout c s) := by
  unfold closeStdout
  split_ifs <;> exact Grow.same rfl rfl rfl rfl

/-- No send of the iteration fails. -/
def SendsOk (t : Tick) : Prop := t.eofOk = true ∧ t.exitCodeOk = true ∧ ∀ o ∈ t.out ++ t.err, o.hdrOk = true ∧ o.bodyOk = true

/-- No send has failed, or there were no prefix data (`P`). -/
def Sure (P : Str) (s : IoSt) : Prop := s.sendOk = true ∨ P = []

/-- Nothing was sent as stdout but the prefix and what was read from it. -/
def HalfOut (c : IoCfg) (P : Str) (s : IoSt) : Prop := Sure P s →
  (outsOf c.outType s.sent).flatten <+: P ++ s.readOut ∧ (s.pfx ≠ [] → (outsOf c.outType s.sent).flatten ++ s.pfx = P ∧ s.readOut = [])

/-- As long as stdout is open, everything read from it was sent. -/
def WOut (c : IoCfg) (P : Str) (s : IoSt) : Prop := HalfOut c P s ∧
  (Sure P s → s.stdout = true → (outsOf c.outType s.sent).flatten ++ s.pfx = P ++ s.readOut)

theorem outsOf_add (t : Nat) (a b : List DMsg) : outsOf t (a ++ b) = outsOf t a ++ outsOf t b := by
  unfold outsOf
  rw [List.filter_append, List.map_append]

theorem flatten_eof (t u : Nat) (l : List DMsg) : (outsOf t (l ++ [(u, [])])).flatten = (outsOf t l).flatten := by
  rw [outsOf_add, List.flatten_append]
  by_cases h : u = t
  · simp [outsOf, h]
  · simp [outsOf, h]

theorem flatten_other (t u : Nat) (d : Str) (l : List DMsg) (h : u ≠ t) : (outsOf t (l ++ [(u, d)])).flatten = (outsOf t l).flatten := by
  rw [outsOf_add, List.flatten_append]
  simp [outsOf, h]

theorem flatten_this (t : Nat) (d : Str) (l : List DMsg) : (outsOf t (l ++ [(t, d)])).flatten = (outsOf t l).flatten ++ d := by
  rw [outsOf_add, List.flatten_append]
  simp [outsOf]

/-- The same outputs. -/
theorem WOut.same {c : IoCfg} {P : Str} {s s' : IoSt} (h : WOut c P s)
    (h1 : (outsOf c.outType s'.sent).flatten = (outsOf c.outType s.sent).flatten)
    (h2 : s'.readOut = s.readOut) (h3 : s'.pfx = s.pfx) (h4 : s'.stdout = true → s.stdout = true)
    (h5 : s'.sendOk = true → s.sendOk = true) : WOut c P s' := by
  unfold WOut HalfOut at h ⊢
  have h6 : Sure P s' → Sure P s := fun k => k.imp h5 id
  rw [h1, h2, h3]
  exact ⟨fun k => h.1 (h6 k), fun k k' => h.2 (h6 k) (h4 k')⟩

theorem sendEof_w {c : IoCfg} {P : Str} {s : IoSt} (ok : Bool) (h : WOut c P s) : WOut c P (sendEof c ok s) := by
  unfold sendEof
  split_ifs
  · exact h.same (flatten_eof ..) rfl rfl id id
  · exact h.same rfl rfl rfl id (fun k => nomatch k)

theorem closeStdin_w {c : IoCfg} {P : Str} {s : IoSt} (ok : Bool) (h : WOut c P s) : WOut c P (closeStdin c ok s) := by
  unfold closeStdin
  dsimp only
  split_ifs
  · exact (sendEof_w ok h).same rfl rfl rfl (fun k => nomatch k) id
  · exact h.same rfl rfl rfl (fun k => nomatch k) id
  · exact h.same rfl rfl rfl id id

theorem closeStdout_w {c : IoCfg} {P : Str} {s : IoSt} (h : HalfOut c P s) : WOut c P (closeStdout c s) := by
  unfold closeStdout
  split_ifs <;> exact ⟨h, fun _ k => nomatch k⟩

/-- What `handle_remote_data_v2` leaves alone. -/
theorem handleRemote_w {c : IoCfg} {P : Str} (ks : List Sys) {s : IoSt} (h : WOut c P s) : WOut c P (handleRemoteData c ks s).2 := by
  have k := handleRemote_out c ks s
  exact h.same (by rw [k.1.sent]) k.1.readOut k.1.pfx (fun x => by rw [← k.1.stdout]; exact x) (fun x => by rw [← k.1.sendOk]; exact x)

theorem inputOut_w (c : IoCfg) (P : Str) (os : List OutStep) (s : IoSt) (h : WOut c P s) :
    HalfOut c P (inputOut c c.outType os s).2 ∧ ((inputOut c c.outType os s).1 ≠ .error → WOut c P (inputOut c c.outType os s).2) := by
  induction os generalizing s with
  | nil => exact ⟨h.1, fun _ => h⟩
  | cons o os ih =>
    rw [inputOut]
    dsimp only
    by_cases h1 : o.space ≤ 8
    · rw [if_pos h1]; exact ⟨h.1, fun _ => h⟩
    rw [if_neg h1]
    by_cases hp : (s.pfx.length != 0) = true
    · rw [if_pos hp]
      have hp : s.pfx ≠ [] := by simpa using hp
      generalize min (o.space - 8).toNat c.maxChunk = len
      have hP : Sure P s → P ≠ [] := fun k e => by
        have := (h.1 k).2 hp
        rw [e] at this
        exact hp (List.append_eq_nil_iff.1 this.1).2
      have bad : ∀ x : IoSt, x.sendOk = false → ¬ Sure P x := by
        intro x hx k
        rcases k with k | k
        · rw [hx] at k; cases k
        · exact hP (.inr k) k
      have vac : ∀ x : IoSt, x.sendOk = false → WOut c P x :=
        fun x hx => ⟨fun k => absurd k (bad x hx), fun k => absurd k (bad x hx)⟩
      have split := List.take_append_drop len s.pfx
      unfold sendChunk
      by_cases e1 : (o.hdrOk == false) = true
      · rw [if_pos e1]
        split_ifs
        · exact ⟨(vac _ rfl).1, fun _ => vac _ rfl⟩
        · exact ⟨(vac _ rfl).1, fun _ => vac _ rfl⟩
      · rw [if_neg e1]
        have sent : WOut c P { s with pfx := s.pfx.drop len, sent := s.sent ++ [(c.outType, s.pfx.take len)] } := by
          refine ⟨fun k => ?_, fun k _ => ?_⟩
          · obtain ⟨a, b⟩ := (h.1 k).2 hp
            rw [flatten_this]
            refine ⟨?_, fun _ => ⟨by rw [List.append_assoc]; dsimp only; rw [split, a], b⟩⟩
            dsimp only
            rw [← a, b, List.append_nil]
            exact (List.prefix_append_right_inj _).2 (List.take_prefix ..)
          · obtain ⟨a, b⟩ := (h.1 k).2 hp
            rw [flatten_this, List.append_assoc]
            dsimp only
            rw [split, a, b, List.append_nil]
        by_cases e2 : ((s.pfx.take len).length != 0) = true
        · rw [if_pos e2]
          by_cases e3 : o.bodyOk = true
          · rw [if_pos e3]
            exact ih _ sent
          · rw [if_neg e3]; exact ⟨(vac _ rfl).1, fun _ => vac _ rfl⟩
        · rw [if_neg e2]
          have e2 : s.pfx.take len = [] := by
            cases hq : s.pfx.take len with
            | nil => rfl
            | cons a l => rw [hq] at e2; exact absurd rfl e2
          rw [e2] at sent
          exact ⟨sent.1, fun _ => sent⟩
    rw [if_neg hp]
    have hp : s.pfx = [] := by simpa using hp
    by_cases h3 : (s.stdout == false) = true
    · rw [if_pos h3]; exact ⟨h.1, fun k => absurd rfl k⟩
    rw [if_neg h3]
    have hso : s.stdout = true := by simpa using h3
    have heq := fun k => h.2 k hso
    rw [hp] at heq
    simp only [List.append_nil] at heq
    cases o.read with
    | again => exact ⟨h.1, fun _ => h⟩
    | error => exact ⟨h.1, fun k => absurd rfl k⟩
    | connReset =>
      have : WOut c P (sendChunk c.outType [] o s).2 := by
        unfold sendChunk
        have e0 : ¬ (([] : Str).length != 0) = true := by decide
        rw [if_neg e0, if_neg e0]
        split_ifs
        · exact h.same rfl rfl rfl id (fun k => nomatch k)
        · exact h.same (flatten_eof ..) rfl rfl id id
      exact ⟨this.1, fun _ => this⟩
    | got d =>
      dsimp only
      generalize List.take _ d = d
      have half : ∀ b : Bool, (b = true → s.sendOk = true) → HalfOut c P { s with readOut := s.readOut ++ d, sendOk := b } :=
        fun b hb k => ⟨by
          rw [← List.append_assoc]
          exact (h.1 (k.imp hb id)).1.trans (List.prefix_append ..), fun k' => absurd hp k'⟩
      unfold sendChunk
      by_cases e1 : (o.hdrOk == false) = true
      · rw [if_pos e1]
        by_cases e2 : (d.length != 0) = true
        · rw [if_pos e2]; exact ⟨half false (fun k => nomatch k), fun k => absurd rfl k⟩
        · rw [if_neg e2]
          have : d = [] := by simpa using e2
          subst this
          have : WOut c P { s with readOut := s.readOut ++ [], sendOk := false } :=
            h.same rfl (List.append_nil _) rfl id (fun k => nomatch k)
          exact ⟨this.1, fun _ => this⟩
      · rw [if_neg e1]
        by_cases e2 : (d.length != 0) = true
        · rw [if_pos e2]
          by_cases e3 : o.bodyOk = true
          · rw [if_pos e3]
            apply ih
            have e : Sure P s → (outsOf c.outType (s.sent ++ [(c.outType, d)])).flatten = P ++ (s.readOut ++ d) := fun k => by
              rw [flatten_this, heq k, List.append_assoc]
            refine ⟨fun k => ⟨by rw [e k]; exact List.prefix_refl _, fun k' => absurd hp k'⟩, fun k _ => ?_⟩
            show (outsOf c.outType (s.sent ++ [(c.outType, d)])).flatten ++ s.pfx = _
            rw [hp, List.append_nil]; exact e k
          · rw [if_neg e3]; exact ⟨half false (fun k => nomatch k), fun k => absurd rfl k⟩
        · rw [if_neg e2]
          have : d = [] := by simpa using e2
          subst this
          have : WOut c P { s with readOut := s.readOut ++ [], sent := s.sent ++ [(c.outType, [])] } :=
            h.same (flatten_eof ..) (List.append_nil _) rfl id id
          exact ⟨this.1, fun _ => this⟩

theorem sendChunk_w_err (c : IoCfg) {P : Str} (d : Str) (o : OutStep) (s : IoSt) (h : WOut c P s) : WOut c P (sendChunk msgStderr d o s).2 := by
  have hne := (outType_ne c).1.symm
  unfold sendChunk
  split_ifs
  · exact h.same rfl rfl rfl id (fun k => nomatch k)
  · exact h.same rfl rfl rfl id (fun k => nomatch k)
  · exact h.same (flatten_other _ _ _ _ hne) rfl rfl id id
  · exact h.same rfl rfl rfl id (fun k => nomatch k)
  · exact h.same (flatten_other _ _ _ _ hne) rfl rfl id id

theorem inputErr_w (c : IoCfg) {P : Str} (os : List OutStep) (s : IoSt) (h : WOut c P s) : WOut c P (inputErr c os s).2 := by
  induction os generalizing s with
  | nil => exact h
  | cons o os ih =>
    rw [inputErr]
    dsimp only
    by_cases h1 : o.space ≤ 8
    · rw [if_pos h1]; exact h
    rw [if_neg h1]
    cases o.read with
    | again => exact h
    | error => exact h
    | connReset => exact sendChunk_w_err _ _ _ _ h
    | got d =>
      dsimp only
      have h3 : WOut c P (s.gotErr c o (d.take (min (o.space - 8).toNat c.maxChunk))) := h.same rfl rfl rfl id id
      have h4 := sendChunk_w_err c (d.take (min (o.space - 8).toNat c.maxChunk)) o _ h3
      generalize sendChunk msgStderr _ o _ = r at h4 ⊢
      obtain ⟨r, s2⟩ := r
      cases r with
      | none => exact ih s2 h4
      | some r => exact h4

/-- What an iteration keeps: `P` while it goes on, `Q` at its end. -/
theorem ioTick_pres (c : IoCfg) (t : Tick) (P Q : IoSt → Prop) (hu : t.usr1 = false) (hPQ : ∀ s, P s → Q s)
    (hIn : ∀ s l, P s → P { s with inbox := l }) (hLoc : ∀ s n, P s → P { s with localStatus := some n })
    (hCin : ∀ s, P s → P (closeStdin c t.eofOk s)) (hCout : ∀ s, Q s → P (closeStdout c s))
    (hEof : ∀ s, P s → P (sendEof c t.eofOk s)) (hRem : ∀ s, P s → P (handleRemoteData c t.writes s).2)
    (hOut : ∀ s, P s → Q (inputOut c c.outType t.out s).2 ∧
      ((inputOut c c.outType t.out s).1 ≠ .error → P (inputOut c c.outType t.out s).2))
    (hErr : ∀ s, P s → P (inputErr c t.err s).2) (hStderr : ∀ s, P s → P { s with stderr := false })
    (hExit : ∀ s d, d.length = 4 → P s → Q { s with sent := s.sent ++ [(msgExitCode, d)] })
    (hFail : ∀ s, P s → t.exitCodeOk = false → Q { s with sendOk := false }) (s : IoSt) (h : P s) :
    (∀ s', ioTick c t s = .next s' → P s') ∧ Q (ioTick c t s).st := by
  have key : ∀ r : IoStep, (∀ s', r = .next s' → P s') → (∀ s', r = .leave s' ∨ r = .exit1 s' ∨ r = .abort s' → Q s') →
      (∀ s', r = .next s' → P s') ∧ Q r.st := by
    intro r h1 h2
    refine ⟨h1, ?_⟩
    cases r with
    | next x => exact hPQ _ (h1 x rfl)
    | leave x => exact h2 x (.inl rfl)
    | exit1 x => exact h2 x (.inr (.inl rfl))
    | abort x => exact h2 x (.inr (.inr rfl))
  have nx : ∀ x, P x → (∀ s', IoStep.next x = .next s' → P s') ∧ Q (IoStep.next x).st :=
    fun x hx => ⟨fun s' e => by cases e; exact hx, hPQ _ hx⟩
  have lv : ∀ x, Q x → (∀ s', IoStep.leave x = .next s' → P s') ∧ Q (IoStep.leave x).st :=
    fun x hx => ⟨(fun s' e => nomatch e), hx⟩
  have ex : ∀ x, Q x → (∀ s', IoStep.exit1 x = .next s' → P s') ∧ Q (IoStep.exit1 x).st :=
    fun x hx => ⟨(fun s' e => nomatch e), hx⟩
  have ab : ∀ x, Q x → (∀ s', IoStep.abort x = .next s' → P s') ∧ Q (IoStep.abort x).st :=
    fun x hx => ⟨(fun s' e => nomatch e), hx⟩
  have h1 : P (ioReap c t { s with inbox := s.inbox ++ t.arrive }) := by
    unfold ioReap
    split
    · exact hIn _ _ h
    · split_ifs
      · exact hCin _ (hLoc _ _ (hIn _ _ h))
      · exact hIn _ _ h
  unfold ioTick
  dsimp only
  generalize ioReap c t { s with inbox := s.inbox ++ t.arrive } = s1 at h1 ⊢
  have usr : ioUsr1 c t s1 = s1 := by unfold ioUsr1; rw [hu]; rfl
  rw [usr]
  have poll : (∀ s', ioPoll c t s1 = .next s' → P s') ∧ Q (ioPoll c t s1).st := by
    unfold ioPoll
    cases t.poll with
    | eintr => exact nx _ h1
    | error => exact lv _ (hPQ _ h1)
    | ready =>
      dsimp only
      by_cases hw : t.waitFails = true
      · rw [if_pos hw]; exact ex _ (hPQ _ h1)
      rw [if_neg hw]
      have h3 : P (if t.stdinHup && s1.stdin then closeStdin c t.eofOk s1 else s1) := by
        split_ifs
        · exact hCin _ h1
        · exact h1
      generalize (if t.stdinHup && s1.stdin then closeStdin c t.eofOk s1 else s1) = s3 at h3 ⊢
      have h4 : (∀ s', ioRemote c t s3 = .next s' → P s') ∧ Q (ioRemote c t s3).st := by
        unfold ioRemote
        have := hRem s3 h3
        generalize handleRemoteData c t.writes s3 = r at this ⊢
        obtain ⟨r, s4⟩ := r
        cases r with
        | error => exact ex _ (hPQ _ this)
        | aborted => exact ab _ (hPQ _ this)
        | eof => exact nx _ (hCin _ this)
        | exited =>
          refine nx _ (hCout _ (hPQ _ ?_))
          split_ifs
          · exact hEof _ this
          · exact this
        | ok => exact nx _ this
      generalize ioRemote c t s3 = r at h4 ⊢
      cases r with
      | leave s4 => exact lv _ h4.2
      | exit1 s4 => exact ex _ h4.2
      | abort s4 => exact ab _ h4.2
      | next s4 =>
        have h4 := h4.1 _ rfl
        dsimp only
        generalize (t.outReady && s1.pfx.length == 0 && s1.stdout) = oready
        generalize (t.errReady && s1.stderr) = eready
        have h5 : (∀ s', ioOut c t oready s4 = .next s' → P s') ∧ Q (ioOut c t oready s4).st := by
          unfold ioOut
          by_cases hb : (s4.pfx.length != 0 || (s4.stdout && oready)) = true
          · rw [if_pos hb]
            have := hOut s4 h4
            generalize inputOut c c.outType t.out s4 = r at this ⊢
            obtain ⟨r, s5⟩ := r
            cases r with
            | error =>
              by_cases hb : (!c.isService && s5.remoteStatus == -1) = true
              · simp only [if_pos hb]; exact nx _ (hCout _ this.1)
              · simp only [if_neg hb]; exact ex _ this.1
            | eof => exact nx _ (hCout _ this.1)
            | aborted => exact nx _ (this.2 (fun e => nomatch e))
            | exited => exact nx _ (this.2 (fun e => nomatch e))
            | ok => exact nx _ (this.2 (fun e => nomatch e))
          · rw [if_neg hb]; exact nx _ h4
        generalize ioOut c t oready s4 = r at h5 ⊢
        cases r with
        | leave s5 => exact lv _ h5.2
        | exit1 s5 => exact ex _ h5.2
        | abort s5 => exact ab _ h5.2
        | next s5 =>
          have h5 := h5.1 _ rfl
          dsimp only
          unfold ioErr
          by_cases hb : (s5.stderr && eready) = true
          · rw [if_pos hb]
            have := hErr s5 h5
            generalize inputErr c t.err s5 = r at this ⊢
            obtain ⟨r, s6⟩ := r
            cases r with
            | error => exact ex _ (hPQ _ this)
            | eof => exact nx _ (hStderr _ this)
            | aborted => exact nx _ this
            | exited => exact nx _ this
            | ok => exact nx _ this
          · rw [if_neg hb]; exact nx _ h5
  have rest : (∀ s', (if !t.vchanOpen && s1.inbox.isEmpty && s1.buf.length == 0 then IoStep.leave s1 else ioPoll c t s1) = .next s' → P s') ∧
      Q (if !t.vchanOpen && s1.inbox.isEmpty && s1.buf.length == 0 then IoStep.leave s1 else ioPoll c t s1).st := by
    by_cases hb : (!t.vchanOpen && s1.inbox.isEmpty && s1.buf.length == 0) = true
    · rw [if_pos hb]; exact lv _ (hPQ _ h1)
    · rw [if_neg hb]; exact poll
  unfold ioAllDone
  by_cases a1 : (s1.stdin == false && s1.stdout == false && s1.stderr == false) = true
  · rw [if_pos a1]
    by_cases a2 : c.isService = true
    · rw [if_pos a2]
      by_cases a3 : (!c.hasPid || s1.localStatus.isSome) = true
      · rw [if_pos a3]
        by_cases a4 : t.exitCodeOk = true
        · rw [if_pos a4]; exact lv _ (hExit _ _ (by simp [i32le, u32le]) h1)
        · rw [if_neg a4]; exact ex _ (hFail _ h1 (by simpa using a4))
      · rw [if_neg a3]; exact rest
    · rw [if_neg a2]
      by_cases a3 : ((!c.hasPid || s1.localStatus.isSome) && decide (s1.remoteStatus ≥ 0)) = true
      · rw [if_pos a3]; exact lv _ (hPQ _ h1)
      · rw [if_neg a3]; exact rest
  · rw [if_neg a1]; exact rest

theorem ioTick_grow (ok : Prop) (c : IoCfg) (t : Tick) (s : IoSt) (hu : t.usr1 = false) (ho : ok → SendsOk t) :
    Grow ok s (ioTick c t s).st := by
  refine (ioTick_pres c t (Grow ok s) (Grow ok s) hu (fun _ h => h) ?_ ?_ ?_ ?_ ?_ ?_ ?_ ?_ ?_ ?_ ?_ s (Grow.refl ..)).2
  · exact fun x l h => h.trans (Grow.same rfl rfl rfl rfl)
  · exact fun x n h => h.trans (Grow.same rfl rfl rfl rfl)
  · exact fun x h => h.trans (closeStdin_grow ok c _ x (fun k => (ho k).1))
  · exact fun x h => h.trans (closeStdout_grow ok c x)
  · exact fun x h => h.trans (sendEof_grow ok c _ x (fun k => (ho k).1))
  · exact fun x h => h.trans (handleRemote_grow ok c _ x)
  · exact fun x h =>
      have := h.trans (inputOut_grow ok c c.outType t.out x (fun k o ho' => (ho k).2.2 o (List.mem_append_left _ ho')))
      ⟨this, fun _ => this⟩
  · exact fun x h => h.trans (inputErr_grow ok c t.err x (fun k o ho' => (ho k).2.2 o (List.mem_append_right _ ho')))
  · exact fun x h => h.trans (Grow.same rfl rfl rfl rfl)
  · exact fun x d _ h => h.trans ⟨List.prefix_append .., List.prefix_refl _, List.prefix_refl _, fun _ h => h⟩
  · exact fun x h hx => h.trans ⟨List.prefix_refl _, List.prefix_refl _, List.prefix_refl _, fun k => by
      rw [(ho k).2.1] at hx; cases hx⟩

theorem ioTick_w (c : IoCfg) (P : Str) (t : Tick) (s : IoSt) (hu : t.usr1 = false) (h : WOut c P s) :
    (∀ s', ioTick c t s = .next s' → WOut c P s') ∧ HalfOut c P (ioTick c t s).st := by
  refine ioTick_pres c t (WOut c P) (HalfOut c P) hu (fun _ h => h.1) ?_ ?_ ?_ ?_ ?_ ?_ ?_ ?_ ?_ ?_ ?_ s h
  · exact fun x l h => h.same rfl rfl rfl id id
  · exact fun x n h => h.same rfl rfl rfl id id
  · exact fun x h => closeStdin_w _ h
  · exact fun x h => closeStdout_w h
  · exact fun x h => sendEof_w _ h
  · exact fun x h => handleRemote_w _ h
  · exact fun x h => inputOut_w c P t.out x h
  · exact fun x h => inputErr_w c t.err x h
  · exact fun x h => h.same rfl rfl rfl id id
  · exact fun x d _ h => (h.same (s' := { x with sent := x.sent ++ [(msgExitCode, d)] }) (flatten_other _ _ _ _ (outType_ne c).2.symm) rfl rfl id id).1
  · exact fun x h _ => (h.same (s' := { x with sendOk := false }) rfl rfl rfl id (fun k => nomatch k)).1

theorem start_w (c : IoCfg) (socket hasErr : Bool) (buf pfx : Str) : WOut c pfx (ioStart c socket hasErr buf pfx) := by
  have : (outsOf c.outType (ioStart c socket hasErr buf pfx).sent).flatten = [] := by
    unfold ioStart
    dsimp only
    split_ifs
    · have := flatten_eof c.outType msgStderr []
      rw [List.nil_append] at this
      rw [this]; rfl
    · rfl
  refine ⟨fun _ => ⟨by rw [this]; exact List.nil_prefix, fun _ => ⟨by rw [this]; rfl, rfl⟩⟩, fun _ _ => ?_⟩
  rw [this, List.nil_append]
  exact (List.append_nil _).symm

theorem ioRun_w (c : IoCfg) (P : Str) (ts : List Tick) (s : IoSt) (hu : ∀ t ∈ ts, t.usr1 = false) (h : WOut c P s) :
    HalfOut c P (ioRun c ts s).st := by
  induction ts generalizing s with
  | nil => exact h.1
  | cons t ts ih =>
    have ht := ioTick_w c P t s (hu t (List.mem_cons_self ..)) h
    rw [ioRun]
    generalize ioTick c t s = r at ht ⊢
    cases r with
    | next s1 => exact ih s1 (fun t h => hu t (List.mem_cons_of_mem _ h)) (ht.1 _ rfl)
    | leave s1 => exact ht.2
    | exit1 s1 => exact ht.2
    | abort s1 => exact ht.2

/-! ## The sizes of the messages -/

/-- No message is too long, and there are data of one type only. -/
def SizeOk (c : IoCfg) (s : IoSt) : Prop := ∀ m ∈ s.sent, m.2.length ≤ max c.maxChunk 4 ∧ (m.1 = c.outType ∨ isDataType m.1 = false)

theorem SizeOk.same {c : IoCfg} {s s' : IoSt} (h : SizeOk c s) (e : s'.sent = s.sent) : SizeOk c s' := by
  unfold SizeOk; rw [e]; exact h

theorem SizeOk.add {c : IoCfg} {s s' : IoSt} (h : SizeOk c s) (t : Nat) (d : Str) (e : s'.sent = s.sent ++ [(t, d)])
    (h1 : d.length ≤ max c.maxChunk 4) (h2 : t = c.outType ∨ isDataType t = false) : SizeOk c s' := by
  unfold SizeOk
  rw [e]
  intro m hm
  rcases List.mem_append.1 hm with hm | hm
  · exact h m hm
  · rw [List.mem_singleton.1 hm]; exact ⟨h1, h2⟩

theorem sendChunk_size {c : IoCfg} {s : IoSt} (h : SizeOk c s) (t : Nat) (d : Str) (o : OutStep)
    (h1 : d.length ≤ c.maxChunk) (h2 : t = c.outType ∨ isDataType t = false) : SizeOk c (sendChunk t d o s).2 := by
  have h1 : d.length ≤ max c.maxChunk 4 := Nat.le_trans h1 (Nat.le_max_left ..)
  unfold sendChunk
  split_ifs
  · exact h.same rfl
  · exact h.same rfl
  · exact h.add t d rfl h1 h2
  · exact h.same rfl
  · exact h.add t [] rfl (Nat.zero_le _) h2

theorem inputOut_size (c : IoCfg) (os : List OutStep) (s : IoSt) (h : SizeOk c s) : SizeOk c (inputOut c c.outType os s).2 := by
  induction os generalizing s with
  | nil => exact h
  | cons o os ih =>
    rw [inputOut]
    dsimp only
    have cut : ∀ d : Str, (d.take (min (o.space - 8).toNat c.maxChunk)).length ≤ c.maxChunk := fun d => by
      rw [List.length_take]; omega
    have go : ∀ (d : Str) (s1 : IoSt), d.length ≤ c.maxChunk → SizeOk c s1 → SizeOk c (match sendChunk c.outType d o s1 with
        | (none, s) => inputOut c c.outType os s
        | (some r, s) => (r, s)).2 := by
      intro d s1 hd h1
      have h2 := sendChunk_size h1 c.outType d o hd (.inl rfl)
      generalize sendChunk c.outType d o s1 = r at h2 ⊢
      obtain ⟨r, s2⟩ := r
      cases r with
      | none => exact ih s2 h2
      | some r => exact h2
    by_cases h1 : o.space ≤ 8
    · rw [if_pos h1]; exact h
    rw [if_neg h1]
    by_cases h2 : (s.pfx.length != 0) = true
    · rw [if_pos h2]; exact go _ _ (cut _) (h.same rfl)
    rw [if_neg h2]
    by_cases h3 : (s.stdout == false) = true
    · rw [if_pos h3]; exact h
    rw [if_neg h3]
    cases o.read with
    | again => exact h
    | error => exact h
    | connReset => exact sendChunk_size h _ _ _ (Nat.zero_le _) (.inl rfl)
    | got d => exact go _ _ (cut _) (h.same rfl)

theorem inputErr_size (c : IoCfg) (os : List OutStep) (s : IoSt) (h : SizeOk c s) : SizeOk c (inputErr c os s).2 := by
  induction os generalizing s with
  | nil => exact h
  | cons o os ih =>
    rw [inputErr]
    dsimp only
    by_cases h1 : o.space ≤ 8
    · rw [if_pos h1]; exact h
    rw [if_neg h1]
    cases o.read with
    | again => exact h
    | error => exact h
    | connReset => exact sendChunk_size h _ _ _ (Nat.zero_le _) (.inr rfl)
    | got d =>
      dsimp only
      have h4 := sendChunk_size (s := s.gotErr c o (d.take (min (o.space - 8).toNat c.maxChunk))) (h.same rfl) msgStderr
        (d.take (min (o.space - 8).toNat c.maxChunk)) o (by rw [List.length_take]; omega) (.inr rfl)
      generalize sendChunk msgStderr _ o _ = r at h4 ⊢
      obtain ⟨r, s2⟩ := r
      cases r with
      | none => exact ih s2 h4
      | some r => exact h4

theorem sendEof_size {c : IoCfg} {s : IoSt} (ok : Bool) (h : SizeOk c s) : SizeOk c (sendEof c ok s) := by
  unfold sendEof
  split_ifs
  · exact h.add _ [] rfl (Nat.zero_le _) (.inl rfl)
  · exact h.same rfl

theorem ioTick_size (c : IoCfg) (t : Tick) (s : IoSt) (hu : t.usr1 = false) (h : SizeOk c s) : SizeOk c (ioTick c t s).st := by
  refine (ioTick_pres c t (SizeOk c) (SizeOk c) hu (fun _ h => h) ?_ ?_ ?_ ?_ ?_ ?_ ?_ ?_ ?_ ?_ ?_ s h).2
  · exact fun x l h => h.same rfl
  · exact fun x n h => h.same rfl
  · intro x h
    unfold closeStdin
    dsimp only
    split_ifs
    · exact (sendEof_size _ h).same rfl
    · exact h.same rfl
    · exact h.same rfl
  · intro x h
    unfold closeStdout
    split_ifs <;> exact h.same rfl
  · exact fun x h => sendEof_size _ h
  · exact fun x h => h.same (handleRemote_out c t.writes x).1.sent
  · exact fun x h => ⟨inputOut_size c t.out x h, fun _ => inputOut_size c t.out x h⟩
  · exact fun x h => inputErr_size c t.err x h
  · exact fun x h => h.same rfl
  · exact fun x d hd h => h.add _ d rfl (by rw [hd]; exact Nat.le_max_right ..) (.inr rfl)
  · exact fun x h _ => h.same rfl

theorem ioRun_size (c : IoCfg) (ts : List Tick) (s : IoSt) (hu : ∀ t ∈ ts, t.usr1 = false) (h : SizeOk c s) :
    SizeOk c (ioRun c ts s).st := by
  induction ts generalizing s with
  | nil => exact h
  | cons t ts ih =>
    have ht := ioTick_size c t s (hu t (List.mem_cons_self ..)) h
    rw [ioRun]
    generalize ioTick c t s = r at ht ⊢
    cases r with
    | next s1 => exact ih s1 (fun t h => hu t (List.mem_cons_of_mem _ h)) ht
    | leave s1 => exact ht
    | exit1 s1 => exact ht
    | abort s1 => exact ht

/-- A service leaves the loop behind its exit message, or when the vchan is closed. -/
theorem ioTick_leave_service (c : IoCfg) (hc : c.isService = true) (t : Tick) (s s' : IoSt) (hp : t.poll ≠ .error)
    (h : ioTick c t s = .leave s') : t.vchanOpen = false ∨ ∃ d, (0x193, d) ∈ s'.sent := by
  unfold ioTick at h
  dsimp only at h
  generalize ioReap c t { s with inbox := s.inbox ++ t.arrive } = s2 at h
  have hn : ∀ x, (if !t.vchanOpen && s2.inbox.isEmpty && s2.buf.length == 0 then IoStep.leave s2 else ioPoll c t x) = .leave s' →
      t.vchanOpen = false := by
    intro x hx
    by_cases hv : (!t.vchanOpen && s2.inbox.isEmpty && s2.buf.length == 0) = true
    · simp at hv; exact hv.1.1
    · rw [if_neg hv] at hx
      exact absurd hx (ioPoll_noLeave c t _ _ hp)
  unfold ioAllDone at h
  by_cases a1 : (s2.stdin == false && s2.stdout == false && s2.stderr == false) = true
  · rw [if_pos a1, if_pos hc] at h
    by_cases a3 : (!c.hasPid || s2.localStatus.isSome) = true
    · rw [if_pos a3] at h
      by_cases a4 : t.exitCodeOk = true
      · rw [if_pos a4] at h
        cases h
        exact .inr ⟨_, List.mem_append_right _ (List.mem_singleton.2 rfl)⟩
      · rw [if_neg a4] at h; cases h
    · rw [if_neg a3] at h; exact .inl (hn _ h)
  · rw [if_neg a1] at h; exact .inl (hn _ h)

end Qrexec
