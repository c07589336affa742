import Verif.Lemmas.DataIn

/-!
# Lemmas on the outgoing direction of the data connection
-/
namespace Qrexec

theorem outsOf_snoc (t : Nat) (l : List DMsg) (m : DMsg) :
    outsOf t (l ++ [m]) = if m.1 = t then outsOf t l ++ [m.2] else outsOf t l := by
  unfold outsOf
  rw [List.filter_append, List.map_append]
  by_cases h : m.1 = t
  · rw [if_pos h]; simp [h]
  · rw [if_neg h]; simp [h]

/-- Open channel: data so far, no end of file. -/
def OpenChan (t : Nat) (data : Str) (sent : List DMsg) : Prop :=
  [] ∉ outsOf t sent ∧ (outsOf t sent).flatten = data

theorem OpenChan.channel {t data sent} (h : OpenChan t data sent) (strict : Prop) (o : Bool) (ho : strict → o = true) :
    Channel strict t o data sent := ⟨outsOf t sent, h.1, h.2, .inl ⟨rfl, ho⟩⟩

theorem Channel.open' {strict t data sent} (h : Channel strict t true data sent) : OpenChan t data sent := by
  obtain ⟨c, h1, h2, h3⟩ := h
  rcases h3 with ⟨h3, _⟩ | ⟨_, h3⟩
  · exact ⟨h3 ▸ h1, h3 ▸ h2⟩
  · cases h3

theorem OpenChan.eof {t data sent} (h : OpenChan t data sent) (strict : Prop) :
    Channel strict t false data (sent ++ [(t, [])]) :=
  ⟨outsOf t sent, h.1, h.2, .inr ⟨by rw [outsOf_snoc, if_pos rfl], rfl⟩⟩

theorem OpenChan.chunk {t data sent} (h : OpenChan t data sent) (d : Str) (hd : d ≠ []) :
    OpenChan t (data ++ d) (sent ++ [(t, d)]) := by
  refine ⟨?_, ?_⟩
  · rw [outsOf_snoc, if_pos rfl]
    simp only [List.mem_append, List.mem_singleton, not_or]
    exact ⟨h.1, fun e => hd e.symm⟩
  · rw [outsOf_snoc, if_pos rfl]
    simp [h.2]

theorem Channel.other {strict t o data sent} (h : Channel strict t o data sent) (m : DMsg) (hm : m.1 ≠ t) :
    Channel strict t o data (sent ++ [m]) := by
  obtain ⟨c, h1, h2, h3⟩ := h
  refine ⟨c, h1, h2, ?_⟩
  rw [outsOf_snoc, if_neg hm]; exact h3

/-! ## The invariant of the outgoing direction -/

/-- Local stdout: `pfx0` the prefix data at the start. -/
def OutInv (c : IoCfg) (strict : Prop) (pfx0 : Str) (s : IoSt) : Prop :=
  s.sendOk = true → (∃ data, data ++ s.pfx = pfx0 ++ s.readOut ∧ (s.pfx ≠ [] → s.readOut = []) ∧
    Channel strict c.outType s.stdout data s.sent) ∧ (s.stdout = true ∨ s.pfx = [])

/-- Local stderr. -/
def ErrInv (c : IoCfg) (s : IoSt) : Prop := s.sendOk = true → Channel (c.isService = true) msgStderr s.stderr s.readErr s.sent

/-- Sizes and types of messages. -/
def SentOk (c : IoCfg) (s : IoSt) : Prop :=
  ∀ m ∈ s.sent, m.2.length ≤ c.maxChunk ∧ (m.1 = c.outType ∨ m.1 = msgStderr ∧ c.isService = true)

theorem outType_ne (c : IoCfg) : c.outType ≠ msgStderr ∧ c.outType ≠ msgExitCode := by
  unfold IoCfg.outType; split_ifs <;> decide

/-- Everything about sending that a step may rely on. -/
structure OutAll (c : IoCfg) (strict : Prop) (pfx0 : Str) (s : IoSt) : Prop where
  out : OutInv c strict pfx0 s
  err : ErrInv c s
  sent : SentOk c s
  client : c.isService = false → s.stderr = false

/-- Result of `sendChunk`. -/
theorem sendChunk_cases (t : Nat) (d : Str) (o : OutStep) (s : IoSt) :
    (∃ r, sendChunk t d o s = (some r, { s with sendOk := false })) ∨
    d ≠ [] ∧ sendChunk t d o s = (none, { s with sent := s.sent ++ [(t, d)] }) ∨
    d = [] ∧ sendChunk t d o s = (some .eof, { s with sent := s.sent ++ [(t, [])] }) := by
  unfold sendChunk
  cases d with
  | nil =>
    by_cases h : o.hdrOk = true
    · right; right; simp [h]
    · left; simp [h]
  | cons a d =>
    by_cases h : o.hdrOk = true
    · by_cases h2 : o.bodyOk = true
      · right; left; simp [h, h2]
      · left; simp [h, h2]
    · left; simp [h]

/-- Result of `handle_input_v2` on stdout. -/
structure InputOutOk (c : IoCfg) (pfx0 : Str) (os : List OutStep) (s : IoSt) (r : Rc) (s' : IoSt) : Prop where
  stdout : s'.stdout = s.stdout
  stderr : s'.stderr = s.stderr
  readErr : s'.readErr = s.readErr
  remote : s'.remoteStatus = s.remoteStatus
  loc : s'.localStatus = s.localStatus
  mono : s'.sendOk = true → s.sendOk = true
  sent : SentOk c s'
  others : ∀ t, t ≠ c.outType → outsOf t s'.sent = outsOf t s.sent
  noExit : r ≠ .exited ∧ r ≠ .aborted
  data : s'.sendOk = true → ∃ data, data ++ s'.pfx = pfx0 ++ s'.readOut ∧ (s'.pfx ≠ [] → s'.readOut = []) ∧
    (r ≠ .eof → OpenChan c.outType data s'.sent) ∧ (r = .eof → s'.pfx = [] ∧ Channel True c.outType false data s'.sent) ∧
    (r = .error → s'.pfx = [] ∧ ∃ o ∈ os, o.read = .error)
  saved : s'.saved = s.saved ∧ s'.single = s.single

theorem inputOut_spec (c : IoCfg) (hc : 1 ≤ c.maxChunk) (pfx0 : Str) (os : List OutStep) (s : IoSt)
    (hout : s.sendOk = true → s.stdout = true) (hsent : SentOk c s)
    (hd : s.sendOk = true → ∃ data, data ++ s.pfx = pfx0 ++ s.readOut ∧ (s.pfx ≠ [] → s.readOut = []) ∧
      OpenChan c.outType data s.sent) :
    InputOutOk c pfx0 os s (inputOut c c.outType os s).1 (inputOut c c.outType os s).2 := by
  induction os generalizing s with
  | nil =>
    refine ⟨rfl, rfl, rfl, rfl, rfl, id, hsent, fun _ _ => rfl, by simp [inputOut], fun h => ?_, rfl, rfl⟩
    obtain ⟨data, h1, h2, h3⟩ := hd h
    exact ⟨data, h1, h2, fun _ => h3, by simp [inputOut], by simp [inputOut]⟩
  | cons o os ih =>
    have stop : ∀ r : Rc, (r = .ok ∨ r = .error ∧ s.pfx = [] ∧ o.read = .error) →
        InputOutOk c pfx0 (o :: os) s r s := by
      intro r hr
      refine ⟨rfl, rfl, rfl, rfl, rfl, id, hsent, fun _ _ => rfl, by rcases hr with rfl | ⟨rfl, _⟩ <;> simp,
        fun h => ?_, rfl, rfl⟩
      obtain ⟨data, h1, h2, h3⟩ := hd h
      refine ⟨data, h1, h2, fun _ => h3, fun he => ?_, fun he => ?_⟩
      · rcases hr with rfl | ⟨rfl, _⟩ <;> cases he
      · rcases hr with rfl | ⟨_, h4, h5⟩
        · cases he
        · exact ⟨h4, o, List.mem_cons_self .., h5⟩
    have failed : ∀ (r : Rc) (s1 : IoSt), (r ≠ .exited ∧ r ≠ .aborted) → s1.sendOk = false → s1.stdout = s.stdout → s1.stderr = s.stderr →
        s1.readErr = s.readErr → s1.remoteStatus = s.remoteStatus → s1.localStatus = s.localStatus → s1.sent = s.sent →
        s1.saved = s.saved → s1.single = s.single →
        InputOutOk c pfx0 (o :: os) s r s1 := by
      intro r s1 h0 h1 h2 h3 h4 h5 h6 h7 h8 h9
      refine ⟨h2, h3, h4, h5, h6, fun h => ?_, ?_, fun _ _ => by rw [h7], h0, fun h => ?_, h8, h9⟩
      · rw [h1] at h; cases h
      · unfold SentOk; rw [h7]; exact hsent
      · rw [h1] at h; cases h
    -- a data chunk or an end of file that goes out
    have go : ∀ (d : Str) (s1 : IoSt), d.length ≤ c.maxChunk → s1.stdout = s.stdout → s1.stderr = s.stderr →
        s1.readErr = s.readErr → s1.remoteStatus = s.remoteStatus → s1.localStatus = s.localStatus → s1.sent = s.sent →
        s1.sendOk = s.sendOk → s1.saved = s.saved → s1.single = s.single →
        (s.sendOk = true → ∃ data, (data ++ d) ++ s1.pfx = pfx0 ++ s1.readOut ∧ (s1.pfx ≠ [] → s1.readOut = []) ∧
          OpenChan c.outType data s.sent ∧ (d = [] → s1.pfx = [])) →
        InputOutOk c pfx0 (o :: os) s
          (match sendChunk c.outType d o s1 with
            | (none, s) => inputOut c c.outType os s
            | (some r, s) => (r, s)).1
          (match sendChunk c.outType d o s1 with
            | (none, s) => inputOut c c.outType os s
            | (some r, s) => (r, s)).2 := by
      intro d s1 hdl h2 h3 h4 h5 h6 h7 h7' h8 h9 hdat
      have hnew : ∀ m ∈ s1.sent ++ [(c.outType, d)], m.2.length ≤ c.maxChunk ∧
          (m.1 = c.outType ∨ m.1 = msgStderr ∧ c.isService = true) := by
        intro m hm
        rcases List.mem_append.1 hm with hm | hm
        · rw [h7] at hm; exact hsent m hm
        · rw [List.mem_singleton.1 hm]; exact ⟨hdl, .inl rfl⟩
      have hoth : ∀ t, t ≠ c.outType → outsOf t (s1.sent ++ [(c.outType, d)]) = outsOf t s.sent := by
        intro t ht
        rw [outsOf_snoc, if_neg (Ne.symm ht), h7]
      rcases sendChunk_cases c.outType d o s1 with ⟨r, hr⟩ | ⟨hne, hr⟩ | ⟨he, hr⟩
      · have hrr : r ≠ .exited ∧ r ≠ .aborted := by
          have := congrArg Prod.fst hr
          unfold sendChunk at this
          split_ifs at this <;> simp at this <;> subst this <;> simp
        rw [hr]
        exact failed r _ hrr rfl h2 h3 h4 h5 h6 h7 h8 h9
      · rw [hr]
        have := ih { s1 with sent := s1.sent ++ [(c.outType, d)] } (fun hk => h2.trans (hout (h7' ▸ hk))) hnew (fun hk => by
          obtain ⟨data, a1, a2, a3, _⟩ := hdat (h7' ▸ hk)
          refine ⟨data ++ d, a1, a2, ?_⟩
          show OpenChan c.outType _ (s1.sent ++ [(c.outType, d)])
          rw [h7]; exact a3.chunk d hne)
        refine ⟨this.stdout.trans h2, this.stderr.trans h3, this.readErr.trans h4, this.remote.trans h5, this.loc.trans h6,
          fun h => h7' ▸ this.mono h, this.sent, fun t ht => (this.others t ht).trans (hoth t ht), this.noExit, fun h => ?_,
          this.saved.1.trans h8, this.saved.2.trans h9⟩
        obtain ⟨data, b1, b2, b3, b4, b5⟩ := this.data h
        refine ⟨data, b1, b2, b3, b4, fun he => ?_⟩
        obtain ⟨b6, x, hx, b7⟩ := b5 he
        exact ⟨b6, x, List.mem_cons_of_mem _ hx, b7⟩
      · rw [hr]
        subst he
        refine ⟨h2, h3, h4, h5, h6, fun h => h7' ▸ h, hnew, hoth, by simp, fun h => ?_, h8, h9⟩
        obtain ⟨data, a1, a2, a3, a4⟩ := hdat (h7' ▸ h)
        rw [List.append_nil] at a1
        refine ⟨data, a1, a2, by simp, fun _ => ⟨a4 rfl, ?_⟩, by simp⟩
        show Channel True c.outType false data (s1.sent ++ [(c.outType, [])])
        rw [h7]; exact a3.eof True
    rw [inputOut]
    dsimp only
    by_cases h1 : o.space ≤ 8
    · rw [if_pos h1]; exact stop .ok (.inl rfl)
    rw [if_neg h1]
    generalize hlen : min (o.space - 8).toNat c.maxChunk = len
    have hlen1 : 1 ≤ len := by omega
    have hlen2 : len ≤ c.maxChunk := by omega
    by_cases h2 : (s.pfx.length != 0) = true
    · rw [if_pos h2]
      have hp : s.pfx ≠ [] := by
        intro h; rw [h] at h2; simp at h2
      refine go _ _ (by rw [List.length_take]; omega) rfl rfl rfl rfl rfl rfl rfl rfl rfl (fun hk => ?_)
      obtain ⟨data, a1, a2, a3⟩ := hd hk
      refine ⟨data, ?_, ?_, a3, ?_⟩
      · simp only [List.append_assoc]
        rw [List.take_append_drop]; exact a1
      · intro _; exact a2 hp
      · intro he
        have := congrArg List.length he
        rw [List.length_take, List.length_nil] at this
        have : 0 < s.pfx.length := List.length_pos_iff.2 hp
        omega
    rw [if_neg h2]
    have hp : s.pfx = [] := by
      have : s.pfx.length = 0 := by simpa using h2
      exact List.eq_nil_of_length_eq_zero this
    by_cases h3 : s.stdout = true
    rotate_left
    · rw [if_pos (by simpa using h3)]
      have hk : s.sendOk = false := by
        cases hk : s.sendOk with
        | false => rfl
        | true => exact absurd (hout hk) h3
      exact failed .error s (by simp) hk rfl rfl rfl rfl rfl rfl rfl rfl
    rw [if_neg (by rw [h3]; simp)]
    cases hr : o.read with
    | again => exact stop .ok (.inl rfl)
    | error => exact stop .error (.inr ⟨rfl, hp, hr⟩)
    | connReset =>
      dsimp only
      have := go [] s (by simp) rfl rfl rfl rfl rfl rfl rfl rfl rfl (fun hk => by
        obtain ⟨data, a1, a2, a3⟩ := hd hk
        exact ⟨data, by simpa using a1, a2, a3, fun _ => hp⟩)
      rcases sendChunk_cases c.outType [] o s with ⟨r, hr⟩ | ⟨hne, hr⟩ | ⟨he, hr⟩
      · rw [hr] at this ⊢; exact this
      · exact absurd rfl hne
      · rw [hr] at this ⊢; exact this
    | got d =>
      dsimp only
      refine go _ _ (by rw [List.length_take]; omega) rfl rfl rfl rfl rfl rfl rfl rfl rfl (fun hk => ?_)
      obtain ⟨data, a1, a2, a3⟩ := hd hk
      refine ⟨data, ?_, fun h => absurd hp h, a3, fun _ => hp⟩
      simp only
      rw [hp, List.append_nil] at a1 ⊢
      rw [a1, List.append_assoc]

/-- Result of `handle_input_v2` on stderr. -/
structure InputErrOk (c : IoCfg) (s : IoSt) (r : Rc) (s' : IoSt) : Prop where
  stdout : s'.stdout = s.stdout
  stderr : s'.stderr = s.stderr
  readOut : s'.readOut = s.readOut
  pfx : s'.pfx = s.pfx
  remote : s'.remoteStatus = s.remoteStatus
  loc : s'.localStatus = s.localStatus
  mono : s'.sendOk = true → s.sendOk = true
  sent : SentOk c s'
  others : ∀ t, t ≠ msgStderr → outsOf t s'.sent = outsOf t s.sent
  data : s'.sendOk = true → (r ≠ .eof → OpenChan msgStderr s'.readErr s'.sent) ∧
    (r = .eof → Channel True msgStderr false s'.readErr s'.sent)
  noExit : r ≠ .exited ∧ r ≠ .aborted
  saved : s'.saved = s.saved ∧ s'.single = s.single

theorem gotErr_nil (c : IoCfg) (o : OutStep) (s : IoSt) : s.gotErr c o [] = s := by
  unfold IoSt.gotErr
  cases o.copyFails <;> simp

theorem inputErr_spec (c : IoCfg) (hs : c.isService = true) (os : List OutStep) (s : IoSt) (hsent : SentOk c s)
    (hd : s.sendOk = true → OpenChan msgStderr s.readErr s.sent) :
    InputErrOk c s (inputErr c os s).1 (inputErr c os s).2 := by
  induction os generalizing s with
  | nil => exact ⟨rfl, rfl, rfl, rfl, rfl, rfl, id, hsent, fun _ _ => rfl, fun h => ⟨fun _ => hd h, by simp [inputErr]⟩, by simp [inputErr],
      rfl, rfl⟩
  | cons o os ih =>
    have stop : ∀ r : Rc, r = .ok ∨ r = .error → InputErrOk c s r s := by
      intro r hr
      exact ⟨rfl, rfl, rfl, rfl, rfl, rfl, id, hsent, fun _ _ => rfl,
        fun h => ⟨fun _ => hd h, by rcases hr with rfl | rfl <;> simp⟩, by rcases hr with rfl | rfl <;> simp, rfl, rfl⟩
    have go : ∀ (d : Str), d.length ≤ c.maxChunk →
        InputErrOk c s
          (match sendChunk msgStderr d o (s.gotErr c o d) with
            | (none, s) => inputErr c os s
            | (some r, s) => (r, s)).1
          (match sendChunk msgStderr d o (s.gotErr c o d) with
            | (none, s) => inputErr c os s
            | (some r, s) => (r, s)).2 := by
      intro d hdl
      have hnew : ∀ m ∈ s.sent ++ [(msgStderr, d)], m.2.length ≤ c.maxChunk ∧
          (m.1 = c.outType ∨ m.1 = msgStderr ∧ c.isService = true) := by
        intro m hm
        rcases List.mem_append.1 hm with hm | hm
        · exact hsent m hm
        · rw [List.mem_singleton.1 hm]; exact ⟨hdl, .inr ⟨rfl, hs⟩⟩
      have hoth : ∀ t, t ≠ msgStderr → outsOf t (s.sent ++ [(msgStderr, d)]) = outsOf t s.sent := by
        intro t ht
        rw [outsOf_snoc, if_neg (Ne.symm ht)]
      rcases sendChunk_cases msgStderr d o (s.gotErr c o d) with ⟨r, hr⟩ | ⟨hne, hr⟩ | ⟨he, hr⟩
      · have hrr : r ≠ .exited ∧ r ≠ .aborted := by
          have := congrArg Prod.fst hr
          unfold sendChunk at this
          split_ifs at this <;> simp at this <;> subst this <;> simp
        rw [hr]
        exact ⟨rfl, rfl, rfl, rfl, rfl, rfl, by simp, hsent, fun _ _ => rfl, by simp, hrr, rfl, rfl⟩
      · rw [hr]
        have := ih { s.gotErr c o d with sent := s.sent ++ [(msgStderr, d)] } hnew
          (fun hk => (hd hk).chunk d hne)
        exact ⟨this.stdout, this.stderr, this.readOut, this.pfx, this.remote, this.loc, this.mono, this.sent,
          fun t ht => (this.others t ht).trans (hoth t ht), this.data, this.noExit, this.saved⟩
      · rw [hr]
        subst he
        refine ⟨rfl, rfl, rfl, rfl, rfl, rfl, id, hnew, hoth, fun hk => ⟨by simp, fun _ => ?_⟩, by simp, rfl, rfl⟩
        rw [gotErr_nil]
        exact (hd hk).eof True
    rw [inputErr]
    dsimp only
    by_cases h1 : o.space ≤ 8
    · rw [if_pos h1]; exact stop .ok (.inl rfl)
    rw [if_neg h1]
    generalize hlen : min (o.space - 8).toNat c.maxChunk = len
    cases hr : o.read with
    | again => exact stop .ok (.inl rfl)
    | error => exact stop .error (.inr rfl)
    | connReset =>
      dsimp only
      have := go [] (by simp)
      have e : s.gotErr c o [] = s := gotErr_nil c o s
      rw [e] at this
      rcases sendChunk_cases msgStderr [] o s with ⟨r, hr⟩ | ⟨hne, hr⟩ | ⟨he, hr⟩
      · rw [hr] at this ⊢; exact this
      · exact absurd rfl hne
      · rw [hr] at this ⊢; exact this
    | got d => exact go _ (by rw [List.length_take]; omega)

end Qrexec

namespace Qrexec

/-- The outgoing direction is not touched. -/
structure SameOut (s s' : IoSt) : Prop where
  stdout : s'.stdout = s.stdout
  stderr : s'.stderr = s.stderr
  pfx : s'.pfx = s.pfx
  readOut : s'.readOut = s.readOut
  readErr : s'.readErr = s.readErr
  sent : s'.sent = s.sent
  sendOk : s'.sendOk = s.sendOk
  loc : s'.localStatus = s.localStatus
  saved : s'.saved = s.saved
  single : s'.single = s.single

theorem SameOut.refl (s : IoSt) : SameOut s s := ⟨rfl, rfl, rfl, rfl, rfl, rfl, rfl, rfl, rfl, rfl⟩

theorem SameOut.trans {a b c : IoSt} (h : SameOut a b) (k : SameOut b c) : SameOut a c :=
  ⟨k.stdout.trans h.stdout, k.stderr.trans h.stderr, k.pfx.trans h.pfx, k.readOut.trans h.readOut,
    k.readErr.trans h.readErr, k.sent.trans h.sent, k.sendOk.trans h.sendOk, k.loc.trans h.loc, k.saved.trans h.saved,
    k.single.trans h.single⟩

/-- Fields that `OutAll` does not look at may change. -/
theorem OutAll.same {c strict pfx0} {s s' : IoSt} (h : OutAll c strict pfx0 s) (h1 : s'.stdout = s.stdout)
    (h2 : s'.stderr = s.stderr) (h3 : s'.pfx = s.pfx) (h4 : s'.readOut = s.readOut) (h5 : s'.readErr = s.readErr)
    (h6 : s'.sent = s.sent) (h7 : s'.sendOk = s.sendOk) : OutAll c strict pfx0 s' := by
  refine ⟨?_, ?_, ?_, ?_⟩
  · unfold OutInv; rw [h1, h3, h4, h6, h7]; exact h.out
  · unfold ErrInv; rw [h2, h5, h6, h7]; exact h.err
  · unfold SentOk; rw [h6]; exact h.sent
  · rw [h2]; exact h.client

theorem SameOut.all {c strict pfx0} {s s' : IoSt} (k : SameOut s s') (h : OutAll c strict pfx0 s) :
    OutAll c strict pfx0 s' := h.same k.stdout k.stderr k.pfx k.readOut k.readErr k.sent k.sendOk

/-- No exit message among the items. -/
def NoExitMsg (l : List InItem) : Prop := ∀ d, InItem.msg msgExitCode d ∉ l

theorem remoteLoop_out (c : IoCfg) (q : List InItem) (ks : List Sys) (s : IoSt) :
    SameOut s (remoteLoop c q ks s).2 ∧ (remoteLoop c q ks s).2.inbox <:+ q ∧
    ((remoteLoop c q ks s).1 = .exited → c.isService = false ∧ ¬ NoExitMsg q) := by
  induction q generalizing ks s with
  | nil => exact ⟨⟨rfl, rfl, rfl, rfl, rfl, rfl, rfl, rfl, rfl, rfl⟩, by simp [remoteLoop], by simp [remoteLoop]⟩
  | cons i q ih =>
    cases i with
    | broken =>
      exact ⟨⟨rfl, rfl, rfl, rfl, rfl, rfl, rfl, rfl, rfl, rfl⟩, ⟨[.broken], rfl⟩, by simp [remoteLoop]⟩
    | msg t d =>
      have stop : ∀ (r : Rc) (s1 : IoSt), SameOut s s1 → s1.inbox = q →
          (r = .exited → c.isService = false ∧ ¬ NoExitMsg (.msg t d :: q)) →
          SameOut s s1 ∧ s1.inbox <:+ (.msg t d :: q) ∧ (r = .exited → c.isService = false ∧
            ¬ NoExitMsg (.msg t d :: q)) := by
        intro r s1 h1 h2 h3
        exact ⟨h1, by rw [h2]; exact ⟨[.msg t d], rfl⟩, h3⟩
      have cont : ∀ (ks' : List Sys) (s1 : IoSt), SameOut s s1 →
          SameOut s (remoteLoop c q ks' s1).2 ∧ (remoteLoop c q ks' s1).2.inbox <:+ (.msg t d :: q) ∧
          ((remoteLoop c q ks' s1).1 = .exited → c.isService = false ∧ ¬ NoExitMsg (.msg t d :: q)) := by
        intro ks' s1 h1
        obtain ⟨a, b, e⟩ := ih ks' s1
        refine ⟨h1.trans a, b.trans ⟨[.msg t d], rfl⟩, fun h => ⟨(e h).1, fun hn => (e h).2 ?_⟩⟩
        intro x hx
        exact hn x (List.mem_cons_of_mem _ hx)
      have same : ∀ (b w : Str), SameOut s
          { s with inbox := q, seen := s.seen ++ [.msg t d], buf := b, written := s.written ++ w } := fun b w => ⟨rfl, rfl, rfl, rfl, rfl, rfl, rfl, rfl, rfl, rfl⟩
      rw [remoteLoop]
      dsimp only
      by_cases h1 : d.length > c.maxChunk
      · rw [if_pos h1]; exact stop _ _ ⟨rfl, rfl, rfl, rfl, rfl, rfl, rfl, rfl, rfl, rfl⟩ rfl (by simp)
      rw [if_neg h1]
      by_cases h2 : (t == msgStdin || t == msgStdout) = true
      · rw [if_pos h2]
        by_cases h3 : (s.stdin == false) = true
        · rw [if_pos h3]; exact cont _ _ ⟨rfl, rfl, rfl, rfl, rfl, rfl, rfl, rfl, rfl, rfl⟩
        rw [if_neg h3]
        by_cases h4 : (d.length == 0) = true
        · rw [if_pos h4]; exact stop _ _ ⟨rfl, rfl, rfl, rfl, rfl, rfl, rfl, rfl, rfl, rfl⟩ rfl (by simp)
        rw [if_neg h4]
        generalize writeStdin ks (if c.replaceOut = true then doReplaceChars d else d) s.buf = wr
        obtain ⟨r, b, w, ks'⟩ := wr
        cases r with
        | ok => exact cont ks' _ (same b w)
        | buffered => exact stop _ _ (same b w) rfl (by simp)
        | error => exact stop _ _ (same b w) rfl (by simp)
        | aborted => exact stop _ _ (same b w) rfl (by simp)
      rw [if_neg h2]
      by_cases h3 : (t == msgStderr) = true
      · rw [if_pos h3]
        by_cases h4 : c.isService = true
        · rw [if_pos h4]; exact cont _ _ ⟨rfl, rfl, rfl, rfl, rfl, rfl, rfl, rfl, rfl, rfl⟩
        · rw [if_neg h4]; exact cont _ _ ⟨rfl, rfl, rfl, rfl, rfl, rfl, rfl, rfl, rfl, rfl⟩
      rw [if_neg h3]
      by_cases h4 : (t == msgExitCode) = true
      · rw [if_pos h4]
        by_cases h5 : c.isService = true
        · rw [if_pos h5]; exact cont _ _ ⟨rfl, rfl, rfl, rfl, rfl, rfl, rfl, rfl, rfl, rfl⟩
        · rw [if_neg h5]
          refine stop _ _ ⟨rfl, rfl, rfl, rfl, rfl, rfl, rfl, rfl, rfl, rfl⟩ rfl (fun _ => ⟨by simpa using h5, fun hn => ?_⟩)
          have : t = msgExitCode := by simpa using h4
          subst this
          exact hn d (List.mem_cons_self ..)
      rw [if_neg h4]
      exact stop _ _ ⟨rfl, rfl, rfl, rfl, rfl, rfl, rfl, rfl, rfl, rfl⟩ rfl (by simp)

theorem handleRemote_out (c : IoCfg) (ks : List Sys) (s : IoSt) :
    SameOut s (handleRemoteData c ks s).2 ∧ (handleRemoteData c ks s).2.inbox <:+ s.inbox ∧
    ((handleRemoteData c ks s).1 = .exited → c.isService = false ∧ ¬ NoExitMsg s.inbox) := by
  unfold handleRemoteData
  have same : ∀ (b w : Str), SameOut s { s with buf := b, written := s.written ++ w } :=
    fun b w => ⟨rfl, rfl, rfl, rfl, rfl, rfl, rfl, rfl, rfl, rfl⟩
  by_cases h : (s.stdin == false) = true
  · rw [if_pos h]; exact remoteLoop_out c s.inbox ks s
  · rw [if_neg h]
    generalize flushClientData ks s.buf = fr
    obtain ⟨r, b, w, ks'⟩ := fr
    cases r with
    | ok =>
      obtain ⟨a, b, e⟩ := remoteLoop_out c s.inbox ks' { s with buf := b, written := s.written ++ w }
      exact ⟨(same _ w).trans a, b, e⟩
    | buffered => exact ⟨same b w, List.suffix_rfl, by simp⟩
    | error => exact ⟨same b w, List.suffix_rfl, by simp⟩
    | aborted => exact ⟨same b w, List.suffix_rfl, by simp⟩

/-! ## Closing -/

/-- Sending an end of file and closing stdout. -/
theorem OutAll.closeEof {c strict pfx0} {s : IoSt} (h : OutAll c strict pfx0 s) (ok : Bool) (ho : s.stdout = true)
    (hp : s.sendOk = true → s.pfx = []) (s' : IoSt) (e1 : s'.stdout = false) (e2 : s'.stderr = s.stderr) (e3 : s'.pfx = s.pfx)
    (e4 : s'.readOut = s.readOut) (e5 : s'.readErr = s.readErr)
    (e6 : s'.sent = (sendEof c ok s).sent) (e7 : s'.sendOk = (sendEof c ok s).sendOk) : OutAll c strict pfx0 s' := by
  cases ok with
  | false =>
    have e6 : s'.sent = s.sent := e6
    have e7 : s'.sendOk = false := e7
    refine ⟨fun hk => ?_, fun hk => ?_, ?_, ?_⟩
    · rw [e7] at hk; cases hk
    · rw [e7] at hk; cases hk
    · unfold SentOk; rw [e6]; exact h.sent
    · rw [e2]; exact h.client
  | true =>
    have e6 : s'.sent = s.sent ++ [(c.outType, [])] := e6
    have e7 : s'.sendOk = s.sendOk := e7
    refine ⟨fun hk => ?_, fun hk => ?_, ?_, ?_⟩
    · rw [e7] at hk
      obtain ⟨⟨data, a1, a2, a3⟩, _⟩ := h.out hk
      rw [ho] at a3
      refine ⟨⟨data, by rw [e3, e4]; exact a1, by rw [e3, e4]; exact a2, ?_⟩, .inr (by rw [e3]; exact hp hk)⟩
      rw [e1, e6]
      exact a3.open'.eof strict
    · rw [e7] at hk
      rw [e2, e5, e6]
      exact (h.err hk).other _ (outType_ne c).1
    · unfold SentOk
      rw [e6]
      intro m hm
      rcases List.mem_append.1 hm with hm | hm
      · exact h.sent m hm
      · rw [List.mem_singleton.1 hm]; exact ⟨by simp, .inl rfl⟩
    · rw [e2]; exact h.client

/-- Stdout may be closed with pending prefix data: never for a service or with an exit message not received. -/
def MayClose (c : IoCfg) (s : IoSt) : Prop := s.pfx = [] ∨ c.exitOnStdinEof = false ∧ (c.isService = true ∨ NoExitMsg s.inbox)

theorem closeStdin_out {c strict pfx0} {s : IoSt} (h : OutAll c strict pfx0 s) (ok : Bool)
    (hm : c.exitOnStdinEof = true → s.sendOk = true → s.pfx = []) : OutAll c strict pfx0 (closeStdin c ok s) := by
  by_cases he : c.exitOnStdinEof = true
  · unfold closeStdin
    rw [if_pos he]
    dsimp only
    by_cases ho : s.stdout = true
    · rw [if_pos ho]
      refine h.closeEof ok ho (hm he) _ rfl ?_ ?_ ?_ ?_ rfl rfl
      all_goals (unfold sendEof; split_ifs <;> rfl)
    · rw [if_neg ho]
      exact h.same (by simpa using ho) rfl rfl rfl rfl rfl rfl
  · unfold closeStdin
    rw [if_neg he]
    exact h.same rfl rfl rfl rfl rfl rfl rfl

theorem closeStdin_fields (c : IoCfg) (ok : Bool) (s : IoSt) :
    (closeStdin c ok s).pfx = s.pfx ∧ (closeStdin c ok s).inbox = s.inbox ∧ (closeStdin c ok s).single = s.single ∧
    (closeStdin c ok s).stderr = s.stderr ∧ (closeStdin c ok s).localStatus = s.localStatus ∧
    (closeStdin c ok s).remoteStatus = s.remoteStatus ∧ ((closeStdin c ok s).sendOk = true → s.sendOk = true) ∧
    (closeStdin c ok s).seen = s.seen ∧ (closeStdin c ok s).logged = s.logged := by
  unfold closeStdin
  by_cases he : c.exitOnStdinEof = true
  · rw [if_pos he]
    dsimp only
    by_cases ho : s.stdout = true
    · rw [if_pos ho]
      unfold sendEof
      cases ok <;> simp
    · rw [if_neg ho]; simp
  · rw [if_neg he]; simp

theorem closeStdout_fields (c : IoCfg) (s : IoSt) :
    (closeStdout c s).pfx = s.pfx ∧ (closeStdout c s).inbox = s.inbox ∧ (closeStdout c s).single = s.single ∧
    (closeStdout c s).stderr = s.stderr ∧ (closeStdout c s).localStatus = s.localStatus ∧
    (closeStdout c s).remoteStatus = s.remoteStatus ∧ (closeStdout c s).sendOk = s.sendOk ∧
    (closeStdout c s).seen = s.seen ∧ (closeStdout c s).logged = s.logged ∧ (closeStdout c s).stdout = false ∧
    (closeStdout c s).sent = s.sent ∧ (closeStdout c s).readOut = s.readOut ∧ (closeStdout c s).readErr = s.readErr := by
  unfold closeStdout
  split_ifs <;> simp

end Qrexec

namespace Qrexec

theorem Channel.congr {strict t o data sent sent'} (h : Channel strict t o data sent)
    (e : outsOf t sent' = outsOf t sent) : Channel strict t o data sent' := by
  unfold Channel at *; rw [e]; exact h

theorem Channel.mono {s1 s2 : Prop} {t o data sent} (h : Channel s1 t o data sent) (hs : s2 → s1) :
    Channel s2 t o data sent := by
  obtain ⟨c, h1, h2, h3⟩ := h
  refine ⟨c, h1, h2, ?_⟩
  rcases h3 with ⟨a, b⟩ | h3
  · exact .inl ⟨a, fun x => b (hs x)⟩
  · exact .inr h3

theorem closeStdout_all {c strict pfx0} {s : IoSt} (h : OutAll c strict pfx0 s) (ho : s.stdout = false) :
    OutAll c strict pfx0 (closeStdout c s) := by
  obtain ⟨a1, a2, a3, a4, a5, a6, a7, a8, a9, a10, a11, a12, a13⟩ := closeStdout_fields c s
  exact h.same (a10.trans ho.symm) a4 a1 a12 a13 a11 a7

theorem ioRemote_out (c : IoCfg) (strict : Prop) (pfx0 : Str) (t : Tick) (s : IoSt) (h : OutAll c strict pfx0 s)
    (hm : MayClose c s) :
    (∃ s', ioRemote c t s = .next s' ∧ OutAll c strict pfx0 s' ∧ s'.inbox <:+ s.inbox ∧ s'.pfx = s.pfx ∧
      s'.single = s.single ∧ s'.localStatus = s.localStatus) ∨
    ∃ s', (ioRemote c t s = .exit1 s' ∨ ioRemote c t s = .abort s') ∧ SameOut s s' := by
  obtain ⟨h1, h2, h3⟩ := handleRemote_out c t.writes s
  unfold ioRemote
  generalize handleRemoteData c t.writes s = r at h1 h2 h3 ⊢
  obtain ⟨r, s1⟩ := r
  simp only at h1 h2 h3
  have hs1 := h1.all h
  cases r with
  | error => exact .inr ⟨s1, .inl rfl, h1⟩
  | aborted => exact .inr ⟨s1, .inr rfl, h1⟩
  | ok => exact .inl ⟨s1, rfl, hs1, h2, h1.pfx, h1.single, h1.loc⟩
  | eof =>
    left
    obtain ⟨f1, f2, f3, f4, f5, _⟩ := closeStdin_fields c t.eofOk s1
    refine ⟨_, rfl, closeStdin_out hs1 t.eofOk (fun he _ => ?_), by rw [f2]; exact h2, f1.trans h1.pfx,
      f3.trans h1.single, f5.trans h1.loc⟩
    rcases hm with hm | ⟨hm, _⟩
    · rw [h1.pfx]; exact hm
    · rw [he] at hm; cases hm
  | exited =>
    left
    have hp : s1.pfx = [] := by
      rw [h1.pfx]
      rcases hm with hm | ⟨_, hm | hm⟩
      · exact hm
      · rw [(h3 rfl).1] at hm; cases hm
      · exact absurd hm (h3 rfl).2
    by_cases ho : s1.stdout = true
    · dsimp only
      rw [if_pos ho]
      obtain ⟨a1, a2, a3, a4, a5, a6, a7, a8, a9, a10, a11, a12, a13⟩ := closeStdout_fields c (sendEof c t.eofOk s1)
      have e : ∀ {α : Type} (f : IoSt → α), (∀ s x, f { s with sent := x } = f s) → (∀ s x, f { s with sendOk := x } = f s) →
          f (sendEof c t.eofOk s1) = f s1 := by
        intro α f g1 g2
        unfold sendEof; split_ifs
        · exact g1 _ _
        · exact g2 _ _
      refine ⟨_, rfl, hs1.closeEof t.eofOk ho (fun _ => hp) _ a10 ?_ ?_ ?_ ?_ a11 a7, ?_, ?_, ?_, ?_⟩
      · rw [a4]; exact e IoSt.stderr (fun _ _ => rfl) (fun _ _ => rfl)
      · rw [a1]; exact e IoSt.pfx (fun _ _ => rfl) (fun _ _ => rfl)
      · rw [a12]; exact e IoSt.readOut (fun _ _ => rfl) (fun _ _ => rfl)
      · rw [a13]; exact e IoSt.readErr (fun _ _ => rfl) (fun _ _ => rfl)
      · rw [a2, e IoSt.inbox (fun _ _ => rfl) (fun _ _ => rfl)]; exact h2
      · rw [a1, e IoSt.pfx (fun _ _ => rfl) (fun _ _ => rfl)]; exact h1.pfx
      · rw [a3, e IoSt.single (fun _ _ => rfl) (fun _ _ => rfl)]; exact h1.single
      · rw [a5, e IoSt.localStatus (fun _ _ => rfl) (fun _ _ => rfl)]; exact h1.loc
    · dsimp only
      rw [if_neg ho]
      obtain ⟨a1, a2, a3, a4, a5, a6, a7, a8, a9, a10, a11, a12, a13⟩ := closeStdout_fields c s1
      exact ⟨_, rfl, closeStdout_all hs1 (by simpa using ho), by rw [a2]; exact h2, a1.trans h1.pfx,
        a3.trans h1.single, a5.trans h1.loc⟩

theorem sendChunk_pfx (t d o s) : (sendChunk t d o s).2.pfx = s.pfx := by
  unfold sendChunk; split_ifs <;> rfl

theorem inputOut_pfx (c : IoCfg) (t : Nat) (os : List OutStep) (s : IoSt) (hp : s.pfx = []) :
    (inputOut c t os s).2.pfx = [] := by
  induction os generalizing s with
  | nil => exact hp
  | cons o os ih =>
    rw [inputOut]
    dsimp only
    by_cases h1 : o.space ≤ 8
    · rw [if_pos h1]; exact hp
    rw [if_neg h1, if_neg (by rw [hp]; simp)]
    by_cases h3 : (s.stdout == false) = true
    · rw [if_pos h3]; exact hp
    rw [if_neg h3]
    cases o.read with
    | again => exact hp
    | error => exact hp
    | connReset => exact (sendChunk_pfx t [] o s).trans hp
    | got d =>
      dsimp only
      have := sendChunk_pfx t (d.take (min (o.space - 8).toNat c.maxChunk)) o
        { s with readOut := s.readOut ++ d.take (min (o.space - 8).toNat c.maxChunk) }
      generalize sendChunk t (d.take (min (o.space - 8).toNat c.maxChunk)) o
        { s with readOut := s.readOut ++ d.take (min (o.space - 8).toNat c.maxChunk) } = r at this ⊢
      obtain ⟨r, s1⟩ := r
      cases r with
      | none => exact ih s1 (this.trans hp)
      | some r => exact this.trans hp

theorem ioOut_pfx (c t ready s) (hp : s.pfx = []) : (ioOut c t ready s).st.pfx = [] := by
  unfold ioOut
  split_ifs
  · have := inputOut_pfx c c.outType t.out s hp
    generalize inputOut c c.outType t.out s = r at this ⊢
    obtain ⟨r, s1⟩ := r
    have hc := (closeStdout_fields c s1).1
    cases r with
    | error =>
      dsimp only
      split_ifs
      · exact hc.trans this
      · exact this
    | eof => exact hc.trans this
    | ok => exact this
    | exited => exact this
    | aborted => exact this
  · exact hp

theorem inputErr_pfx (c : IoCfg) (os : List OutStep) (s : IoSt) : (inputErr c os s).2.pfx = s.pfx := by
  induction os generalizing s with
  | nil => rfl
  | cons o os ih =>
    rw [inputErr]
    dsimp only
    by_cases h1 : o.space ≤ 8
    · rw [if_pos h1]
    rw [if_neg h1]
    cases o.read with
    | again => rfl
    | error => rfl
    | connReset => exact sendChunk_pfx msgStderr [] o s
    | got d =>
      dsimp only
      have := sendChunk_pfx msgStderr (d.take (min (o.space - 8).toNat c.maxChunk)) o
        (s.gotErr c o (d.take (min (o.space - 8).toNat c.maxChunk)))
      generalize sendChunk msgStderr (d.take (min (o.space - 8).toNat c.maxChunk)) o
        (s.gotErr c o (d.take (min (o.space - 8).toNat c.maxChunk))) = r at this ⊢
      obtain ⟨r, s1⟩ := r
      cases r with
      | none => exact (ih s1).trans this
      | some r => exact this

theorem ioErr_pfx (c t ready s) : (ioErr c t ready s).st.pfx = s.pfx := by
  unfold ioErr
  split_ifs
  · have := inputErr_pfx c t.err s
    generalize inputErr c t.err s = r at this ⊢
    obtain ⟨r, s1⟩ := r
    cases r <;> exact this
  · rfl

theorem ioOut_out (c : IoCfg) (hc : 1 ≤ c.maxChunk) (strict : Prop) (pfx0 : Str) (t : Tick) (ready : Bool) (s : IoSt)
    (h : OutAll c strict pfx0 s) (hstrict : strict → c.isService = true ∨ ∀ o ∈ t.out, o.read ≠ .error) :
    (∃ s', ioOut c t ready s = .next s' ∧ OutAll c strict pfx0 s' ∧ s'.single = s.single ∧
      s'.localStatus = s.localStatus) ∨
    ∃ s', ioOut c t ready s = .exit1 s' ∧ SentOk c s' := by
  unfold ioOut
  by_cases hcond : (s.pfx.length != 0 || s.stdout && ready) = true
  · rw [if_pos hcond]
    have hst : s.sendOk = true → s.stdout = true := by
      intro hk
      rcases (h.out hk).2 with ho | hp
      · exact ho
      · rw [hp] at hcond
        simp at hcond
        exact hcond.1
    have hi := inputOut_spec c hc pfx0 t.out s hst h.sent (fun hk => by
      obtain ⟨⟨data, a1, a2, a3⟩, _⟩ := h.out hk
      rw [hst hk] at a3
      exact ⟨data, a1, a2, a3.open'⟩)
    generalize inputOut c c.outType t.out s = r at hi ⊢
    obtain ⟨r, s1⟩ := r
    simp only at hi
    have herr : ∀ s2 : IoSt, s2.sent = s1.sent → s2.sendOk = s1.sendOk → s2.stderr = s1.stderr →
        s2.readErr = s1.readErr → ErrInv c s2 := by
      intro s2 e1 e2 e3 e4 hk
      rw [e2] at hk
      rw [e1, e3, e4, hi.stderr, hi.readErr]
      exact (h.err (hi.mono hk)).congr (hi.others _ (outType_ne c).1.symm)
    have hcl : ∀ s2 : IoSt, s2.stderr = s1.stderr → c.isService = false → s2.stderr = false := by
      intro s2 e hs; rw [e, hi.stderr]; exact h.client hs
    obtain ⟨a1, a2, a3, a4, a5, a6, a7, a8, a9, a10, a11, a12, a13⟩ := closeStdout_fields c s1
    have hsent : SentOk c (closeStdout c s1) := by unfold SentOk; rw [a11]; exact hi.sent
    cases r with
    | exited => exact absurd rfl hi.noExit.1
    | aborted => exact absurd rfl hi.noExit.2
    | ok =>
      left
      refine ⟨s1, rfl, ⟨fun hk => ?_, herr s1 rfl rfl rfl rfl, hi.sent, hcl s1 rfl⟩, hi.saved.2, hi.loc⟩
      obtain ⟨data, b1, b2, b3, _⟩ := hi.data hk
      have ho : s1.stdout = true := hi.stdout.trans (hst (hi.mono hk))
      exact ⟨⟨data, b1, b2, (b3 (by simp)).channel strict _ (fun _ => ho)⟩, .inl ho⟩
    | eof =>
      left
      refine ⟨_, rfl, ⟨fun hk => ?_, herr _ a11 a7 a4 a13, hsent, hcl _ a4⟩, a3.trans hi.saved.2, a5.trans hi.loc⟩
      rw [a7] at hk
      obtain ⟨data, b1, b2, b3, b4, _⟩ := hi.data hk
      obtain ⟨b5, b6⟩ := b4 rfl
      refine ⟨⟨data, by rw [a1, a12]; exact b1, by rw [a1, a12]; exact b2, ?_⟩, .inr (a1.trans b5)⟩
      rw [a10, a11]
      exact b6.mono (fun _ => trivial)
    | error =>
      dsimp only
      by_cases hcli : (!c.isService && s1.remoteStatus == -1) = true
      · rw [if_pos hcli]
        left
        refine ⟨_, rfl, ⟨fun hk => ?_, herr _ a11 a7 a4 a13, hsent, hcl _ a4⟩, a3.trans hi.saved.2, a5.trans hi.loc⟩
        rw [a7] at hk
        obtain ⟨data, b1, b2, b3, b4, b5⟩ := hi.data hk
        obtain ⟨b6, o, ho, ho'⟩ := b5 rfl
        refine ⟨⟨data, by rw [a1, a12]; exact b1, by rw [a1, a12]; exact b2, ?_⟩, .inr (a1.trans b6)⟩
        rw [a10, a11]
        refine (b3 (by simp)).channel strict _ (fun hx => ?_)
        rcases hstrict hx with hx | hx
        · rw [hx] at hcli; simp at hcli
        · exact absurd ho' (hx o ho)
      · rw [if_neg hcli]
        exact .inr ⟨s1, rfl, hi.sent⟩
  · rw [if_neg hcond]
    exact .inl ⟨s, rfl, h, rfl, rfl⟩

theorem ioErr_out (c : IoCfg) (strict : Prop) (pfx0 : Str) (t : Tick) (ready : Bool) (s : IoSt)
    (h : OutAll c strict pfx0 s) :
    (∃ s', ioErr c t ready s = .next s' ∧ OutAll c strict pfx0 s' ∧ s'.single = s.single ∧
      s'.localStatus = s.localStatus) ∨
    ∃ s', ioErr c t ready s = .exit1 s' ∧ SentOk c s' := by
  unfold ioErr
  by_cases hcond : (s.stderr && ready) = true
  · rw [if_pos hcond]
    have hst : s.stderr = true := by simp at hcond; exact hcond.1
    have hsv : c.isService = true := by
      cases hs : c.isService with
      | true => rfl
      | false => rw [h.client hs] at hst; cases hst
    have hi := inputErr_spec c hsv t.err s h.sent (fun hk => by
      have := h.err hk
      rw [hst] at this
      exact this.open')
    generalize inputErr c t.err s = r at hi ⊢
    obtain ⟨r, s1⟩ := r
    simp only at hi
    have hout : ∀ s2 : IoSt, s2.sent = s1.sent → s2.sendOk = s1.sendOk → s2.stdout = s1.stdout →
        s2.pfx = s1.pfx → s2.readOut = s1.readOut → OutInv c strict pfx0 s2 := by
      intro s2 e1 e2 e3 e4 e5 hk
      rw [e2] at hk
      obtain ⟨⟨data, a1, a2, a3⟩, a4⟩ := h.out (hi.mono hk)
      refine ⟨⟨data, by rw [e4, e5, hi.pfx, hi.readOut]; exact a1, by rw [e4, e5, hi.pfx, hi.readOut]; exact a2, ?_⟩,
        by rw [e3, e4, hi.stdout, hi.pfx]; exact a4⟩
      rw [e1, e3, hi.stdout]
      exact a3.congr (hi.others _ (outType_ne c).1)
    cases r with
    | exited => exact absurd rfl hi.noExit.1
    | aborted => exact absurd rfl hi.noExit.2
    | ok =>
      left
      refine ⟨s1, rfl, ⟨hout s1 rfl rfl rfl rfl rfl, fun hk => ?_, hi.sent, fun hs => by rw [hsv] at hs; cases hs⟩,
        hi.saved.2, hi.loc⟩
      exact ((hi.data hk).1 (by simp)).channel _ _ (fun _ => hi.stderr.trans hst)
    | eof =>
      left
      refine ⟨_, rfl, ⟨hout _ rfl rfl rfl rfl rfl, fun hk => ?_, hi.sent, fun _ => rfl⟩,
        hi.saved.2, hi.loc⟩
      exact ((hi.data hk).2 rfl).mono (fun _ => trivial)
    | error => exact .inr ⟨s1, rfl, hi.sent⟩
  · rw [if_neg hcond]
    exact .inl ⟨s, rfl, h, rfl, rfl⟩

/-- What an iteration sends: nothing in addition to the streams, except for the exit code of a service that is done. -/
def TickOut (c : IoCfg) (strict : Prop) (pfx0 : Str) (t : Tick) (s : IoSt) (r : IoStep) : Prop :=
  match r with
  | .next s' => OutAll c strict pfx0 s' ∧ s'.single = s.single ∧
        (s.localStatus.isSome = true → s'.localStatus = s.localStatus) ∧
        (s.localStatus = none → s'.localStatus = none ∨ s'.localStatus = t.reaped) ∧
        (s.pfx = [] → s'.pfx = []) ∧ s'.inbox <:+ s.inbox ++ t.arrive
  | .leave s' => (OutAll c strict pfx0 s' ∨
        ∃ s0 : IoSt, OutAll c strict pfx0 s0 ∧ c.isService = true ∧ s0.stdin = false ∧ s0.stdout = false ∧
          s0.stderr = false ∧ (c.hasPid = true → s0.localStatus.isSome = true) ∧
          s' = { s0 with sent := s0.sent ++ [(msgExitCode,
            i32le (if c.hasPid then ((s0.localStatus.getD 0 : Nat) : Int) else 0))] }) ∧
        (s'.localStatus = s.localStatus ∨ s'.localStatus = t.reaped)
  | .exit1 s' => SentOk c s'
  | .abort s' => SentOk c s'

theorem ioTick_out (c : IoCfg) (hc : 1 ≤ c.maxChunk) (strict : Prop) (pfx0 : Str) (t : Tick) (s : IoSt)
    (h : OutAll c strict pfx0 s) (hstrict : strict → c.isService = true ∨ ∀ o ∈ t.out, o.read ≠ .error)
    (hm : MayClose c { s with inbox := s.inbox ++ t.arrive }) (hu : t.usr1 = false ∨ s.single = true) :
    TickOut c strict pfx0 t s (ioTick c t s) := by
  unfold ioTick
  dsimp only
  generalize hs1 : ({ s with inbox := s.inbox ++ t.arrive } : IoSt) = s1 at hm ⊢
  have h1 : OutAll c strict pfx0 s1 := by rw [← hs1]; exact h.same rfl rfl rfl rfl rfl rfl rfl
  have e1 : s1.single = s.single := by rw [← hs1]
  have e2 : s1.localStatus = s.localStatus := by rw [← hs1]
  have hclose : ∀ s2 : IoSt, s2.pfx = s1.pfx → c.exitOnStdinEof = true → s2.sendOk = true → s2.pfx = [] := by
    intro s2 he hx _
    rcases hm with hm | ⟨hm, _⟩
    · rw [he]; exact hm
    · rw [hx] at hm; cases hm
  have hreap : OutAll c strict pfx0 (ioReap c t s1) ∧ (ioReap c t s1).pfx = s1.pfx ∧
      (ioReap c t s1).inbox = s1.inbox ∧ (ioReap c t s1).single = s1.single ∧
      (s1.localStatus.isSome = true → (ioReap c t s1).localStatus = s1.localStatus) ∧
      (s1.localStatus = none → (ioReap c t s1).localStatus = none ∨ (ioReap c t s1).localStatus = t.reaped) := by
    unfold ioReap
    cases hr : t.reaped with
    | none => exact ⟨h1, rfl, rfl, rfl, fun _ => rfl, fun h => .inl h⟩
    | some st =>
      dsimp only
      by_cases hh : (c.hasPid && s1.localStatus.isNone) = true
      · rw [if_pos hh]
        have h1' : OutAll c strict pfx0 { s1 with localStatus := some st } := h1.same rfl rfl rfl rfl rfl rfl rfl
        obtain ⟨f1, f2, f3, f4, f5, _⟩ := closeStdin_fields c t.eofOk { s1 with localStatus := some st }
        refine ⟨closeStdin_out h1' t.eofOk (hclose _ rfl), f1, f2, f3, fun hs => ?_, fun _ => .inr f5⟩
        simp at hh
        rw [hh.2] at hs; cases hs
      · rw [if_neg hh]
        exact ⟨h1, rfl, rfl, rfl, fun _ => rfl, fun h => .inl h⟩
  obtain ⟨h2, p2, i2, s2e, l2, l2'⟩ := hreap
  generalize ioReap c t s1 = s2 at h2 p2 i2 s2e l2 l2' ⊢
  rw [e2] at l2 l2'
  have hloc : s2.localStatus = s.localStatus ∨ s2.localStatus = t.reaped := by
    cases hl : s.localStatus with
    | none => rcases l2' hl with h | h <;> simp [h]
    | some x => left; rw [l2 (by rw [hl]; rfl), hl]
  have hfin : ∀ s' : IoSt, s'.localStatus = s2.localStatus → (s2.pfx = [] → s'.pfx = []) →
      s'.inbox <:+ s2.inbox →
      (s.localStatus.isSome = true → s'.localStatus = s.localStatus) ∧
      (s.localStatus = none → s'.localStatus = none ∨ s'.localStatus = t.reaped) ∧
      (s.pfx = [] → s'.pfx = []) ∧ s'.inbox <:+ s.inbox ++ t.arrive := by
    intro s' he hp hi
    have e3 : s2.pfx = s.pfx := by rw [p2, ← hs1]
    have e4 : s2.inbox = s.inbox ++ t.arrive := by rw [i2, ← hs1]
    rw [he]; exact ⟨l2, l2', fun h => hp (e3.trans h), e4 ▸ hi⟩
  have rest3 : ∀ (r1 r2 : Bool) (s3 : IoSt), OutAll c strict pfx0 s3 → s3.pfx = s1.pfx → s3.inbox = s1.inbox →
      s3.single = s.single → s3.localStatus = s2.localStatus → TickOut c strict pfx0 t s
      (match ioRemote c t s3 with
      | .next s => match ioOut c t r1 s with
        | .next s => ioErr c t r2 s
        | r => r
      | r => r) := by
    intro r1 r2 s3 h3 p3 i3 g3 l3
    rcases ioRemote_out c strict pfx0 t s3 h3 (by unfold MayClose; rw [p3, i3]; exact hm) with
      ⟨s4, x4, h4, i4, p4, g4, l4⟩ | ⟨s4, x4, so⟩
    · rw [x4]
      dsimp only
      rcases ioOut_out c hc strict pfx0 t r1 s4 h4 hstrict with ⟨s5, x5, h5, g5, l5⟩ | ⟨s5, x5, h5⟩
      · rw [x5]
        dsimp only
        rcases ioErr_out c strict pfx0 t r2 s5 h5 with ⟨s6, x6, h6, g6, l6⟩ | ⟨s6, x6, h6⟩
        · rw [x6]
          refine ⟨h6, g6.trans (g5.trans (g4.trans g3)), hfin s6 (l6.trans (l5.trans (l4.trans l3)))
            (fun h => ?_) ?_⟩
          · have a1 := ioOut_pfx c t r1 s4 (p4.trans (p3.trans (p2.symm.trans h)))
            rw [x5] at a1
            have a2 := ioErr_pfx c t r2 s5
            rw [x6] at a2
            exact a2.trans a1
          · have a1 := (ioOut_less c t r1 s4).1.inbox
            rw [x5] at a1
            have a2 := (ioErr_less c t r2 s5).1.inbox
            rw [x6] at a2
            have a3 : s6.inbox = s4.inbox := a2.trans a1
            rw [a3, i2, ← i3]; exact i4
        · rw [x6]; exact h6
      · rw [x5]; exact h5
    · have : SentOk c s4 := by unfold SentOk; rw [so.sent]; exact h3.sent
      rcases x4 with x4 | x4
      · rw [x4]; exact this
      · rw [x4]; exact this
  have rest : TickOut c strict pfx0 t s
      (if (!t.vchanOpen && s2.inbox.isEmpty && s2.buf.length == 0) = true then .leave s2
        else ioPoll c t (ioUsr1 c t s2)) := by
    split_ifs
    · exact ⟨.inl h2, hloc⟩
    have hus : ioUsr1 c t s2 = s2 := by
      unfold ioUsr1
      rw [if_neg]
      rcases hu with hu | hu
      · rw [hu]; simp
      · rw [s2e, e1, hu]; simp
    rw [hus]
    unfold ioPoll
    cases t.poll with
    | eintr => exact ⟨h2, s2e.trans e1, hfin s2 rfl id List.suffix_rfl⟩
    | error => exact ⟨.inl h2, hloc⟩
    | ready =>
      dsimp only
      split_ifs
      · exact h2.sent
      all_goals
        first
        | (generalize hs3 : closeStdin c t.eofOk s2 = s3
           have h3 : OutAll c strict pfx0 s3 := by
             rw [← hs3]; exact closeStdin_out h2 _ (hclose s2 p2)
           obtain ⟨f1, f2, f3, f4, f5, _⟩ := closeStdin_fields c t.eofOk s2
           rw [hs3] at f1 f2 f3 f5
           exact rest3 _ _ s3 h3 (f1.trans p2) (f2.trans i2) (f3.trans (s2e.trans e1)) f5)
        | exact rest3 _ _ s2 h2 p2 i2 (s2e.trans e1) rfl
  unfold ioAllDone
  by_cases hcl : (s2.stdin == false && s2.stdout == false && s2.stderr == false) = true
  · rw [if_pos hcl]
    have hcl' : s2.stdin = false ∧ s2.stdout = false ∧ s2.stderr = false := by
      simp at hcl; exact ⟨hcl.1.1, hcl.1.2, hcl.2⟩
    by_cases hsv : c.isService = true
    · rw [if_pos hsv]
      by_cases hdone : (!c.hasPid || s2.localStatus.isSome) = true
      · rw [if_pos hdone]
        by_cases hok : t.exitCodeOk = true
        · rw [if_pos hok]
          refine ⟨.inr ⟨s2, h2, hsv, hcl'.1, hcl'.2.1, hcl'.2.2, fun hp => ?_, rfl⟩, hloc⟩
          rw [hp] at hdone; simpa using hdone
        · rw [if_neg hok]
          exact h2.sent
      · rw [if_neg hdone]
        exact rest
    · rw [if_neg hsv]
      by_cases hdone : ((!c.hasPid || s2.localStatus.isSome) && decide (s2.remoteStatus ≥ 0)) = true
      · rw [if_pos hdone]; exact ⟨.inl h2, hloc⟩
      · rw [if_neg hdone]
        exact rest
  · rw [if_neg hcl]
    exact rest

end Qrexec
