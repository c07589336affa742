import Verif.Lemmas.Connection
import Verif.Model.DataPoll

/-!
# C118: a connection from both ends
-/
namespace Qrexec

/-- How one end got to where it is. -/
structure SideInv (c : IoCfg) (s0 : IoSt) (me other : CnSide) (ts : List Tick) : Prop where
  st : (ioRun c ts s0).st = me.st
  run : me.fin = .running → ioRun c ts s0 = .next me.st
  left : me.fin = .left → ioRun c ts s0 = .leave me.st
  usr1 : ∀ t ∈ ts, t.usr1 = false ∧ t.poll ≠ .error
  status : ∀ t ∈ ts, ∀ n, t.reaped = some n → n ≤ 255
  items : ∃ torn, ts.flatMap Tick.arrive ++ me.way = other.st.sent.map toItem ++ torn ∧ Torn torn ∧ (other.fin ≠ .failed → torn = [])

/-- What is known about the end of the client. -/
structure ClientLeft (ca : IoCfg) (s0 : IoSt) (x : CnSide × CnSide) (ts : List Tick) : Prop where
  left : x.2.fin = .left
  ok : x.2.st.sendOk = true
  exit : ∃ d, (0x193, d) ∈ x.2.st.sent
  last : ∃ ts' t s1, ts = ts' ++ [t] ∧ ioRun ca ts' s0 = .next s1 ∧ ioTick ca t s1 = .leave x.1.st ∧ t.poll ≠ .error
  all : ts.flatMap Tick.arrive = x.2.st.sent.map toItem

/-- The invariant of the connection. -/
structure CnInv (ca cb : IoCfg) (g : Tick → Prop) (bufB pfxA : Str) (a0 b0 : IoSt) (x : CnSide × CnSide) (tsA tsB : List Tick) : Prop where
  a : SideInv ca a0 x.1 x.2 tsA
  b : SideInv cb b0 x.2 x.1 tsB
  loc : ∀ t ∈ tsA, g t
  okA : x.2.fin = .running → x.1.st.sendOk = true
  okB : x.1.fin = .running → x.2.st.sendOk = true
  exitB : x.1.fin = .running → x.2.fin = .left → ∃ d, (0x193, d) ∈ x.2.st.sent
  got : x.2.st.written <+: bufB ++ conv cb.replaceOut (pfxA ++ x.1.st.readOut)
  endA : x.1.fin = .left → x.2.fin ≠ .failed → ClientLeft ca a0 x tsA

theorem outcome_st (r : IoStep) : (ioOutcome r).1 = r.st := by cases r <;> rfl

/-- One more iteration of one end. -/
theorem SideInv.tick {c : IoCfg} {s0 : IoSt} {me other : CnSide} {ts : List Tick} (h : SideInv c s0 me other ts) (t : Tick)
    (k : CnOk t me other) : SideInv c s0 (cnTick c t me other).1 (cnTick c t me other).2 (ts ++ [t]) := by
  have hr := h.run k.runs
  have e : ioRun c (ts ++ [t]) s0 = ioTick c t me.st := by
    rw [ioRun_append, hr]
    dsimp only
    rw [ioRun]
    cases ioTick c t me.st <;> rfl
  refine ⟨?_, ?_, ?_, ?_, ?_, ?_⟩
  · rw [e]; exact (outcome_st _).symm
  · unfold cnTick
    rw [e]
    dsimp only
    cases ioTick c t me.st <;> intro hf <;> first | rfl | cases hf
  · unfold cnTick
    rw [e]
    dsimp only
    cases ioTick c t me.st <;> intro hf <;> first | rfl | cases hf
  · intro t' ht'
    rcases List.mem_append.1 ht' with h' | h'
    · exact h.usr1 t' h'
    · rw [List.mem_singleton.1 h']; exact ⟨k.usr1, k.poll⟩
  · intro t' ht'
    rcases List.mem_append.1 ht' with h' | h'
    · exact h.status t' h'
    · rw [List.mem_singleton.1 h']; exact k.status
  · unfold cnTick
    dsimp only
    obtain ⟨rest, hrest⟩ := k.comes
    obtain ⟨torn, e1, e2, e3⟩ := h.items
    refine ⟨torn, ?_, e2, e3⟩
    rw [← e1, List.flatMap_append, List.append_assoc, ← hrest]
    simp

/-- The other end has sent more. -/
theorem SideInv.other {c ct : IoCfg} {s0 : IoSt} {me other : CnSide} {ts : List Tick} (h : SideInv c s0 me other ts) (t : Tick)
    (k : CnOk t other me) : SideInv c s0 (cnTick ct t other me).2 (cnTick ct t other me).1 ts := by
  refine ⟨h.st, h.run, h.left, h.usr1, h.status, ?_⟩
  obtain ⟨torn, e1, e2, e3⟩ := h.items
  have e4 := e3 (by rw [k.runs]; decide)
  refine ⟨[], ?_, .inl rfl, fun _ => rfl⟩
  rw [e4, List.append_nil] at e1
  unfold cnTick
  dsimp only
  rw [outcome_st, ← List.append_assoc, e1, List.append_nil]
  obtain ⟨new, hn⟩ := (ioTick_grow False ct t other.st k.usr1 (fun h => h.elim)).sent
  rw [← hn, List.drop_left, List.map_append]
  rfl

/-- One of the ends dies. -/
theorem SideInv.dies {c : IoCfg} {s0 : IoSt} {me other other' : CnSide} {ts : List Tick} (h : SideInv c s0 me other ts)
    (e : other'.st = other.st ∧ other'.fin = other.fin) : SideInv c s0 { me with fin := .failed } other' ts :=
  ⟨h.st, (fun e => nomatch e), (fun e => nomatch e), h.usr1, h.status, by rw [e.1, e.2]; exact h.items⟩

/-- The other end dies. -/
theorem SideInv.sees {c : IoCfg} {s0 : IoSt} {me other : CnSide} {ts : List Tick} (h : SideInv c s0 me other ts) {torn : List InItem}
    (ht : Torn torn) (hr : other.fin = .running) :
    SideInv c s0 { me with way := me.way ++ torn } { other with fin := .failed } ts := by
  obtain ⟨torn0, e1, _, e3⟩ := h.items
  refine ⟨h.st, h.run, h.left, h.usr1, h.status, torn, ?_, ht, fun hn => absurd rfl hn⟩
  rw [e3 (by rw [hr]; decide), List.append_nil] at e1
  dsimp only
  rw [← List.append_assoc, e1]

/-- A client leaves the loop with the status of the service, or because the vchan is closed and empty. -/
theorem ioTick_leave_client (c : IoCfg) (hc : c.isService = false) (t : Tick) (s s' : IoSt) (hp : t.poll ≠ .error)
    (h : ioTick c t s = .leave s') :
    (s'.remoteStatus ≥ 0 ∧ s'.stdin = false) ∨ t.vchanOpen = false ∧ s'.inbox = [] ∧ s'.buf = [] := by
  unfold ioTick at h
  dsimp only at h
  generalize ioReap c t { s with inbox := s.inbox ++ t.arrive } = s2 at h
  have hn : (if !t.vchanOpen && s2.inbox.isEmpty && s2.buf.length == 0 then IoStep.leave s2 else ioPoll c t (ioUsr1 c t s2)) = .leave s' →
      t.vchanOpen = false ∧ s'.inbox = [] ∧ s'.buf = [] := by
    intro hx
    by_cases hv : (!t.vchanOpen && s2.inbox.isEmpty && s2.buf.length == 0) = true
    · rw [if_pos hv] at hx
      cases hx
      simp at hv
      exact ⟨hv.1.1, hv.1.2, hv.2⟩
    · rw [if_neg hv] at hx
      exact absurd hx (ioPoll_noLeave c t _ _ hp)
  unfold ioAllDone at h
  by_cases a1 : (s2.stdin == false && s2.stdout == false && s2.stderr == false) = true
  · rw [if_pos a1, if_neg (by rw [hc]; decide)] at h
    by_cases a3 : ((!c.hasPid || s2.localStatus.isSome) && decide (s2.remoteStatus ≥ 0)) = true
    · rw [if_pos a3] at h
      cases h
      simp at a3 a1
      exact .inl ⟨a3.2, a1.1.1⟩
    · rw [if_neg a3] at h; exact .inr (hn h)
  · rw [if_neg a1] at h; exact .inr (hn h)

theorem lastExit_some (l : List InItem) (x : Int) (h : lastExit l = some x) : ∃ d, InItem.msg 0x193 d ∈ l := by
  induction l with
  | nil => cases h
  | cons i l ih =>
    unfold lastExit at h
    cases hl : lastExit l with
    | some y =>
      obtain ⟨d, hd⟩ := ih (by rw [hl]; rw [hl] at h; exact h)
      exact ⟨d, List.mem_cons_of_mem _ hd⟩
    | none =>
      rw [hl] at h
      cases i with
      | broken => cases h
      | msg t d =>
        dsimp only at h
        by_cases ht : t = 0x193
        · subst ht; exact ⟨d, List.mem_cons_self ..⟩
        · rw [if_neg ht] at h; cases h

theorem track_start (c : IoCfg) (socket hasErr : Bool) (buf pfx : Str) : Track c (ioStart c socket hasErr buf pfx) := by
  unfold Track ioStart
  refine ⟨rfl, ?_⟩
  simp [stderrData, conv]

/-- The last of the messages of a service is its exit message: who has received that has received everything. -/
theorem all_received (l rest : List InItem) (sent pre : List DMsg) (e : l ++ rest = sent.map toItem) (d d' : Str)
    (hs : sent = pre ++ [(0x193, d)]) (hpre : ∀ m ∈ pre, m.1 ≠ 0x193) (hd : InItem.msg 0x193 d' ∈ l) : rest = [] := by
  by_contra hne
  have hlast := congrArg List.dropLast e
  rw [List.dropLast_append_of_ne_nil hne, hs, List.map_append] at hlast
  simp only [List.map_cons, List.map_nil, List.dropLast_concat] at hlast
  have hm : InItem.msg 0x193 d' ∈ pre.map toItem := by rw [← hlast]; exact List.mem_append_left _ hd
  obtain ⟨m, hm1, hm2⟩ := List.mem_map.1 hm
  unfold toItem at hm2
  simp only [InItem.msg.injEq] at hm2
  exact hpre m hm1 hm2.1

/-- What an end sends: no message is too long, and there are data of one type only. -/
theorem run_sizes (c : IoCfg) (v : Nat) (socket hasErr : Bool) (buf pfx : Str) (ts : List Tick) (hv : c.maxChunk = maxDataChunk v)
    (hu : ∀ t ∈ ts, t.usr1 = false) :
    ∀ m ∈ (ioRun c ts (ioStart c socket hasErr buf pfx)).st.sent, m.2.length ≤ maxDataChunk v ∧
      (m.1 = c.outType ∨ isDataType m.1 = false) := by
  have hge := maxDataChunk_ge v
  have h0 : SizeOk c (ioStart c socket hasErr buf pfx) := by
    unfold ioStart SizeOk
    dsimp only
    split_ifs
    · intro m hm; rw [List.mem_singleton.1 hm]; exact ⟨Nat.zero_le _, .inr rfl⟩
    · exact fun _ h => nomatch h
  intro m hm
  obtain ⟨a, b⟩ := ioRun_size c ts _ hu h0 m hm
  exact ⟨by omega, b⟩

/-- Without prefix data at the start there never are any. -/
theorem run_noPfx (c : IoCfg) (socket hasErr : Bool) (buf : Str) (ts : List Tick) (hu : ∀ t ∈ ts, t.usr1 = false) :
    (ioRun c ts (ioStart c socket hasErr buf [])).st.pfx = [] := by
  by_contra h
  exact h (List.append_eq_nil_iff.1 ((ioRun_w c [] ts _ hu (start_w c socket hasErr buf [])) (.inr rfl) |>.2 h).1).2

theorem outType_data (c : IoCfg) : isDataType c.outType = true := by unfold IoCfg.outType; split_ifs <;> rfl

/-- The data that an end can receive are the prefix and what the other has read, or a beginning of it, if no send has failed. -/
theorem data_sent (c : IoCfg) (v : Nat) (socket hasErr : Bool) (buf pfx : Str) (ts : List Tick) (hv : c.maxChunk = maxDataChunk v)
    (hu : ∀ t ∈ ts, t.usr1 = false) (s : IoSt) (hk : Sure pfx s)
    (hs : (ioRun c ts (ioStart c socket hasErr buf pfx)).st = s) : dataBefore (maxDataChunk v) (s.sent.map toItem) <+: pfx ++ s.readOut := by
  have h1 := run_sizes c v socket hasErr buf pfx ts hv hu
  have h2 := ioRun_w c pfx ts _ hu (start_w c socket hasErr buf pfx)
  rw [hs] at h1 h2
  have h2 := (h2 hk).1
  rw [dataBefore_items _ _ (outType_data c) _ h1]
  refine List.IsPrefix.trans ?_ h2
  obtain ⟨rest, hrest⟩ := List.takeWhile_prefix (fun d : Str => !d.isEmpty) (l := outsOf c.outType s.sent)
  exact ⟨rest.flatten, by conv_rhs => rw [← hrest]
                          rw [List.flatten_append]⟩

/-- A part of a message has no data. -/
theorem dataBefore_torn (mx : Nat) (l torn : List InItem) (h : Torn torn) : dataBefore mx (l ++ torn) = dataBefore mx l := by
  induction l with
  | nil => rcases h with rfl | rfl <;> rfl
  | cons i l ih => rw [List.cons_append, dataBefore.eq_def, dataBefore.eq_def mx (i :: l)]; cases i <;> simp only [ih]

theorem side_data {c c' : IoCfg} {v : Nat} {socket hasErr socket' hasErr' : Bool} {buf buf' pfx pfx' : Str} {me other : CnSide}
    {ts ts' : List Tick} (h : SideInv c (ioStart c socket hasErr buf pfx) me other ts)
    (h' : SideInv c' (ioStart c' socket' hasErr' buf' pfx') other me ts')
    (hv : c.maxChunk = maxDataChunk v) (hv' : c'.maxChunk = maxDataChunk v) (hk : Sure pfx' other.st) :
    me.st.written <+: buf ++ conv c.replaceOut (pfx' ++ other.st.readOut) := by
  obtain ⟨p1, p2⟩ := C48_prefix c socket hasErr buf pfx ts _ rfl
  rw [h.st, hv] at p2
  rw [h.st] at p1
  refine p2.trans ((List.prefix_append_right_inj _).2 (conv_prefix _ ?_))
  obtain ⟨torn, e1, e2, _⟩ := h.items
  have hs : me.st.seen <+: other.st.sent.map toItem ++ torn :=
    ((List.prefix_append _ _).trans p1).trans (by rw [← e1]; exact List.prefix_append ..)
  obtain ⟨rest, hrest⟩ := hs
  refine List.IsPrefix.trans ?_ (data_sent c' v socket' hasErr' buf' pfx' ts' hv' (fun t ht => (h'.usr1 t ht).1) _ hk h'.st)
  rw [← dataBefore_torn _ (other.st.sent.map toItem) torn e2, ← hrest]
  exact dataBefore_prefix _ _ _

theorem cn_start_inv (ca cb : IoCfg) (g : Tick → Prop) (sockA sockB hasErr : Bool) (bufA bufB pfxA : Str) (ha : ca.isService = false) :
    CnInv ca cb g bufB pfxA (ioStart ca sockA false bufA pfxA) (ioStart cb sockB hasErr bufB []) (cnStart ca cb sockA sockB hasErr bufA bufB pfxA) [] [] := by
  have e : (ioStart ca sockA false bufA pfxA).sent = [] := by
    unfold ioStart
    dsimp only
    rw [ha]; rfl
  refine ⟨⟨rfl, fun _ => rfl, (fun h => nomatch h), (fun _ h => nomatch h), (fun _ h => nomatch h), [], ?_, .inl rfl, fun _ => rfl⟩,
    ⟨rfl, fun _ => rfl, (fun h => nomatch h), (fun _ h => nomatch h), (fun _ h => nomatch h), [], ?_, .inl rfl, fun _ => rfl⟩, (fun _ h => nomatch h), fun _ => rfl,
    fun _ => rfl, (fun _ h => nomatch h), List.nil_prefix, (fun h => nomatch h)⟩
  · rw [List.append_nil]; rfl
  · rw [List.append_nil]
    show [] = (ioStart ca sockA false bufA pfxA).sent.map toItem
    rw [e]; rfl

theorem cn_step_inv {ca cb : IoCfg} {g : Tick → Prop} {sockA sockB hasErr : Bool} {bufA bufB pfxA : Str} {v : Nat}
    (ha : ca.isService = false) (hb : cb.isService = true) (hva : ca.maxChunk = maxDataChunk v) (hvb : cb.maxChunk = maxDataChunk v)
    {x y : CnSide × CnSide} {tsA tsB : List Tick}
    (h : CnInv ca cb g bufB pfxA (ioStart ca sockA false bufA pfxA) (ioStart cb sockB hasErr bufB []) x tsA tsB) (k : CnStep ca cb g x y) :
    ∃ tsA tsB, CnInv ca cb g bufB pfxA (ioStart ca sockA false bufA pfxA) (ioStart cb sockB hasErr bufB []) y tsA tsB := by
  cases k with
  | client t _ ok hg =>
    have hA := h.a.tick t ok
    have hst := outcome_st (ioTick ca t x.1.st)
    refine ⟨tsA ++ [t], tsB, ⟨hA, h.b.other t ok, ?_, ?_, ?_, ?_, ?_, ?_⟩⟩
    · intro t' ht'
      rcases List.mem_append.1 ht' with h' | h'
      · exact h.loc t' h'
      · rw [List.mem_singleton.1 h']; exact hg
    · intro hf
      have hf : x.2.fin = .running := hf
      have := (ioTick_grow True ca t x.1.st ok.usr1 (fun _ => (ok.works hf).2)).good trivial (h.okA hf)
      show (ioOutcome (ioTick ca t x.1.st)).1.sendOk = true
      rw [hst]; exact this
    · exact fun _ => h.okB ok.runs
    · exact fun _ hl => h.exitB ok.runs hl
    · refine h.got.trans ((List.prefix_append_right_inj _).2 (conv_prefix _ ((List.prefix_append_right_inj _).2 ?_)))
      show _ <+: (ioOutcome (ioTick ca t x.1.st)).1.readOut
      rw [hst]
      exact (ioTick_grow False ca t x.1.st ok.usr1 (fun h => h.elim)).out
    · intro hl hnf
      have hnf : x.2.fin ≠ .failed := hnf
      have hr : ioTick ca t x.1.st = .leave (cnTick ca t x.1 x.2).1.st := by
        unfold cnTick at hl ⊢
        dsimp only at hl ⊢
        cases hq : ioTick ca t x.1.st <;> rw [hq] at hl <;> first | rfl | cases hl
      have hrun := h.a.run ok.runs
      have hall := hA.left hl
      have lv := ioTick_leave_client ca ha t _ _ ok.poll hr
      have lv2 := (ioTick_leave ca ha t _ _ ok.poll hr).2
      have kept := (C48_kept ca sockA false bufA pfxA tsA x.1.st hrun).1
      have itemsA : (tsA ++ [t]).flatMap Tick.arrive ++ x.1.way.drop t.arrive.length = x.2.st.sent.map toItem := by
        obtain ⟨torn, e1, _, e3⟩ := hA.items
        have e1 : (tsA ++ [t]).flatMap Tick.arrive ++ x.1.way.drop t.arrive.length = x.2.st.sent.map toItem ++ torn := e1
        rw [e1, e3 hnf, List.append_nil]
      -- an exit message was received if the client leaves with a status
      have hseen : (cnTick ca t x.1 x.2).1.st.remoteStatus ≥ 0 →
          ∃ d, InItem.msg 0x193 d ∈ (tsA ++ [t]).flatMap Tick.arrive := by
        intro hge
        have hT := ioRun_track ca ha (tsA ++ [t]) _ (track_start ca sockA false bufA pfxA) (by rw [hall]; trivial)
        rw [hall] at hT
        have hx := hT.1
        simp only [IoStep.st] at hx
        cases hq : lastExit (cnTick ca t x.1 x.2).1.st.seen with
        | none => rw [hq] at hx; simp at hx; omega
        | some z =>
          obtain ⟨d, hd⟩ := lastExit_some _ _ hq
          refine ⟨d, ?_⟩
          rw [lv2.1] at hd
          rw [List.flatMap_append, ← kept]
          exact List.mem_append_left _ (List.mem_append_left _ hd)
      have hsv := C63_service cb v hb hvb sockB hasErr bufB [] tsB (.inl rfl) (.inr fun t ht => (h.b.usr1 t ht).1)
      have toSent : ∀ d, InItem.msg 0x193 d ∈ (tsA ++ [t]).flatMap Tick.arrive → (0x193, d) ∈ x.2.st.sent := by
        intro d hd
        have : InItem.msg 0x193 d ∈ x.2.st.sent.map toItem := by rw [← itemsA]; exact List.mem_append_left _ hd
        obtain ⟨m, hm1, hm2⟩ := List.mem_map.1 this
        obtain ⟨mt, md⟩ := m
        simp only [toItem, InItem.msg.injEq] at hm2
        rw [hm2.1, hm2.2] at hm1
        exact hm1
      have hleft : x.2.fin = .left := by
        cases hf : x.2.fin with
        | left => rfl
        | failed => exact absurd hf hnf
        | running =>
          exfalso
          rcases lv with lv | lv
          · obtain ⟨d, hd⟩ := hseen lv.1
            exact hsv.1 _ (h.b.run hf) _ (toSent d hd) rfl
          · rw [(ok.works hf).1] at lv; exact absurd lv.1 (by decide)
      have hexit := h.exitB ok.runs hleft
      refine ⟨hleft, h.okB ok.runs, hexit, ⟨tsA, t, x.1.st, rfl, hrun, hr, ok.poll⟩, ?_⟩
      have hway : x.1.way.drop t.arrive.length = [] := by
        rcases lv with lv | lv
        · obtain ⟨d, hd⟩ := hseen lv.1
          rcases hsv.2 _ (h.b.left hleft) with e | ⟨pre, st, e1, e2, _⟩
          · exact absurd rfl (e _ (toSent d hd))
          · exact all_received _ _ _ pre itemsA _ d e1 e2 hd
        · rw [ok.drained lv.1]; simp
      rw [hway, List.append_nil] at itemsA
      exact itemsA
  | service t _ ok =>
    refine ⟨tsA, tsB ++ [t], ⟨h.a.other t ok, h.b.tick t ok, h.loc, ?_, ?_, ?_, ?_, ?_⟩⟩
    · exact fun _ => h.okA ok.runs
    · intro hf
      have hf : x.1.fin = .running := hf
      have := (ioTick_grow True cb t x.2.st ok.usr1 (fun _ => (ok.works hf).2)).good trivial (h.okB hf)
      show (ioOutcome (ioTick cb t x.2.st)).1.sendOk = true
      rw [outcome_st]; exact this
    · intro hf hl
      have hf : x.1.fin = .running := hf
      have hr : ioTick cb t x.2.st = .leave (cnTick cb t x.2 x.1).1.st := by
        have hl : (cnTick cb t x.2 x.1).1.fin = .left := hl
        unfold cnTick at hl ⊢
        dsimp only at hl ⊢
        cases hq : ioTick cb t x.2.st <;> rw [hq] at hl <;> first | rfl | cases hl
      rcases ioTick_leave_service cb hb t _ _ ok.poll hr with e | e
      · rw [(ok.works hf).1] at e; cases e
      · exact e
    · exact side_data (h.b.tick t ok) (h.a.other t ok) hvb hva (.inl (h.okA ok.runs))
    · intro hl hnf
      have hl : x.1.fin = .left := hl
      have := (h.endA hl (by rw [ok.runs]; decide)).left
      rw [ok.runs] at this; cases this
  | clientDies _ torn hf ht =>
    exact ⟨tsA, tsB, ⟨h.a.dies ⟨rfl, rfl⟩, h.b.sees ht hf, h.loc, h.okA, (fun e => nomatch e), (fun e => nomatch e), h.got, (fun e => nomatch e)⟩⟩
  | serviceDies _ torn hf ht =>
    exact ⟨tsA, tsB, ⟨h.a.sees ht hf, h.b.dies ⟨rfl, rfl⟩, h.loc, (fun e => nomatch e), h.okB, (fun _ e => nomatch e), h.got, fun _ e => absurd rfl e⟩⟩

theorem cn_inv {ca cb : IoCfg} {g : Tick → Prop} {sockA sockB hasErr : Bool} {bufA bufB pfxA : Str} {v : Nat}
    (ha : ca.isService = false) (hb : cb.isService = true) (hva : ca.maxChunk = maxDataChunk v) (hvb : cb.maxChunk = maxDataChunk v)
    {x : CnSide × CnSide} (h : CnReach ca cb g (cnStart ca cb sockA sockB hasErr bufA bufB pfxA) x) :
    ∃ tsA tsB, CnInv ca cb g bufB pfxA (ioStart ca sockA false bufA pfxA) (ioStart cb sockB hasErr bufB []) x tsA tsB := by
  induction h with
  | start => exact ⟨[], [], cn_start_inv ca cb g sockA sockB hasErr bufA bufB pfxA ha⟩
  | step h k ih =>
    obtain ⟨tsA, tsB, ih⟩ := ih
    exact cn_step_inv ha hb hva hvb ih k

/-- **C118, nothing is invented.** At every point of a connection, whatever the ends and the programs at them do, whichever of
them dies and whatever is on its way: what a program has been given is what was there before, then the prefix data of the other
end, and then what was read from the program there, or a beginning of all this. -/
theorem C118_data (ca cb : IoCfg) (g : Tick → Prop) (v : Nat) (sockA sockB hasErr : Bool) (bufA bufB pfxA : Str) (x : CnSide × CnSide)
    (ha : ca.isService = false) (hb : cb.isService = true) (hva : ca.maxChunk = maxDataChunk v) (hvb : cb.maxChunk = maxDataChunk v)
    (h : CnReach ca cb g (cnStart ca cb sockA sockB hasErr bufA bufB pfxA) x) :
    x.1.st.written <+: bufA ++ conv ca.replaceOut x.2.st.readOut ∧ x.2.st.written <+: bufB ++ conv cb.replaceOut (pfxA ++ x.1.st.readOut) := by
  obtain ⟨tsA, tsB, i⟩ := cn_inv ha hb hva hvb h
  exact ⟨side_data i.a i.b hva hvb (.inr rfl), i.got⟩

/-- **C118, who is last.** A client does not leave before the service: if it has left, the service has left before, or has died. -/
theorem C118_order (ca cb : IoCfg) (g : Tick → Prop) (v : Nat) (sockA sockB hasErr : Bool) (bufA bufB pfxA : Str) (x : CnSide × CnSide)
    (ha : ca.isService = false) (hb : cb.isService = true) (hva : ca.maxChunk = maxDataChunk v) (hvb : cb.maxChunk = maxDataChunk v)
    (h : CnReach ca cb g (cnStart ca cb sockA sockB hasErr bufA bufB pfxA) x) (hl : x.1.fin = .left) : x.2.fin ≠ .running := by
  obtain ⟨tsA, tsB, i⟩ := cn_inv ha hb hva hvb h
  intro hr
  have := (i.endA hl (by rw [hr]; decide)).left
  rw [hr] at this; cases this

/-- **C118, the result.** If a client without a program of its own has left and the service has not died, the client returns the
status of the program of the service, and it has printed everything that this program wrote to its stderr. -/
theorem C118_status (ca cb : IoCfg) (g : Tick → Prop) (v : Nat) (sockA sockB hasErr : Bool) (bufA bufB pfxA : Str) (x : CnSide × CnSide)
    (ha : ca.isService = false) (hb : cb.isService = true) (hva : ca.maxChunk = maxDataChunk v) (hvb : cb.maxChunk = maxDataChunk v) (hp : ca.hasPid = false)
    (h : CnReach ca cb g (cnStart ca cb sockA sockB hasErr bufA bufB pfxA) x) (hl : x.1.fin = .left) (hn : x.2.fin ≠ .failed)
    (eofOk : Bool) (late : Option Nat) :
    (ioFinish ca eofOk late x.1.st).2 = (if cb.hasPid then ((x.2.st.localStatus.getD 0 : Nat) : Int) else 0) ∧
    x.1.st.logged = conv ca.replaceErr x.2.st.readErr := by
  obtain ⟨tsA, tsB, i⟩ := cn_inv ha hb hva hvb h
  obtain ⟨k1, k2, k3, ⟨ts', t, s1, k4, k5, k6, k7⟩, k8⟩ := i.endA hl hn
  have hrun := i.b.left k1
  refine C63_end_to_end_partial cb v hb hvb sockB hasErr bufB [] tsB x.2.st (.inl rfl) (.inr fun t ht => (i.b.usr1 t ht).1) hrun k2 k3 ?_ ca ha hp sockA
    bufA pfxA ts' t s1 x.1.st k5 k6 k7 (by rw [← k4]; exact k8) eofOk late
  intro st hst
  have hge := maxDataChunk_ge v
  have := (ioRun_out cb (by omega) False [] tsB _ (start_out cb _ sockB hasErr bufB [] (by rw [hb]; exact fun h => nomatch h))
    (fun h => absurd h id) (.inl rfl) (.inr fun t ht => (i.b.usr1 t ht).1)).2 (by rw [hrun]; trivial)
  rw [hrun] at this
  simp only [IoStep.st] at this
  rcases this with e | ⟨t, ht, e⟩
  · rw [hst] at e; cases e
  · exact i.b.status t ht st (by rw [← e, hst])

/-- The program at this end takes its input: it neither exits nor closes it, and no write to it fails. -/
def TakesInput (t : Tick) : Prop :=
  t.reaped = none ∧ t.stdinHup = false ∧ ∀ k ∈ t.writes, k = .eagain ∨ ∃ n, k = .part n

/-- **C118, nothing is lost.** If the client has left, the service has not died and the program of the client takes its input,
then this program has been given everything that was there before and everything that was read from the program of the service. -/
theorem C118_complete (ca cb : IoCfg) (g : Tick → Prop) (hg : ∀ t, g t → TakesInput t) (v : Nat) (sockA sockB hasErr : Bool) (bufA bufB pfxA : Str) (x : CnSide × CnSide)
    (ha : ca.isService = false) (hb : cb.isService = true) (hva : ca.maxChunk = maxDataChunk v) (hvb : cb.maxChunk = maxDataChunk v)
    (he : ca.exitOnStdoutEof = false)
    (h : CnReach ca cb g (cnStart ca cb sockA sockB hasErr bufA bufB pfxA) x) (hl : x.1.fin = .left) (hn : x.2.fin ≠ .failed) :
    x.1.st.written = bufA ++ conv ca.replaceOut x.2.st.readOut := by
  obtain ⟨tsA, tsB, i⟩ := cn_inv ha hb hva hvb h
  obtain ⟨k1, k2, k3, ⟨ts', t, s1, k4, k5, k6, k7⟩, k8⟩ := i.endA hl hn
  have hrunB := i.b.left k1
  have hrunA := i.a.left hl
  obtain ⟨data, h1, _, h3, _⟩ := C49_sent cb v sockB hasErr bufB [] tsB x.2.st hvb (by rw [hb]; exact fun h => nomatch h) (.inr hrunB)
    (.inl rfl) (.inr fun t ht => (i.b.usr1 t ht).1) k2
  have hpfx : x.2.st.pfx = [] := by
    have := run_noPfx cb sockB hasErr bufB tsB (fun t ht => (i.b.usr1 t ht).1)
    rw [i.b.st] at this
    exact this
  rw [hpfx, List.append_nil, List.nil_append] at h1
  have hT : (if cb.isService then 0x191 else 0x190) = cb.outType := rfl
  rw [hT] at h3
  have hsz := run_sizes cb v sockB hasErr bufB [] tsB hvb (fun t ht => (i.b.usr1 t ht).1)
  rw [i.b.st] at hsz
  have hall : dataBefore (maxDataChunk v) (x.2.st.sent.map toItem) = x.2.st.readOut := by
    rw [dataBefore_items _ _ (outType_data cb) _ hsz, ← h1]
    obtain ⟨cs, c1, c2, c3⟩ := h3
    obtain ⟨w1, w2⟩ := takeWhile_chunks cs c1
    rcases c3 with ⟨c3, _⟩ | ⟨c3, _⟩
    · rw [c3, w1, c2]
    · rw [c3, w2, c2]
  have hseen : x.1.st.seen <+: x.2.st.sent.map toItem := by
    have := (C48_prefix ca sockA false bufA pfxA tsA _ hrunA).1
    rw [k8] at this
    exact (List.prefix_append _ _).trans this
  by_cases hsi : x.1.st.stdin = true
  · have lv := ioTick_leave_client ca ha t _ _ k7 k6
    have lv2 := (ioTick_leave ca ha t _ _ k7 k6).2
    rcases lv with lv | lv
    · rw [lv.2] at hsi; cases hsi
    · have hk := (ioRun_in ca bufA tsA _ (start_in ca sockA false bufA pfxA).1 (start_in ca sockA false bufA pfxA).2.1)
      rw [hrunA] at hk
      obtain ⟨e, _⟩ := hk.kept trivial hsi
      simp only [IoStep.st] at e
      rw [lv.2.2, List.append_nil, hva] at e
      have hs : x.1.st.seen = x.2.st.sent.map toItem := by
        have kept := (C48_kept ca sockA false bufA pfxA ts' s1 k5).1
        rw [← k8, k4, List.flatMap_append, ← kept, List.append_assoc]
        simp only [List.flatMap_cons, List.flatMap_nil, List.append_nil]
        rw [← lv2.2, lv.2.1, lv2.1, List.append_nil]
      rw [e, hs, hall]
  · have hsi : x.1.st.stdin = false := by simpa using hsi
    obtain ⟨⟨ty, hty, hm⟩, q2⟩ := C48_eof ca sockA false bufA pfxA tsA _ hrunA trivial (fun t ht => hg t (i.loc t ht)) he hsi
    simp only [IoStep.st] at q2 hm
    rw [q2, hva]
    obtain ⟨rest, hrest⟩ := hseen
    rw [← hall, ← hrest]
    congr 2
    exact (dataBefore_ended _ _ _ ⟨_, hm, by simp [endsData, hty]⟩).symm

/-- **C118, nobody waits for nothing.** The prefix data have been sent, both ends sleep (for as long as nothing happens, up to ten seconds), nothing is on its way, and
an end that has not received all has not more than fits into the vchan: there is room for the other as soon as nothing waits here.
Then what a program has to say is only left unread because the other end holds data that the program there does not take (or has
closed its input to). If neither end holds data, nothing that the programs have said is unread. -/
theorem C118_quiet (ca cb : IoCfg) (g : Tick → Prop) (v : Nat) (sockA sockB hasErr : Bool) (bufA bufB pfxA : Str) (x : CnSide × CnSide)
    (ha : ca.isService = false) (hb : cb.isService = true) (hva : ca.maxChunk = maxDataChunk v) (hvb : cb.maxChunk = maxDataChunk v)
    (h : CnReach ca cb g (cnStart ca cb sockA sockB hasErr bufA bufB pfxA) x) (ea eb : IoReady)
    (pa : x.1.st.pfx = []) (sa : ioSleeps x.1.st ea = true) (sb : ioSleeps x.2.st eb = true)
    (ra : x.2.st.inbox = [] → ea.space > 8) (rb : x.1.st.inbox = [] → eb.space > 8) :
    (x.1.st.stdout = true → ea.outData = true → x.2.st.buf ≠ [] ∧ (x.2.st.stdin = true → eb.writable = false)) ∧
    (x.2.st.stdout = true → eb.outData = true → x.1.st.buf ≠ [] ∧ (x.1.st.stdin = true → ea.writable = false)) ∧
    (x.2.st.stderr = true → eb.errData = true → x.1.st.buf ≠ [] ∧ (x.1.st.stdin = true → ea.writable = false)) := by
  obtain ⟨tsA, tsB, i⟩ := cn_inv ha hb hva hvb h
  have pb : x.2.st.pfx = [] := by
    have := run_noPfx cb sockB hasErr bufB tsB (fun t ht => (i.b.usr1 t ht).1)
    rw [i.b.st] at this; exact this
  have full : ∀ (s : IoSt) (e : IoReady), ioSleeps s e = true → s.inbox ≠ [] → s.buf ≠ [] ∧ (s.stdin = true → e.writable = false) := by
    intro s e hs hi
    unfold ioSleeps at hs
    simp only [Bool.not_eq_true', Bool.or_eq_false_iff, Bool.and_eq_false_iff, decide_eq_false_iff_not, beq_eq_false_iff_ne,
      gt_iff_lt, List.length_pos_iff, ne_eq, Bool.not_eq_false', Bool.not_eq_false, List.length_eq_zero_iff,
      List.isEmpty_iff, not_not] at hs
    obtain ⟨⟨⟨⟨⟨h1, _⟩, _⟩, _⟩, _⟩, h4⟩ := hs
    have hbuf : s.buf ≠ [] := fun hb => by
      rcases h4 with h4 | h4
      · exact h4 hb
      · exact hi h4
    refine ⟨hbuf, fun hsi => ?_⟩
    rcases h1 with h1 | ⟨_, h1 | h1⟩
    · rw [h1] at hsi; cases hsi
    · exact absurd h1 hbuf
    · exact h1
  have room : ∀ (s : IoSt) (e : IoReady), ioSleeps s e = true → s.pfx = [] → e.space > 8 →
      (s.stdout = true → e.outData = false) ∧ (s.stderr = true → e.errData = false) := by
    intro s e hs hp hr
    unfold ioSleeps at hs
    simp only [hp, hr, decide_true, Bool.true_and, List.length_nil, beq_self_eq_true, Bool.not_eq_true', Bool.or_eq_false_iff,
      Bool.and_eq_false_iff] at hs
    obtain ⟨⟨⟨⟨⟨_, h2⟩, h3⟩, _⟩, _⟩, _⟩ := hs
    refine ⟨fun ho => ?_, fun he => ?_⟩
    · rcases h2 with h2 | h2
      · rw [h2] at ho; cases ho
      · exact h2
    · rcases h3 with h3 | h3
      · rw [h3] at he; cases he
      · exact h3
  refine ⟨fun ho hd => full _ eb sb fun hi => ?_, fun ho hd => full _ ea sa fun hi => ?_, fun ho hd => full _ ea sa fun hi => ?_⟩
  · rw [(room _ ea sa pa (ra hi)).1 ho] at hd; cases hd
  · rw [(room _ eb sb pb (rb hi)).1 ho] at hd; cases hd
  · rw [(room _ eb sb pb (rb hi)).2 ho] at hd; cases hd

/-! ## An example -/

/-- Can this iteration happen? -/
def cnOkB (t : Tick) (me other : CnSide) : Bool :=
  decide (me.fin = .running) && decide (t.arrive <+: me.way) &&
  (decide (other.fin ≠ .running) || (t.vchanOpen && t.eofOk && t.exitCodeOk && (t.out ++ t.err).all fun o => o.hdrOk && o.bodyOk)) &&
  (t.vchanOpen || decide (t.arrive = me.way)) && decide (t.poll ≠ .error) && !t.usr1 && decide (t.reaped.getD 0 ≤ 255)

theorem cnOkB_ok (t : Tick) (me other : CnSide) (h : cnOkB t me other = true) : CnOk t me other := by
  unfold cnOkB at h
  simp only [Bool.and_eq_true, decide_eq_true_eq, Bool.or_eq_true, List.all_eq_true, Bool.not_eq_true'] at h
  obtain ⟨⟨⟨⟨⟨⟨h1, h2⟩, h3⟩, h4⟩, h5⟩, h6⟩, h7⟩ := h
  refine ⟨h1, h2, fun hr => ?_, fun hv => ?_, h5, h6, fun n hn => ?_⟩
  · rcases h3 with h3 | ⟨⟨⟨a, b⟩, c⟩, d⟩
    · exact absurd hr h3
    · exact ⟨a, b, c, d⟩
  · rcases h4 with h4 | h4
    · rw [hv] at h4; cases h4
    · exact h4
  · rw [hn] at h7; exact h7

/-- Iterations of the client (`true`) and the service. -/
def cnRunB (ca cb : IoCfg) : List (Bool × Tick) → CnSide × CnSide → Option (CnSide × CnSide)
  | [], x => some x
  | (true, t) :: l, x => if cnOkB t x.1 x.2 then cnRunB ca cb l (cnTick ca t x.1 x.2) else none
  | (false, t) :: l, x => if cnOkB t x.2 x.1 then cnRunB ca cb l (cnTick cb t x.2 x.1).swap else none

theorem cnRunB_reach (ca cb : IoCfg) (g : Tick → Prop) {x0 y : CnSide × CnSide} (l : List (Bool × Tick)) (x : CnSide × CnSide)
    (hg : ∀ p ∈ l, p.1 = true → g p.2) (h : CnReach ca cb g x0 x) (hr : cnRunB ca cb l x = some y) : CnReach ca cb g x0 y := by
  induction l generalizing x with
  | nil => cases hr; exact h
  | cons p l ih =>
    obtain ⟨b, t⟩ := p
    have hg' : ∀ p ∈ l, p.1 = true → g p.2 := fun p hp => hg p (List.mem_cons_of_mem _ hp)
    cases b with
    | true =>
      rw [cnRunB] at hr
      split_ifs at hr with hk
      exact ih _ hg' (h.step (.client t x (cnOkB_ok _ _ _ hk) (hg (true, t) (List.mem_cons_self ..) rfl))) hr
    | false =>
      rw [cnRunB] at hr
      split_ifs at hr with hk
      exact ih _ hg' (h.step (.service t x (cnOkB_ok _ _ _ hk))) hr

/-- A service with a program, and a client without one. -/
def exCnA : IoCfg := { isService := false, hasPid := false, replaceOut := true, maxChunk := maxDataChunk 3 }
def exCnB : IoCfg := { isService := true, hasPid := true, maxChunk := maxDataChunk 3 }

/-- The client sends a question; the service answers, complains, and exits with status 7. -/
def exCnTicks : List (Bool × Tick) :=
  [ (true, { outReady := true, out := [⟨100, .got c!"ques", true, true, none⟩, ⟨100, .got c!"tion", true, true, none⟩, ⟨100, .got [], true, true, none⟩] }),
    (false, { arrive := [.msg 0x190 c!"ques", .msg 0x190 c!"tion"], writes := [.part 99, .part 1, .eagain] }),
    (false, { arrive := [.msg 0x190 []], writes := [.part 0, .part 0], outReady := true, out := [⟨100, .got c!"ans", true, true, none⟩],
              errReady := true, err := [⟨100, .got c!"hm", true, true, none⟩] }),
    (true, { arrive := [.msg 0x191 c!"ans"], writes := [.part 0, .eagain] }),
    (false, { reaped := some 7, outReady := true, out := [⟨100, .got c!"wer", true, true, none⟩, ⟨100, .got [], true, true, none⟩],
              errReady := true, err := [⟨100, .got [], true, true, none⟩] }),
    (false, {}),
    (true, { arrive := [.msg 0x192 c!"hm", .msg 0x191 c!"wer"], writes := [.part 9, .part 9, .part 9] }),
    (true, { arrive := [.msg 0x191 [], .msg 0x192 [], .msg 0x193 (i32le 7)], vchanOpen := false }),
    (true, { vchanOpen := false, errReady := false }),
    (true, { vchanOpen := false, errReady := false }) ]

set_option maxRecDepth 100000 in
/-- The hypotheses of `C118_order`, `C118_status` and `C118_complete` are met. -/
theorem C118_example : ∃ x, CnReach exCnA exCnB TakesInput (cnStart exCnA exCnB false false true c!"<" []) x ∧ x.1.fin = .left ∧
    x.2.fin = .left ∧ x.1.st.written = c!"<answer" ∧ x.2.st.written = c!"question" ∧ x.1.st.logged = c!"hm" ∧
    (ioFinish exCnA true none x.1.st).2 = 7 := by
  refine ⟨_, cnRunB_reach exCnA exCnB TakesInput exCnTicks _ ?_ .start (y := (cnRunB exCnA exCnB exCnTicks
    (cnStart exCnA exCnB false false true c!"<" [])).getD (cnStart exCnA exCnB false false true c!"<" [])) ?_, ?_, ?_, ?_, ?_, ?_, ?_⟩
  · unfold exCnTicks TakesInput
    simp
  all_goals decide +kernel

set_option maxRecDepth 100000 in
/-- The hypotheses of `C118_quiet` are met, and there is something to be read at the service: the program of the client is slow. -/
example : ∃ x ea eb, CnReach exCnA exCnB (fun _ => True) (cnStart exCnA exCnB false false true [] []) x ∧ ioSleeps x.1.st ea = true ∧
    ioSleeps x.2.st eb = true ∧ x.1.st.inbox ≠ [] ∧ eb.space ≤ 8 ∧ eb.outData = true ∧ x.2.st.stdout = true ∧ x.1.st.buf = c!"b" ∧ ea.space > 8 := by
  refine ⟨_, { space := 1000 }, { outData := true, space := 3 }, cnRunB_reach exCnA exCnB _
    [(false, { outReady := true, out := [⟨100, .got c!"ab", true, true, none⟩, ⟨100, .got c!"c", true, true, none⟩] }),
     (true, { arrive := [.msg 0x191 c!"ab", .msg 0x191 c!"c"], writes := [.part 0, .eagain] })] _ (fun _ _ _ => trivial) .start
    (y := (cnRunB exCnA exCnB
    [(false, { outReady := true, out := [⟨100, .got c!"ab", true, true, none⟩, ⟨100, .got c!"c", true, true, none⟩] }),
     (true, { arrive := [.msg 0x191 c!"ab", .msg 0x191 c!"c"], writes := [.part 0, .eagain] })]
    (cnStart exCnA exCnB false false true [] [])).getD (cnStart exCnA exCnB false false true [] [])) ?_, ?_, ?_, ?_, ?_, ?_, ?_, ?_, ?_⟩
  all_goals decide +kernel

set_option maxRecDepth 100000 in
/-- With prefix data: they are split by the space in the vchan, and the data read later follow them. -/
example : ∃ x, CnReach exCnA exCnB TakesInput (cnStart exCnA exCnB false false true [] c!"[" c!"prefix:") x ∧
    x.2.st.written = c!"[prefix:ques" ∧ x.1.st.readOut = c!"ques" ∧ x.1.st.pfx = [] := by
  refine ⟨_, cnRunB_reach exCnA exCnB TakesInput
    [(true, { out := [⟨12, .again, true, true, none⟩, ⟨0, .again, true, true, none⟩] }),
     (true, { outReady := true, out := [⟨99, .again, true, true, none⟩, ⟨99, .got c!"ques", true, true, none⟩, ⟨99, .again, true, true, none⟩] }),
     (false, { arrive := [.msg 0x190 c!"pref", .msg 0x190 c!"ix:", .msg 0x190 c!"ques"], writes := List.replicate 20 (.part 0) })] _
    (by unfold TakesInput; simp) .start
    (y := (cnRunB exCnA exCnB
    [(true, { out := [⟨12, .again, true, true, none⟩, ⟨0, .again, true, true, none⟩] }),
     (true, { outReady := true, out := [⟨99, .again, true, true, none⟩, ⟨99, .got c!"ques", true, true, none⟩, ⟨99, .again, true, true, none⟩] }),
     (false, { arrive := [.msg 0x190 c!"pref", .msg 0x190 c!"ix:", .msg 0x190 c!"ques"], writes := List.replicate 20 (.part 0) })]
    (cnStart exCnA exCnB false false true [] c!"[" c!"prefix:")).getD (cnStart exCnA exCnB false false true [] c!"[" c!"prefix:")) ?_, ?_, ?_, ?_⟩
  all_goals decide +kernel

end Qrexec
