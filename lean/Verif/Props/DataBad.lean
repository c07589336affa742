import Verif.Props.ExitCode

/-!
# Examples for C49 and C63, and what does not hold
-/
namespace Qrexec

/-! ## Examples -/

/-- A service with a process: it writes to both streams and exits with status 3. -/
def demoSvc : IoCfg := { isService := true, hasPid := true, maxChunk := maxDataChunk 3 }

def demoSvcTicks : List Tick :=
  [{ outReady := true, out := [⟨12, .got c!"hello world", true, true, none⟩, ⟨100, .again, true, true, none⟩] },
   { errReady := true, err := [⟨100, .got c!"oops", true, true, none⟩] },
   { reaped := some 3, outReady := true, out := [⟨100, .got c!"bye", true, true, none⟩, ⟨100, .got [], true, true, none⟩],
     errReady := true, err := [⟨100, .connReset, true, true, none⟩] },
   { }]

def demoSvcEnd : IoSt := (ioRun demoSvc demoSvcTicks (ioStart demoSvc false true [] [])).st

example : ioRun demoSvc demoSvcTicks (ioStart demoSvc false true [] []) = .leave demoSvcEnd := by decide
example : demoSvcEnd.sent = [(0x191, c!"hell"), (0x192, c!"oops"), (0x191, c!"bye"), (0x191, []), (0x192, []),
    (0x193, i32le 3)] := by decide
example : demoSvcEnd.readOut = c!"hellbye" := by decide
example : demoSvcEnd.sendOk = true := by decide
example : (ioFinish demoSvc true none demoSvcEnd).2 = 3 := by decide

/-- The client at the other end. -/
def demoCli : IoCfg := { isService := false, hasPid := false, maxChunk := maxDataChunk 3 }

def demoCliTicks : List Tick :=
  [{ arrive := (demoSvcEnd.sent.take 2).map toItem, writes := [.part 1, .eagain] },
   { arrive := (demoSvcEnd.sent.drop 2).map toItem, writes := [.part 9, .part 9] },
   { vchanOpen := false }]

def demoCliEnd : IoSt :=
  (ioRun demoCli (demoCliTicks ++ [({ vchanOpen := false } : Tick)]) (ioStart demoCli false false [] [])).st

example : ∃ s, ioRun demoCli demoCliTicks (ioStart demoCli false false [] []) = .next s ∧
    ioTick demoCli { vchanOpen := false } s = .leave demoCliEnd := ⟨_, rfl, by decide⟩
example : (demoCliTicks ++ [({ vchanOpen := false } : Tick)]).flatMap Tick.arrive =
    demoSvcEnd.sent.map fun m => InItem.msg m.1 m.2 := by decide
example : demoCliEnd.written = c!"hellbye" := by decide
example : demoCliEnd.stdin = false := by decide
example : demoCliEnd.logged = c!"oops" := by decide
example : (ioFinish demoCli true none demoCliEnd).2 = 3 := by decide

/-! ## A client that never ends -/

/-- What makes a client wait forever. -/
structure StuckAt (s : IoSt) : Prop where
  stdin : s.stdin = false
  buf : s.buf ≠ []
  inbox : s.inbox = []
  remote : s.remoteStatus = -1

theorem StuckAt.keep {s s' : IoSt} (h : StuckAt s) (l : LessIn s s') (k : SameIn s s') : StuckAt s' := by
  refine ⟨?_, l.buf ▸ h.buf, l.inbox.trans h.inbox, k.remote.trans h.remote⟩
  rcases l.stdin with e | e
  · exact e.trans h.stdin
  · exact e

theorem ioReap_sameIn (c t) (s : IoSt) : SameIn s (ioReap c t s) := by
  unfold ioReap
  cases t.reaped with
  | none => exact .refl _
  | some st =>
    dsimp only
    split_ifs
    · have := closeStdin_sameIn c t.eofOk { s with localStatus := some st }
      exact ⟨this.remote, this.seen, this.logged⟩
    · exact .refl _

theorem ioUsr1_sameIn (c t) (s : IoSt) : SameIn s (ioUsr1 c t s) := by
  unfold ioUsr1
  split_ifs
  · have := closeStdout_sameIn c s
    exact ⟨this.remote, this.seen, this.logged⟩
  · exact .refl _

theorem inputOut_ok (c : IoCfg) (t : Nat) (os : List OutStep) (s : IoSt) :
    (inputOut c t os s).1 = .ok ∨ (inputOut c t os s).1 = .eof ∨ (inputOut c t os s).1 = .error := by
  induction os generalizing s with
  | nil => exact .inl rfl
  | cons o os ih =>
    rw [inputOut]
    dsimp only
    have sc : ∀ d (s1 : IoSt) r, (sendChunk t d o s1).1 = some r → r = .eof ∨ r = .error := by
      intro d s1 r
      unfold sendChunk
      split_ifs <;> simp <;> intro e <;> simp [← e]
    have go : ∀ d (s1 : IoSt) (x : Rc × IoSt), (match sendChunk t d o s1 with
          | (none, s) => inputOut c t os s
          | (some r, s) => (r, s)) = x → x.1 = .ok ∨ x.1 = .eof ∨ x.1 = .error := by
      intro d s1 x hx
      have h := sc d s1
      generalize sendChunk t d o s1 = r at h hx
      obtain ⟨r, s2⟩ := r
      cases r with
      | none => rw [← hx]; exact ih s2
      | some r => rw [← hx]; exact .inr (h r rfl)
    by_cases h1 : o.space ≤ 8
    · rw [if_pos h1]; exact .inl rfl
    rw [if_neg h1]
    by_cases h2 : (s.pfx.length != 0) = true
    · rw [if_pos h2]; exact go _ _ _ rfl
    rw [if_neg h2]
    by_cases h3 : (s.stdout == false) = true
    · rw [if_pos h3]; exact .inr (.inr rfl)
    rw [if_neg h3]
    cases o.read with
    | again => exact .inl rfl
    | error => exact .inr (.inr rfl)
    | connReset =>
      dsimp only
      have h := sc [] s
      generalize sendChunk t [] o s = r at h
      obtain ⟨r, s2⟩ := r
      cases r with
      | none => exact .inl rfl
      | some r => exact .inr (h r rfl)
    | got d => exact go _ _ _ rfl

theorem stuck_tick (c : IoCfg) (hc : c.isService = false) (t : Tick) (s : IoSt) (h : StuckAt s)
    (ha : t.arrive = []) (hp : t.poll ≠ .error) (hw : t.waitFails = false) (he : t.errReady = false) :
    ∃ s', ioTick c t s = .next s' ∧ StuckAt s' := by
  unfold ioTick
  dsimp only
  rw [ha, List.append_nil]
  have h2 := h.keep (ioReap_less c t s).1 (ioReap_sameIn c t s)
  generalize hs2 : ioReap c t { s with inbox := s.inbox } = s2
  rw [show ({ s with inbox := s.inbox } : IoSt) = s from rfl] at hs2
  rw [hs2] at h2
  have hd : ioAllDone c t s2 = none := by
    unfold ioAllDone
    simp only [hc, h2.remote, Bool.false_eq_true, if_false]
    split_ifs <;> simp_all
  rw [hd]
  dsimp only
  have hb : s2.buf.length ≠ 0 := fun e => h2.buf (List.eq_nil_of_length_eq_zero e)
  rw [if_neg (by simp [h2.buf])]
  have h3 := h2.keep (ioUsr1_less c t s2).1 (ioUsr1_sameIn c t s2)
  generalize ioUsr1 c t s2 = s3 at h3 ⊢
  unfold ioPoll
  cases hpoll : t.poll with
  | error => exact absurd hpoll hp
  | eintr => exact ⟨s3, rfl, h3⟩
  | ready =>
    dsimp only
    rw [if_neg (by rw [hw]; simp), if_neg (by rw [h3.stdin]; simp)]
    have hr : ioRemote c t s3 = .next s3 := by
      unfold ioRemote handleRemoteData
      rw [if_pos (by rw [h3.stdin]; rfl), h3.inbox]
      have : ({ s3 with inbox := [] } : IoSt) = s3 := by
        have := h3.inbox
        obtain ⟨⟩ := s3
        simp only at this
        subst this
        rfl
      simp only [remoteLoop, this]
    rw [hr]
    dsimp only
    generalize (t.outReady && s3.pfx.length == 0 && s3.stdout) = b
    have ho : ∃ s4, ioOut c t b s3 = .next s4 := by
      unfold ioOut
      split_ifs
      · have k1 := inputOut_ok c c.outType t.out s3
        have k2 := inputOut_sameIn c c.outType t.out s3
        generalize inputOut c c.outType t.out s3 = r at k1 k2 ⊢
        obtain ⟨r, s4⟩ := r
        simp only at k1 k2
        rcases k1 with rfl | rfl | rfl
        · exact ⟨s4, rfl⟩
        · exact ⟨_, rfl⟩
        · dsimp only
          rw [if_pos (by rw [hc, k2.remote, h3.remote]; rfl)]
          exact ⟨_, rfl⟩
      · exact ⟨s3, rfl⟩
    have l4 := (ioOut_less c t b s3).1
    have k4 := ioOut_sameIn c t b s3
    obtain ⟨s4, hs4⟩ := ho
    rw [hs4] at l4 k4 ⊢
    refine ⟨s4, ?_, h3.keep l4 k4⟩
    dsimp only
    unfold ioErr
    rw [he]
    simp

/-- **C63 does not hold for a client whose reader goes away.** If the local reader has closed its end while data for it
were buffered, and the service's VM disappears without an exit message, the client never ends: from then on no schedule
without a failing poll lets it leave the loop, although nothing can arrive any more. -/
theorem C63_stuck (c : IoCfg) (hc : c.isService = false) (s : IoSt) (h1 : s.stdin = false) (h2 : s.buf ≠ [])
    (h3 : s.inbox = []) (h4 : s.remoteStatus = -1) (ts : List Tick)
    (ht : ∀ t ∈ ts, t.arrive = [] ∧ t.vchanOpen = false ∧ t.poll ≠ .error ∧ t.waitFails = false ∧ t.errReady = false) :
    ∃ s', ioRun c ts s = .next s' := by
  have h : StuckAt s := ⟨h1, h2, h3, h4⟩
  clear h1 h2 h3 h4
  induction ts generalizing s with
  | nil => exact ⟨s, rfl⟩
  | cons t ts ih =>
    obtain ⟨a, _, b, d, e⟩ := ht t (List.mem_cons_self ..)
    obtain ⟨s', e1, e2⟩ := stuck_tick c hc t s h a b d e
    rw [ioRun, e1]
    exact ih s' (fun t ht' => ht t (List.mem_cons_of_mem _ ht')) e2

/-- Such a state is reached: a message arrives, the reader takes two bytes and closes its end. -/
theorem C63_stuck_reached :
    ∃ s, ioRun demoCli [{ arrive := [.msg 0x191 c!"hello"], writes := [.part 1, .eagain] }, { stdinHup := true }]
      (ioStart demoCli false false [] []) = .next s ∧
      s.stdin = false ∧ s.buf = c!"llo" ∧ s.inbox = [] ∧ s.remoteStatus = -1 :=
  ⟨_, rfl, by decide, by decide, by decide, by decide⟩

/-! ## Prefix data and the exit message; SIGUSR1 -/

/-- **Data behind the end of file, and a lost exit status.** A client has prefix data to send (data that followed the
header of a socket-activated call); before there is space for it the service ends with status 0: the client sends an end
of file first and the prefix data behind it, and then dies with code 1 instead of returning 0. -/
theorem C63_violated_prefix :
    let r := ioRun demoCli
      [{ arrive := [.msg 0x191 [], .msg 0x192 []] },
       { arrive := [.msg 0x193 (i32le 0)], out := [⟨100, .again, true, true, none⟩, ⟨100, .again, true, true, none⟩] }]
      (ioStart demoCli false false [] c!"prefix")
    (∃ s, r = .exit1 s) ∧ r.st.sent = [(0x190, []), (0x190, c!"prefix")] ∧ r.st.sendOk = true ∧
    r.st.remoteStatus = 0 := by
  refine ⟨⟨_, rfl⟩, by decide, by decide, by decide⟩

/-- **Data behind the end of file.** The process of a service closes its stdout and then asks with SIGUSR1 to use its
stdin for both directions: what it writes there is sent behind the end of file. -/
theorem C49_violated_usr1 :
    (ioRun demoSvc
      [{ outReady := true, out := [⟨100, .got [], true, true, none⟩] },
       { usr1 := true, outReady := true, out := [⟨100, .got c!"late", true, true, none⟩] }]
      (ioStart demoSvc false true [] [])).st.sent = [(0x191, []), (0x191, c!"late")] := by
  decide

/-- The other end never sees such data. -/
theorem C49_late_lost :
    (ioRun demoCli [{ arrive := [.msg 0x191 [], .msg 0x191 c!"late"], writes := [.part 9] },
      { writes := [.part 9] }] (ioStart demoCli false false [] [])).st.written = [] := by
  decide

end Qrexec
