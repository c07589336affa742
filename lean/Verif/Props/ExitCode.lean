import Verif.Props.DataOut
import Mathlib.Data.List.Induction

/-!
# C63: exit status of a remote call
-/
namespace Qrexec

theorem lastExit_snoc (l : List InItem) (i : InItem) : lastExit (l ++ [i]) =
    match i with
    | .broken => lastExit l
    | .msg t d => if t = 0x193 then some (if d.length < 4 then 255 else i32of d) else lastExit l := by
  induction l with
  | nil =>
    cases i with
    | broken => rfl
    | msg t d => simp [lastExit]
  | cons j l ih =>
    have e : ∀ q, lastExit (j :: q) = match lastExit q with
        | some x => some x
        | none => match j with
          | .broken => none
          | .msg t d => if t = 0x193 then some (if d.length < 4 then 255 else i32of d) else none := fun q => rfl
    rw [List.cons_append, e, ih]
    cases i with
    | broken => exact (e l).symm
    | msg t d =>
      dsimp only
      by_cases h : t = 0x193
      · rw [if_pos h, if_pos h]
      · rw [if_neg h, if_neg h]; exact (e l).symm

theorem stderrData_append (a b : List InItem) : stderrData (a ++ b) = stderrData a ++ stderrData b := by
  induction a with
  | nil => rfl
  | cons i a ih =>
    cases i with
    | broken => simp only [List.cons_append, stderrData, ih]
    | msg t d =>
      simp only [List.cons_append, stderrData]
      split_ifs
      · rw [ih, List.append_assoc]
      · exact ih

/-- What a client remembers of what it has received. -/
def Track (c : IoCfg) (s : IoSt) : Prop :=
  s.remoteStatus = (lastExit s.seen).getD (-1) ∧ s.logged = conv c.replaceErr (stderrData s.seen)

/-- A step that receives nothing. -/
structure SameIn (s s' : IoSt) : Prop where
  remote : s'.remoteStatus = s.remoteStatus
  seen : s'.seen = s.seen
  logged : s'.logged = s.logged

theorem SameIn.refl (s : IoSt) : SameIn s s := ⟨rfl, rfl, rfl⟩

theorem SameIn.trans {a b c : IoSt} (h : SameIn a b) (k : SameIn b c) : SameIn a c :=
  ⟨k.remote.trans h.remote, k.seen.trans h.seen, k.logged.trans h.logged⟩

theorem SameIn.track {c : IoCfg} {s s' : IoSt} (k : SameIn s s') (h : Track c s) : Track c s' := by
  unfold Track; rw [k.remote, k.seen, k.logged]; exact h

theorem remoteLoop_track (c : IoCfg) (hc : c.isService = false) (q : List InItem) (ks : List Sys) (s : IoSt)
    (h : Track c s) : (remoteLoop c q ks s).1 ≠ .error → Track c (remoteLoop c q ks s).2 := by
  induction q generalizing ks s with
  | nil => exact fun _ => h
  | cons i q ih =>
    cases i with
    | broken => exact fun hx => absurd rfl hx
    | msg t d =>
      have keep : t ≠ 0x193 → t ≠ 0x192 → ∀ s' : IoSt, s'.remoteStatus = s.remoteStatus →
          s'.seen = s.seen ++ [.msg t d] → s'.logged = s.logged → Track c s' := by
        intro n1 n2 s' e1 e2 e3
        unfold Track
        rw [e1, e2, e3, lastExit_snoc, stderrData_append]
        simp only [if_neg n1, stderrData, if_neg n2, List.append_nil]
        exact h
      rw [remoteLoop]
      dsimp only
      by_cases hlen : d.length > c.maxChunk
      · rw [if_pos hlen]; exact fun hx => absurd rfl hx
      rw [if_neg hlen]
      by_cases ht : (t == msgStdin || t == msgStdout) = true
      · rw [if_pos ht]
        have ht' : t = 0x190 ∨ t = 0x191 := by simpa [msgStdin, msgStdout] using ht
        have n1 : t ≠ 0x193 := by rcases ht' with e | e <;> omega
        have n2 : t ≠ 0x192 := by rcases ht' with e | e <;> omega
        by_cases hs : (s.stdin == false) = true
        · rw [if_pos hs]
          exact ih _ _ (keep n1 n2 _ rfl rfl rfl)
        rw [if_neg hs]
        by_cases hd : (d.length == 0) = true
        · rw [if_pos hd]
          exact fun _ => keep n1 n2 _ rfl rfl rfl
        rw [if_neg hd]
        generalize writeStdin ks (if c.replaceOut = true then doReplaceChars d else d) s.buf = wr
        obtain ⟨r, b, w, ks'⟩ := wr
        cases r with
        | ok => exact ih _ _ (keep n1 n2 _ rfl rfl rfl)
        | buffered => exact fun _ => keep n1 n2 _ rfl rfl rfl
        | error => exact fun _ => keep n1 n2 _ rfl rfl rfl
        | aborted => exact fun _ => keep n1 n2 _ rfl rfl rfl
      rw [if_neg ht]
      by_cases h2 : (t == msgStderr) = true
      · rw [if_pos h2, if_neg (by rw [hc]; simp)]
        have e : t = 0x192 := by simpa [msgStderr] using h2
        subst e
        refine ih _ _ ?_
        unfold Track
        simp only
        rw [lastExit_snoc, stderrData_append, conv_append, h.2]
        simp only [stderrData]
        refine ⟨by simpa using h.1, ?_⟩
        simp [conv, doReplaceChars]
      rw [if_neg h2]
      by_cases h3 : (t == msgExitCode) = true
      · rw [if_pos h3, if_neg (by rw [hc]; simp)]
        have e : t = 0x193 := by simpa [msgExitCode] using h3
        subst e
        intro _
        unfold Track
        simp only
        rw [lastExit_snoc, stderrData_append]
        simp only [stderrData]
        exact ⟨by simp, by simpa using h.2⟩
      rw [if_neg h3]
      exact fun hx => absurd rfl hx

theorem handleRemote_track (c : IoCfg) (hc : c.isService = false) (ks : List Sys) (s : IoSt)
    (h : Track c s) : (handleRemoteData c ks s).1 ≠ .error → Track c (handleRemoteData c ks s).2 := by
  unfold handleRemoteData
  by_cases hs : (s.stdin == false) = true
  · rw [if_pos hs]; exact remoteLoop_track c hc _ _ _ h
  rw [if_neg hs]
  generalize flushClientData ks s.buf = fr
  obtain ⟨r, b, w, ks'⟩ := fr
  cases r with
  | ok => exact remoteLoop_track c hc _ _ _ h
  | buffered => exact fun _ => h
  | error => exact fun _ => h
  | aborted => exact fun _ => h

theorem sendEof_sameIn (c ok) (s : IoSt) : SameIn s (sendEof c ok s) := by
  unfold sendEof; split_ifs <;> exact ⟨rfl, rfl, rfl⟩

theorem closeStdin_sameIn (c ok) (s : IoSt) : SameIn s (closeStdin c ok s) := by
  obtain ⟨_, _, _, _, _, a, _, b, d⟩ := closeStdin_fields c ok s
  exact ⟨a, b, d⟩

theorem closeStdout_sameIn (c) (s : IoSt) : SameIn s (closeStdout c s) := by
  obtain ⟨_, _, _, _, _, a, _, b, d, _⟩ := closeStdout_fields c s
  exact ⟨a, b, d⟩

theorem sendChunk_sameIn (t d o) (s : IoSt) : SameIn s (sendChunk t d o s).2 := by
  unfold sendChunk; split_ifs <;> exact ⟨rfl, rfl, rfl⟩

theorem inputOut_sameIn (c : IoCfg) (t : Nat) (os : List OutStep) (s : IoSt) : SameIn s (inputOut c t os s).2 := by
  induction os generalizing s with
  | nil => exact .refl s
  | cons o os ih =>
    rw [inputOut]
    dsimp only
    have go : ∀ (d : Str) (s1 : IoSt), SameIn s s1 →
        SameIn s (match sendChunk t d o s1 with
          | (none, s) => inputOut c t os s
          | (some r, s) => (r, s)).2 := by
      intro d s1 h1
      have h2 := sendChunk_sameIn t d o s1
      generalize sendChunk t d o s1 = r at h2 ⊢
      obtain ⟨r, s2⟩ := r
      cases r with
      | none => exact (h1.trans h2).trans (ih s2)
      | some r => exact h1.trans h2
    by_cases h1 : o.space ≤ 8
    · rw [if_pos h1]; exact .refl s
    rw [if_neg h1]
    by_cases h2 : (s.pfx.length != 0) = true
    · rw [if_pos h2]; exact go _ _ ⟨rfl, rfl, rfl⟩
    rw [if_neg h2]
    by_cases h3 : (s.stdout == false) = true
    · rw [if_pos h3]; exact .refl s
    rw [if_neg h3]
    cases o.read with
    | again => exact .refl s
    | error => exact .refl s
    | connReset => exact sendChunk_sameIn _ _ _ _
    | got d => exact go _ _ ⟨rfl, rfl, rfl⟩

theorem inputErr_sameIn (c : IoCfg) (os : List OutStep) (s : IoSt) : SameIn s (inputErr c os s).2 := by
  induction os generalizing s with
  | nil => exact .refl s
  | cons o os ih =>
    rw [inputErr]
    dsimp only
    by_cases h1 : o.space ≤ 8
    · rw [if_pos h1]; exact .refl s
    rw [if_neg h1]
    cases o.read with
    | again => exact .refl s
    | error => exact .refl s
    | connReset => exact sendChunk_sameIn _ _ _ _
    | got d =>
      dsimp only
      have h2 := sendChunk_sameIn msgStderr (d.take (min (o.space - 8).toNat c.maxChunk)) o
        (s.gotErr c o (d.take (min (o.space - 8).toNat c.maxChunk)))
      have h1 : SameIn s (s.gotErr c o (d.take (min (o.space - 8).toNat c.maxChunk))) :=
        ⟨rfl, rfl, rfl⟩
      generalize sendChunk msgStderr _ o _ = r at h2 ⊢
      obtain ⟨r, s2⟩ := r
      cases r with
      | none => exact (h1.trans h2).trans (ih s2)
      | some r => exact h1.trans h2

theorem ioOut_sameIn (c t ready) (s : IoSt) : SameIn s (ioOut c t ready s).st := by
  unfold ioOut
  split_ifs
  · have h1 := inputOut_sameIn c c.outType t.out s
    generalize inputOut c c.outType t.out s = r at h1 ⊢
    obtain ⟨r, s1⟩ := r
    have h2 := closeStdout_sameIn c s1
    cases r with
    | error =>
      dsimp only
      split_ifs
      · exact h1.trans h2
      · exact h1
    | eof => exact h1.trans h2
    | exited => exact h1
    | ok => exact h1
    | aborted => exact h1
  · exact .refl s

theorem ioErr_sameIn (c t ready) (s : IoSt) : SameIn s (ioErr c t ready s).st := by
  unfold ioErr
  split_ifs
  · have h1 := inputErr_sameIn c t.err s
    generalize inputErr c t.err s = r at h1 ⊢
    obtain ⟨r, s1⟩ := r
    cases r with
    | eof => exact h1.trans ⟨rfl, rfl, rfl⟩
    | error => exact h1
    | exited => exact h1
    | ok => exact h1
    | aborted => exact h1
  · exact .refl s

theorem ioRemote_track (c : IoCfg) (hc : c.isService = false) (t : Tick) (s : IoSt) (h : Track c s) :
    (ioRemote c t s).alive → Track c (ioRemote c t s).st := by
  have h1 := handleRemote_track c hc t.writes s h
  unfold ioRemote
  generalize handleRemoteData c t.writes s = r at h1 ⊢
  obtain ⟨r, s1⟩ := r
  cases r with
  | error => exact fun hx => absurd hx id
  | aborted => exact fun hx => absurd hx id
  | ok => exact fun _ => h1 (by simp)
  | eof => exact fun _ => (closeStdin_sameIn c t.eofOk s1).track (h1 (by simp))
  | exited =>
    intro _
    have h2 : SameIn s1 (if s1.stdout = true then sendEof c t.eofOk s1 else s1) := by
      split_ifs
      · exact sendEof_sameIn _ _ _
      · exact .refl _
    exact (h2.trans (closeStdout_sameIn c _)).track (h1 (by simp))

theorem ioTick_track (c : IoCfg) (hc : c.isService = false) (t : Tick) (s : IoSt) (h : Track c s) :
    (ioTick c t s).alive → Track c (ioTick c t s).st := by
  unfold ioTick
  dsimp only
  have h1 : SameIn s { s with inbox := s.inbox ++ t.arrive } := ⟨rfl, rfl, rfl⟩
  generalize ({ s with inbox := s.inbox ++ t.arrive } : IoSt) = s1 at h1 ⊢
  have h2 : SameIn s1 (ioReap c t s1) := by
    unfold ioReap
    cases t.reaped with
    | none => exact .refl _
    | some st =>
      dsimp only
      split_ifs
      · have := closeStdin_sameIn c t.eofOk { s1 with localStatus := some st }
        exact ⟨this.remote, this.seen, this.logged⟩
      · exact .refl _
  generalize ioReap c t s1 = s2 at h2 ⊢
  have hs2 : Track c s2 := (h1.trans h2).track h
  have h3 : ∀ r, ioAllDone c t s2 = some r → r = .leave s2 := by
    intro r
    unfold ioAllDone
    simp only [hc, Bool.false_eq_true, if_false]
    split_ifs <;> simp <;> intro e <;> exact e.symm
  cases hd : ioAllDone c t s2 with
  | some r =>
    rw [h3 r hd]
    exact fun _ => hs2
  | none =>
    dsimp only
    by_cases hv : (!t.vchanOpen && s2.inbox.isEmpty && s2.buf.length == 0) = true
    · rw [if_pos hv]; exact fun _ => hs2
    rw [if_neg hv]
    have h4 : SameIn s2 (ioUsr1 c t s2) := by
      unfold ioUsr1
      split_ifs
      · exact (closeStdout_sameIn c s2).trans ⟨rfl, rfl, rfl⟩
      · exact .refl _
    generalize ioUsr1 c t s2 = s3 at h4 ⊢
    have hs3 := h4.track hs2
    unfold ioPoll
    cases t.poll with
    | eintr => exact fun _ => hs3
    | error => exact fun _ => hs3
    | ready =>
      dsimp only
      by_cases hw : t.waitFails = true
      · rw [if_pos hw]; exact fun hx => absurd hx id
      rw [if_neg hw]
      have h5 : SameIn s3 (if (t.stdinHup && s3.stdin) = true then closeStdin c t.eofOk s3 else s3) := by
        split_ifs
        · exact closeStdin_sameIn _ _ _
        · exact .refl _
      generalize (if (t.stdinHup && s3.stdin) = true then closeStdin c t.eofOk s3 else s3) = s4 at h5 ⊢
      have h6 := ioRemote_track c hc t s4 (h5.track hs3)
      generalize ioRemote c t s4 = r4 at h6 ⊢
      cases r4 with
      | next s5 =>
        dsimp only
        have hs5 := h6 trivial
        have h7 := ioOut_sameIn c t (t.outReady && s3.pfx.length == 0 && s3.stdout) s5
        generalize ioOut c t (t.outReady && s3.pfx.length == 0 && s3.stdout) s5 = r5 at h7 ⊢
        cases r5 with
        | next s6 => exact fun _ => (h7.trans (ioErr_sameIn c t _ s6)).track hs5
        | leave s6 => exact fun _ => h7.track hs5
        | exit1 s6 => exact fun hx => absurd hx id
        | abort s6 => exact fun hx => absurd hx id
      | leave s5 => exact h6
      | exit1 s5 => exact fun hx => absurd hx id
      | abort s5 => exact fun hx => absurd hx id

theorem ioRun_track (c : IoCfg) (hc : c.isService = false) (ts : List Tick) (s : IoSt) (h : Track c s) :
    (ioRun c ts s).alive → Track c (ioRun c ts s).st := by
  induction ts generalizing s with
  | nil => exact fun _ => h
  | cons t ts ih =>
    have ht := ioTick_track c hc t s h
    rw [ioRun]
    generalize ioTick c t s = r at ht ⊢
    cases r with
    | next s1 => exact ih s1 (ht trivial)
    | leave s1 => exact ht
    | exit1 s1 => exact ht
    | abort s1 => exact ht

theorem ioRun_append (c : IoCfg) (a b : List Tick) (s : IoSt) : ioRun c (a ++ b) s =
    match ioRun c a s with
    | .next s' => ioRun c b s'
    | r => r := by
  induction a generalizing s with
  | nil => rfl
  | cons t a ih =>
    rw [List.cons_append, ioRun, ioRun]
    cases ioTick c t s with
    | next s1 => exact ih s1
    | leave s1 => rfl
    | exit1 s1 => rfl
    | abort s1 => rfl

/-- What the return value of the client is, given the exit message of the service, if any. -/
def callResult (exit : Option Int) (localPid : Bool) (localStatus : Option Nat) : Int :=
  match exit with
  | none => -1
  | some x => if x ≠ 0 then x else if localPid then (match localStatus with | some n => (n : Int) | none => -1) else 0

/-- **C63, client.** However a client's connection ends, unless the process dies: it returns the status in the last exit
message received, -1 if there was none, and - if the status is 0 - the status of its own local process. What it has
printed to its stderr are the stderr messages received, in order, with non-printable characters replaced if asked for. -/
theorem C63_client (c : IoCfg) (hc : c.isService = false) (socket hasErr : Bool) (buf pfx : Str) (ts : List Tick)
    (s : IoSt) (hr : ioRun c ts (ioStart c socket hasErr buf pfx) = .leave s) (eofOk : Bool) (late : Option Nat) :
    (ioFinish c eofOk late s).2 = callResult (lastExit s.seen) c.hasPid
      (if c.hasPid && s.localStatus.isNone then late else s.localStatus) ∧
    s.logged = conv c.replaceErr (stderrData s.seen) := by
  have h0 : Track c (ioStart c socket hasErr buf pfx) := by
    unfold Track ioStart
    refine ⟨rfl, ?_⟩
    simp [stderrData, conv]
  have h := ioRun_track c hc ts _ h0
  rw [hr] at h
  obtain ⟨h1, h2⟩ := h trivial
  simp only [IoStep.st] at h1 h2
  refine ⟨?_, h2⟩
  unfold ioFinish
  dsimp only
  have f := closeStdout_fields c (closeStdin c eofOk s)
  have g := closeStdin_fields c eofOk s
  have e1 : (closeStdout c (closeStdin c eofOk s)).localStatus = s.localStatus := f.2.2.2.2.1.trans g.2.2.2.2.1
  have e2 : (closeStdout c (closeStdin c eofOk s)).remoteStatus = s.remoteStatus := f.2.2.2.2.2.1.trans g.2.2.2.2.2.1
  generalize closeStdout c (closeStdin c eofOk s) = s1 at e1 e2 ⊢
  have e3 : ∀ b : Bool, (if b = true then { s1 with localStatus := late } else s1).remoteStatus = s.remoteStatus := by
    intro b; split_ifs <;> exact e2
  have e4 : ∀ b : Bool, (if b = true then { s1 with localStatus := late } else s1).localStatus =
      if b = true then late else s.localStatus := by
    intro b; split_ifs
    · rfl
    · exact e1
  rw [e3, e4, e1, h1, hc]
  unfold callResult
  cases hx : lastExit s.seen with
  | none => simp
  | some x =>
    by_cases hx0 : x = 0
    · subst hx0
      simp only [Option.getD_some, ne_eq, not_true_eq_false, if_false]
      rfl
    · simp [hx0]

/-- **C63, service.** A service never sends an exit message while the connection runs. When it ends, the service has sent
at most one, as the last message, behind the ends of stdout and of stderr; the status in it is that of the local process
as it was reaped, 0 if there is none; and it is also the return value. -/
theorem C63_service (c : IoCfg) (v : Nat) (hc : c.isService = true) (hv : c.maxChunk = maxDataChunk v)
    (socket hasErr : Bool) (buf pfx : Str) (ts : List Tick)
    (hp : pfx = [] ∨ c.exitOnStdinEof = false) (hu : socket = true ∨ ∀ t ∈ ts, t.usr1 = false) :
    (∀ s, ioRun c ts (ioStart c socket hasErr buf pfx) = .next s → ∀ m ∈ s.sent, m.1 ≠ 0x193) ∧
    (∀ s, ioRun c ts (ioStart c socket hasErr buf pfx) = .leave s → (∀ m ∈ s.sent, m.1 ≠ 0x193) ∨
      ∃ (pre : List DMsg) (st : Nat), s.sent = pre ++ [(0x193, i32le st)] ∧ (∀ m ∈ pre, m.1 ≠ 0x193) ∧
        (c.hasPid = true → (∃ t ∈ ts, t.reaped = some st) ∧ s.localStatus = some st) ∧ (c.hasPid = false → st = 0) ∧
        (s.sendOk = true → (0x191, []) ∈ pre ∧ (0x192, []) ∈ pre) ∧
        ∀ eofOk late, (ioFinish c eofOk late s).2 = st) := by
  have hge := maxDataChunk_ge v
  have hrun := ioRun_out c (by omega) True pfx ts _ (start_out c _ socket hasErr buf pfx (by simp [hc]))
    (fun _ => .inl hc) (by
      rcases hp with hp | hp
      · exact .inl hp
      · exact .inr ⟨hp, .inl hc⟩) (hu.imp id id)
  have ot : c.outType = 0x191 := by unfold IoCfg.outType; rw [hc]; rfl
  have noex : ∀ s : IoSt, SentOk c s → ∀ m ∈ s.sent, m.1 ≠ 0x193 := by
    intro s hs m hm e
    rcases (hs m hm).2 with h | ⟨h, _⟩
    · rw [e, ot] at h; omega
    · rw [e] at h; simp [msgStderr] at h
  refine ⟨fun s hs => ?_, fun s hs => ?_⟩
  · rw [hs] at hrun; exact noex s hrun.1.sent
  · rw [hs] at hrun
    obtain ⟨h1, h2⟩ := hrun
    rcases h1 with h1 | ⟨s0, h0, _, hi, ho, he, hl, rfl⟩
    · exact .inl (noex s h1.sent)
    refine .inr ⟨s0.sent, if c.hasPid then s0.localStatus.getD 0 else 0, ?_, noex s0 h0.sent, fun hpid => ?_, ?_, ?_, ?_⟩
    · simp only [msgExitCode]
      split_ifs <;> rfl
    · have hl := hl hpid
      rw [if_pos hpid]
      cases hls : s0.localStatus with
      | none => rw [hls] at hl; cases hl
      | some x =>
        refine ⟨?_, by simp [hls]⟩
        rcases h2 trivial with k | ⟨t, ht, k⟩
        · simp only [IoStep.st, ioStart] at k; rw [hls] at k; cases k
        · simp only [IoStep.st] at k
          exact ⟨t, ht, by rw [← k, hls]; rfl⟩
    · intro h; simp [h]
    · intro hk
      have mem : ∀ t data o, Channel True t o data s0.sent → o = false → (t, []) ∈ s0.sent := by
        intro t data o hch ho
        obtain ⟨cs, _, _, k⟩ := hch
        rcases k with ⟨_, k⟩ | ⟨k, _⟩
        · rw [ho] at k; exact absurd (k trivial) (by simp)
        · have : ([] : Str) ∈ outsOf t s0.sent := by rw [k]; simp
          unfold outsOf at this
          obtain ⟨m, hm, e⟩ := List.mem_map.1 this
          obtain ⟨hm1, hm2⟩ := List.mem_filter.1 hm
          obtain ⟨a, b⟩ := m
          simp at hm2 e
          subst hm2 e
          exact hm1
      obtain ⟨⟨data, _, _, hch⟩, _⟩ := h0.out hk
      have h0e := h0.err hk
      rw [ot] at hch
      exact ⟨mem _ _ _ hch ho, mem _ _ _ (h0e.mono (fun _ => hc)) he⟩
    · intro eofOk late
      unfold ioFinish
      dsimp only
      generalize hs1 : ({ s0 with sent := s0.sent ++ [(msgExitCode,
          i32le (if c.hasPid = true then ((s0.localStatus.getD 0 : Nat) : Int) else 0))] } : IoSt) = s1
      have e0 : s1.localStatus = s0.localStatus := by rw [← hs1]
      have f := closeStdout_fields c (closeStdin c eofOk s1)
      have g := closeStdin_fields c eofOk s1
      have e1 : (closeStdout c (closeStdin c eofOk s1)).localStatus = s0.localStatus :=
        (f.2.2.2.2.1.trans g.2.2.2.2.1).trans e0
      generalize closeStdout c (closeStdin c eofOk s1) = s2 at e1 ⊢
      rw [hc]
      by_cases hpid : c.hasPid = true
      · have hl := hl hpid
        cases hls : s0.localStatus with
        | none => rw [hls] at hl; cases hl
        | some x => simp [hpid, e1, hls]
      · simp [hpid]


/-! ## From the service to the client -/

theorem ioPoll_noLeave (c : IoCfg) (t : Tick) (s s' : IoSt) (hp : t.poll ≠ .error) : ioPoll c t s ≠ .leave s' := by
  unfold ioPoll
  cases hpoll : t.poll with
  | eintr => simp
  | error => exact absurd hpoll hp
  | ready =>
    dsimp only
    by_cases hw : t.waitFails = true
    · rw [if_pos hw]; simp
    rw [if_neg hw]
    generalize (if (t.stdinHup && s.stdin) = true then closeStdin c t.eofOk s else s) = s4
    have h1 : ∀ x, ioRemote c t s4 ≠ .leave x := by
      intro x
      unfold ioRemote
      generalize handleRemoteData c t.writes s4 = r
      obtain ⟨r, y⟩ := r
      cases r <;> simp
    generalize ioRemote c t s4 = r4 at h1 ⊢
    cases r4 with
    | next s5 =>
      dsimp only
      have h2 : ∀ b x, ioOut c t b s5 ≠ .leave x := by
        intro b x
        unfold ioOut
        split_ifs
        · generalize inputOut c c.outType t.out s5 = r
          obtain ⟨r, y⟩ := r
          cases r
          case error =>
            dsimp only
            split_ifs <;> simp
          all_goals simp
        · simp
      have h2 := h2 (t.outReady && s.pfx.length == 0 && s.stdout)
      generalize ioOut c t _ s5 = r5 at h2 ⊢
      cases r5 with
      | next s6 =>
        dsimp only
        unfold ioErr
        split_ifs
        · generalize inputErr c t.err s6 = r
          obtain ⟨r, y⟩ := r
          cases r <;> simp
        · simp
      | leave s6 => exact absurd rfl (h2 s6)
      | exit1 s6 => simp
      | abort s6 => simp
    | leave s5 => exact absurd rfl (h1 s5)
    | exit1 s5 => simp
    | abort s5 => simp

theorem ioTick_leave (c : IoCfg) (hc : c.isService = false) (t : Tick) (s s' : IoSt) (hp : t.poll ≠ .error)
    (h : ioTick c t s = .leave s') :
    (s'.remoteStatus ≥ 0 ∨ s'.inbox = []) ∧ s'.seen = s.seen ∧ s'.inbox = s.inbox ++ t.arrive := by
  unfold ioTick at h
  dsimp only at h
  generalize hs1 : ({ s with inbox := s.inbox ++ t.arrive } : IoSt) = s1 at h
  have e1 : s1.inbox = s.inbox ++ t.arrive := by rw [← hs1]
  have e2 : s1.seen = s.seen := by rw [← hs1]
  have h2 : (ioReap c t s1).inbox = s1.inbox ∧ (ioReap c t s1).seen = s1.seen := by
    unfold ioReap
    cases t.reaped with
    | none => exact ⟨rfl, rfl⟩
    | some st =>
      dsimp only
      split_ifs
      · have := closeStdin_fields c t.eofOk { s1 with localStatus := some st }
        exact ⟨this.2.1, this.2.2.2.2.2.2.2.1⟩
      · exact ⟨rfl, rfl⟩
  generalize ioReap c t s1 = s2 at h2 h
  have hd : ioAllDone c t s2 = none ∨ ioAllDone c t s2 = some (.leave s2) ∧ s2.remoteStatus ≥ 0 := by
    unfold ioAllDone
    simp only [hc, Bool.false_eq_true, if_false]
    by_cases h1 : (s2.stdin == false && s2.stdout == false && s2.stderr == false) = true
    · rw [if_pos h1]
      by_cases h2 : ((!c.hasPid || s2.localStatus.isSome) && decide (s2.remoteStatus ≥ 0)) = true
      · rw [if_pos h2]
        simp at h2
        exact .inr ⟨rfl, h2.2⟩
      · rw [if_neg h2]; exact .inl rfl
    · rw [if_neg h1]; exact .inl rfl
  rcases hd with hd | ⟨hd, hx⟩
  · rw [hd] at h
    dsimp only at h
    by_cases hv : (!t.vchanOpen && s2.inbox.isEmpty && s2.buf.length == 0) = true
    · rw [if_pos hv] at h
      cases h
      simp at hv
      exact ⟨.inr hv.1.2, h2.2.trans e2, h2.1.trans e1⟩
    · rw [if_neg hv] at h
      exact absurd h (ioPoll_noLeave c t _ _ hp)
  · rw [hd] at h
    cases h
    exact ⟨.inl hx, h2.2.trans e2, h2.1.trans e1⟩

theorem lastExit_none (l : List DMsg) (h : ∀ m ∈ l, m.1 ≠ 0x193) : lastExit (l.map toItem) = none := by
  induction l with
  | nil => rfl
  | cons m l ih =>
    have e : lastExit ((m :: l).map toItem) = match lastExit (l.map toItem) with
        | some x => some x
        | none => if m.1 = 0x193 then some (if m.2.length < 4 then 255 else i32of m.2) else none := rfl
    rw [e, ih (fun m hm => h m (List.mem_cons_of_mem _ hm))]
    simp [h m (List.mem_cons_self ..)]

theorem stderrData_items (l : List DMsg) : stderrData (l.map toItem) = (outsOf 0x192 l).flatten := by
  induction l with
  | nil => rfl
  | cons m l ih =>
    obtain ⟨t, d⟩ := m
    rw [List.map_cons]
    simp only [toItem, stderrData]
    by_cases h : t = 0x192
    · rw [if_pos h, ih]; simp [outsOf, h]
    · rw [if_neg h, ih]; simp [outsOf, h]

/-- **C63, from the service to the client.** A service ends regularly (it has sent an exit message, no send failed), all its
messages arrive at a client without a local process, split over time in any way, and the client's connection ends in the
last of its iterations (other than by a failing poll). Then the client returns the status of the service's process, and it
has printed exactly what the service's process wrote to its stderr. -/
theorem C63_end_to_end_partial (c : IoCfg) (v : Nat) (hc : c.isService = true) (hv : c.maxChunk = maxDataChunk v)
    (socket hasErr : Bool) (buf pfx : Str) (ts : List Tick) (s : IoSt)
    (hp : pfx = [] ∨ c.exitOnStdinEof = false) (hu : socket = true ∨ ∀ t ∈ ts, t.usr1 = false)
    (hr : ioRun c ts (ioStart c socket hasErr buf pfx) = .leave s) (hok : s.sendOk = true)
    (hex : ∃ d, (0x193, d) ∈ s.sent) (hst : ∀ st, s.localStatus = some st → st ≤ 255)
    (c' : IoCfg) (hc' : c'.isService = false) (hpid' : c'.hasPid = false) (socket' : Bool) (buf' pfx' : Str)
    (ts' : List Tick) (t' : Tick) (s1 s' : IoSt)
    (h1 : ioRun c' ts' (ioStart c' socket' false buf' pfx') = .next s1)
    (h2 : ioTick c' t' s1 = .leave s') (hpoll : t'.poll ≠ .error)
    (harr : (ts' ++ [t']).flatMap Tick.arrive = s.sent.map fun m => InItem.msg m.1 m.2) (eofOk : Bool) (late : Option Nat) :
    (ioFinish c' eofOk late s').2 = (if c.hasPid then ((s.localStatus.getD 0 : Nat) : Int) else 0) ∧
    s'.logged = conv c'.replaceErr s.readErr := by
  have hsv := (C63_service c v hc hv socket hasErr buf pfx ts hp hu).2 s hr
  rcases hsv with hsv | ⟨pre, st, e1, e2, e3, e4, _⟩
  · obtain ⟨d, hd⟩ := hex
    exact absurd rfl (hsv _ hd)
  have hstle : st ≤ 255 := by
    cases hq : c.hasPid with
    | true => exact hst st (e3 hq).2
    | false => rw [e4 hq]; omega
  have hrun : ioRun c' (ts' ++ [t']) (ioStart c' socket' false buf' pfx') = .leave s' := by
    rw [ioRun_append, h1]
    dsimp only
    rw [ioRun, h2]
  obtain ⟨k1, k2⟩ := C63_client c' hc' socket' false buf' pfx' _ s' hrun eofOk late
  obtain ⟨a1, a2, a3⟩ := ioTick_leave c' hc' t' s1 s' hpoll h2
  have hitems : s'.seen ++ s'.inbox = s.sent.map toItem := by
    have := (C48_kept c' socket' false buf' pfx' ts' s1 h1).1
    rw [a2, a3, ← List.append_assoc, this]
    rw [List.flatMap_append] at harr
    simp only [List.flatMap_cons, List.flatMap_nil, List.append_nil] at harr
    exact harr
  have hall : s'.seen = s.sent.map toItem := by
    rcases a1 with a1 | a1
    · by_contra hne
      have hT := (ioRun_track c' hc' _ _ (by
        unfold Track ioStart
        refine ⟨rfl, ?_⟩
        simp [stderrData, conv]) (by rw [hrun]; trivial) :
          Track c' (ioRun c' (ts' ++ [t']) (ioStart c' socket' false buf' pfx')).st)
      rw [hrun] at hT
      have hx : lastExit s'.seen ≠ none := by
        intro hn
        have := hT.1
        simp only [IoStep.st] at this
        rw [hn] at this
        simp at this
        omega
      apply hx
      rw [e1, List.map_append] at hitems
      have hpre : s'.seen <+: pre.map toItem := by
        have hib : s'.inbox ≠ [] := by
          intro hn
          rw [hn, List.append_nil, ← List.map_append, ← e1] at hitems
          exact hne hitems
        have hlast := congrArg List.dropLast hitems
        rw [List.dropLast_append_of_ne_nil hib] at hlast
        simp only [List.map_cons, List.map_nil, List.dropLast_concat] at hlast
        exact ⟨_, hlast⟩
      obtain ⟨rest, hrest⟩ := hpre
      have hn := lastExit_none pre e2
      rw [← hrest] at hn
      clear hrest hitems hx hT hne
      generalize s'.seen = l at hn ⊢
      induction rest using List.reverseRecOn with
      | nil => simpa using hn
      | append_singleton rest i ih =>
        apply ih
        rw [← List.append_assoc, lastExit_snoc] at hn
        cases i with
        | broken => exact hn
        | msg t d =>
          dsimp only at hn
          split_ifs at hn
          exact hn
    · rw [a1, List.append_nil] at hitems; exact hitems
  have hlast : lastExit s'.seen = some (st : Int) := by
    rw [hall, e1, List.map_append, List.map_cons, List.map_nil, lastExit_snoc]
    simp only [toItem, if_true]
    have hlen : (i32le (st : Int)).length = 4 := rfl
    rw [if_neg (by omega)]
    have := i32of_i32le (st : Int) (by omega) (by omega) []
    rw [List.append_nil] at this
    rw [this]
  refine ⟨?_, ?_⟩
  · rw [k1, hlast, hpid']
    unfold callResult
    have hg : (st : Int) = if c.hasPid then ((s.localStatus.getD 0 : Nat) : Int) else 0 := by
      cases hq : c.hasPid with
      | true => rw [(e3 hq).2]; rfl
      | false => rw [e4 hq]; rfl
    rw [← hg]
    simp only [ne_eq, Bool.false_eq_true, if_false]
    split_ifs with h0 <;> omega
  · rw [k2, hall, stderrData_items]
    obtain ⟨_, _, _, _, hch⟩ := C49_sent c v socket hasErr buf pfx ts s hv (by simp [hc]) (.inr hr)
      (hp.imp id (fun x => ⟨x, .inl hc⟩)) hu hok
    obtain ⟨cs, _, b2, b3⟩ := hch
    rcases b3 with ⟨b3, _⟩ | ⟨b3, _⟩
    · rw [b3, b2]
    · rw [b3]; simp [b2]

end Qrexec
