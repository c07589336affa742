import Verif.Spec.DataEnd
import Verif.Props.DataPoll
import Verif.Props.DataIn
import Verif.Props.ExitCode

/-!
# C95: a connection ends
-/
namespace Qrexec
open Spec

/-! ## The exit status has been received -/

/-- The invariant of a client: after the exit status nothing is read any more. -/
structure ClientSt (c : IoCfg) (s : IoSt) : Prop where
  err : s.stderr = false
  out : lastExit s.seen ≠ none → s.stdout = false

theorem inputOut_fields (c : IoCfg) (t : Nat) (os : List OutStep) (s : IoSt) :
    (inputOut c t os s).2.seen = s.seen := (inputOut_sameIn c t os s).seen

theorem remoteLoop_exit (c : IoCfg) (hc : c.isService = false) (q : List InItem) (ks : List Sys) (s : IoSt) :
    (remoteLoop c q ks s).1 ≠ .exited → lastExit (remoteLoop c q ks s).2.seen ≠ none → (remoteLoop c q ks s).1 ≠ .error →
      lastExit s.seen ≠ none := by
  induction q generalizing ks s with
  | nil => intro _ h _; exact h
  | cons i q ih =>
    have step : ∀ (s1 : IoSt) i, s1.seen = s.seen ++ [i] → (∀ d, i ≠ .msg 0x193 d) → lastExit s1.seen ≠ none →
        lastExit s.seen ≠ none := by
      intro s1 i e hi h
      rw [e, lastExit_snoc] at h
      cases i with
      | broken => exact h
      | msg t d =>
        dsimp only at h
        rw [if_neg (fun ht => hi d (by rw [ht]))] at h
        exact h
    cases i with
    | broken =>
      intro _ h _
      exact step _ .broken rfl (by simp) h
    | msg t d =>
      by_cases h1 : d.length > c.maxChunk
      · have e : remoteLoop c (.msg t d :: q) ks s = (.error, { s with inbox := q, seen := s.seen ++ [.msg t d] }) := by
          rw [remoteLoop]; dsimp only; rw [if_pos h1]
        rw [e]; intro _ _ h; exact absurd rfl h
      by_cases h2 : (t == msgStdin || t == msgStdout) = true
      · have ht : ∀ d', InItem.msg t d ≠ .msg 0x193 d' := by
          intro d' e
          obtain ⟨rfl, _⟩ := InItem.msg.inj e
          exact absurd h2 (by decide)
        by_cases h3 : (s.stdin == false) = true
        · have e : remoteLoop c (.msg t d :: q) ks s = remoteLoop c q ks { s with inbox := q, seen := s.seen ++ [.msg t d] } := by
            rw [remoteLoop]; dsimp only; rw [if_neg h1, if_pos h2, if_pos h3]
          rw [e]; intro a b c; exact step _ _ rfl ht (ih _ _ a b c)
        by_cases h4 : (d.length == 0) = true
        · have e : remoteLoop c (.msg t d :: q) ks s = (.eof, { s with inbox := q, seen := s.seen ++ [.msg t d] }) := by
            rw [remoteLoop]; dsimp only; rw [if_neg h1, if_pos h2, if_neg h3, if_pos h4]
          rw [e]; intro a b c; exact step _ _ rfl ht b
        have e : remoteLoop c (.msg t d :: q) ks s =
            match writeStdin ks (if c.replaceOut then doReplaceChars d else d) s.buf with
            | (.ok, b, w, ks) => remoteLoop c q ks (took s q (.msg t d) b w)
            | (.buffered, b, w, _) => (.ok, (took s q (.msg t d) b w))
            | (.error, b, w, _) => (.eof, (took s q (.msg t d) b w))
            | (.aborted, b, w, _) => (.aborted, (took s q (.msg t d) b w)) := by
          rw [remoteLoop]; dsimp only; rw [if_neg h1, if_pos h2, if_neg h3, if_neg h4]; rfl
        rw [e]
        generalize writeStdin ks (if c.replaceOut then doReplaceChars d else d) s.buf = r
        obtain ⟨r, b, w, ks'⟩ := r
        cases r with
        | ok => intro a b c; exact step _ _ rfl ht (ih _ _ a b c)
        | buffered => intro a b c; exact step _ _ rfl ht b
        | error => intro a b c; exact step _ _ rfl ht b
        | aborted => intro a b c; exact step _ _ rfl ht b
      by_cases h3 : (t == msgStderr) = true
      · have ht : ∀ d', InItem.msg t d ≠ .msg 0x193 d' := by
          intro d' e
          obtain ⟨rfl, _⟩ := InItem.msg.inj e
          exact absurd h3 (by decide)
        have e : remoteLoop c (.msg t d :: q) ks s = remoteLoop c q ks
            { s with inbox := q, seen := s.seen ++ [.msg t d], logged := s.logged ++ (if c.replaceErr then doReplaceChars d else d) } := by
          rw [remoteLoop]; dsimp only; rw [if_neg h1, if_neg h2, if_pos h3, if_neg (by rw [hc]; decide)]
        rw [e]; intro a b c; exact step _ _ rfl ht (ih _ _ a b c)
      by_cases h4 : (t == msgExitCode) = true
      · have e : (remoteLoop c (.msg t d :: q) ks s).1 = .exited := by
          rw [remoteLoop]; dsimp only; rw [if_neg h1, if_neg h2, if_neg h3, if_pos h4, if_neg (by rw [hc]; decide)]
        rw [e]; intro h; exact absurd rfl h
      · have e : (remoteLoop c (.msg t d :: q) ks s).1 = .error := by
          rw [remoteLoop]; dsimp only; rw [if_neg h1, if_neg h2, if_neg h3, if_neg h4]
        rw [e]; intro _ _ h; exact absurd rfl h

theorem handleRemote_exit (c : IoCfg) (hc : c.isService = false) (ks : List Sys) (s : IoSt) :
    (handleRemoteData c ks s).1 ≠ .exited → lastExit (handleRemoteData c ks s).2.seen ≠ none →
      (handleRemoteData c ks s).1 ≠ .error → lastExit s.seen ≠ none := by
  unfold handleRemoteData
  split_ifs
  · exact remoteLoop_exit c hc _ _ _
  · generalize flushClientData ks s.buf = r
    obtain ⟨r, b, w, ks'⟩ := r
    cases r with
    | ok => exact remoteLoop_exit c hc _ _ _
    | buffered => exact fun _ h _ => h
    | error => exact fun _ h _ => h
    | aborted => exact fun _ h _ => h

theorem ClientSt.onward {c : IoCfg} {s s' : IoSt} (h : ClientSt c s) (o : Onward s s') (e : s'.seen = s.seen) :
    ClientSt c s' := ⟨bool_down o.stderr h.err, fun hx => bool_down o.stdout (h.out (e ▸ hx))⟩

theorem ioRemote_client (c : IoCfg) (hc : c.isService = false) (t : Tick) (s s' : IoSt) (h : ClientSt c s)
    (hn : ioRemote c t s = .next s') : ClientSt c s' := by
  have on := ioRemote_onward c t s
  rw [hn] at on
  have e1 := handleRemote_exit c hc t.writes s
  have on1 := handleRemote_onward c t.writes s
  unfold ioRemote at hn
  generalize handleRemoteData c t.writes s = r at e1 on1 hn
  obtain ⟨r, s1⟩ := r
  refine ⟨bool_down on.stderr h.err, fun hx => ?_⟩
  cases r with
  | error => cases hn
  | aborted => cases hn
  | ok =>
    cases hn
    exact bool_down on1.stdout (h.out (e1 (by simp) hx (by simp)))
  | eof =>
    cases hn
    rw [(closeStdin_fields c t.eofOk s1).2.2.2.2.2.2.2.1] at hx
    exact bool_down on.stdout (h.out (e1 (by simp) hx (by simp)))
  | exited =>
    cases hn
    exact (closeStdout_onward c _).2

theorem ioTick_client (c : IoCfg) (hc : c.isService = false) (t : Tick) (hu : t.usr1 = false) (s s' : IoSt)
    (h : ClientSt c s) (hn : ioTick c t s = .next s') : ClientSt c s' := by
  unfold ioTick at hn
  dsimp only at hn
  have h1 : ClientSt c { s with inbox := s.inbox ++ t.arrive } := ⟨h.err, h.out⟩
  generalize ({ s with inbox := s.inbox ++ t.arrive } : IoSt) = s1 at h1 hn
  have h2 : ClientSt c (ioReap c t s1) := by
    unfold ioReap
    split
    · exact h1
    · split_ifs
      · have e := closeStdin_onward c t.eofOk { s1 with localStatus := some ‹Nat› }
        have f := closeStdin_fields c t.eofOk { s1 with localStatus := some ‹Nat› }
        exact ClientSt.onward (s := { s1 with localStatus := some ‹Nat› }) ⟨h1.err, h1.out⟩ e.1 f.2.2.2.2.2.2.2.1
      · exact h1
  generalize ioReap c t s1 = s2 at h2 hn
  cases ha : ioAllDone c t s2 with
  | some r =>
    rw [ha] at hn
    unfold ioAllDone at ha
    dsimp only at hn
    split_ifs at ha <;> cases ha <;> cases hn
  | none =>
    rw [ha] at hn
    dsimp only at hn
    by_cases hl : (!t.vchanOpen && s2.inbox.isEmpty && s2.buf.length == 0) = true
    · rw [if_pos hl] at hn; cases hn
    rw [if_neg hl] at hn
    have e3 : ioUsr1 c t s2 = s2 := by unfold ioUsr1; rw [hu]; rfl
    rw [e3] at hn
    unfold ioPoll at hn
    cases hp : t.poll with
    | eintr => rw [hp] at hn; cases hn; exact h2
    | error => rw [hp] at hn; cases hn
    | ready =>
      rw [hp] at hn
      dsimp only at hn
      split_ifs at hn with hw hx
      · have h3 := h2.onward (closeStdin_onward c t.eofOk s2).1 (closeStdin_fields c t.eofOk s2).2.2.2.2.2.2.2.1
        generalize closeStdin c t.eofOk s2 = s3 at h3 hn
        generalize (t.outReady && s2.pfx.length == 0 && s2.stdout) = rd at hn
        generalize (t.errReady && s2.stderr) = re at hn
        cases h4 : ioRemote c t s3 with
        | leave _ => rw [h4] at hn; cases hn
        | exit1 _ => rw [h4] at hn; cases hn
        | abort _ => rw [h4] at hn; cases hn
        | next s4 =>
          rw [h4] at hn
          have h4 := ioRemote_client c hc t s3 s4 h3 h4
          dsimp only at hn
          cases h5 : ioOut c t rd s4 with
          | leave _ => rw [h5] at hn; cases hn
          | exit1 _ => rw [h5] at hn; cases hn
          | abort _ => rw [h5] at hn; cases hn
          | next s5 =>
            rw [h5] at hn
            have a := ioOut_onward c t rd s4
            have b := ioOut_sameIn c t rd s4
            rw [h5] at a b
            have h5 := h4.onward a b.seen
            dsimp only at hn
            have a := ioErr_onward c t re s5
            have b := ioErr_sameIn c t re s5
            rw [hn] at a b
            exact h5.onward a b.seen
      · generalize (t.outReady && s2.pfx.length == 0 && s2.stdout) = rd at hn
        generalize (t.errReady && s2.stderr) = re at hn
        cases h4 : ioRemote c t s2 with
        | leave _ => rw [h4] at hn; cases hn
        | exit1 _ => rw [h4] at hn; cases hn
        | abort _ => rw [h4] at hn; cases hn
        | next s4 =>
          rw [h4] at hn
          have h4 := ioRemote_client c hc t s2 s4 h2 h4
          dsimp only at hn
          cases h5 : ioOut c t rd s4 with
          | leave _ => rw [h5] at hn; cases hn
          | exit1 _ => rw [h5] at hn; cases hn
          | abort _ => rw [h5] at hn; cases hn
          | next s5 =>
            rw [h5] at hn
            have a := ioOut_onward c t rd s4
            have b := ioOut_sameIn c t rd s4
            rw [h5] at a b
            have h5 := h4.onward a b.seen
            dsimp only at hn
            have a := ioErr_onward c t re s5
            have b := ioErr_sameIn c t re s5
            rw [hn] at a b
            exact h5.onward a b.seen

theorem ioRun_client (c : IoCfg) (hc : c.isService = false) (ts : List Tick) (hu : ∀ t ∈ ts, t.usr1 = false) (s s' : IoSt)
    (h : ClientSt c s) (hn : ioRun c ts s = .next s') : ClientSt c s' := by
  induction ts generalizing s with
  | nil => cases hn; exact h
  | cons t ts ih =>
    rw [ioRun] at hn
    cases h1 : ioTick c t s with
    | leave _ => rw [h1] at hn; cases hn
    | exit1 _ => rw [h1] at hn; cases hn
    | abort _ => rw [h1] at hn; cases hn
    | next s1 =>
      rw [h1] at hn
      exact ih (fun t ht => hu t (List.mem_cons_of_mem _ ht)) s1
        (ioTick_client c hc t (hu t (List.mem_cons_self ..)) s s1 h h1) hn

/-- **C95, the client.** Once a client has received the end of the output (or its output has been closed) and a status that is
not negative, and its local process - if there is one - has ended, it waits for nothing else: the next iteration leaves the loop,
whatever happens in it. -/
theorem C95_client (c : IoCfg) (hc : c.isService = false) (socket : Bool) (buf pfx : Str) (ts : List Tick)
    (hu : ∀ t ∈ ts, t.usr1 = false) (s : IoSt) (hr : ioRun c ts (ioStart c socket false buf pfx) = .next s)
    (heof : hasEof s.seen ∨ s.stdin = false) (x : Int) (hx : lastExit s.seen = some x) (hx0 : 0 ≤ x)
    (hl : c.hasPid = false ∨ s.localStatus ≠ none) (t : Tick) : ∃ s', ioTick c t s = .leave s' := by
  have hin : s.stdin = false := by
    rcases heof with heof | heof
    · by_contra hs
      exact ((C48_kept c socket false buf pfx ts s hr).2.1 (by simpa using hs)).2 heof
    · exact heof
  have h := ioRun_client c hc ts hu _ s ⟨rfl, fun h => absurd rfl h⟩ hr
  have htr := ioRun_track c hc ts (ioStart c socket false buf pfx) ⟨rfl, by simp [ioStart, stderrData, conv]⟩
  rw [hr] at htr
  have hrs : s.remoteStatus = x := by
    have := (htr trivial).1
    simp only [IoStep.st] at this
    rw [this, hx]; rfl
  have hout := h.out (by rw [hx]; simp)
  unfold ioTick
  dsimp only
  have hreap : ∃ s2, ioReap c t { s with inbox := s.inbox ++ t.arrive } = s2 ∧ s2.stdin = false ∧ s2.stdout = false ∧
      s2.stderr = false ∧ s2.remoteStatus = x ∧ (c.hasPid = false ∨ s2.localStatus ≠ none) := by
    refine ⟨_, rfl, ?_⟩
    have : ioReap c t { s with inbox := s.inbox ++ t.arrive } = { s with inbox := s.inbox ++ t.arrive } := by
      unfold ioReap
      split
      · rfl
      · refine if_neg ?_
        rcases hl with hl | hl
        · rw [hl]; simp
        · simp [hl]
    rw [this]
    exact ⟨hin, hout, h.err, hrs, hl⟩
  obtain ⟨s2, e2, a1, a2, a3, a4, a5⟩ := hreap
  rw [e2]
  have : ioAllDone c t s2 = some (.leave s2) := by
    unfold ioAllDone
    rw [if_pos (by rw [a1, a2, a3]; rfl), if_neg (by rw [hc]; decide), if_pos]
    rw [a4]
    rcases a5 with a5 | a5
    · simp [a5, hx0]
    · simp [hx0, Option.isSome_iff_ne_none.2 a5]
  rw [this]
  exact ⟨s2, rfl⟩

/-! ## The service -/

/-- The parts of an iteration that goes on. -/
theorem ioTick_parts (c : IoCfg) (t : Tick) (s s' : IoSt) (hn : ioTick c t s = .next s') :
    ∃ s2, s2 = ioReap c t { s with inbox := s.inbox ++ t.arrive } ∧ ioAllDone c t s2 = none ∧
      ¬ (t.vchanOpen = false ∧ s2.inbox = [] ∧ s2.buf = []) ∧
      (t.poll = .eintr ∧ s' = ioUsr1 c t s2 ∨
       t.poll = .ready ∧ t.waitFails = false ∧ ∃ s3 s4 s5 r1 r2,
         (s3 = ioUsr1 c t s2 ∨ t.stdinHup = true ∧ s3 = closeStdin c t.eofOk (ioUsr1 c t s2)) ∧
         ioRemote c t s3 = .next s4 ∧ ioOut c t r1 s4 = .next s5 ∧ ioErr c t r2 s5 = .next s') := by
  unfold ioTick at hn
  dsimp only at hn
  refine ⟨_, rfl, ?_⟩
  generalize ioReap c t { s with inbox := s.inbox ++ t.arrive } = s2 at hn ⊢
  cases ha : ioAllDone c t s2 with
  | some r =>
    rw [ha] at hn
    unfold ioAllDone at ha
    dsimp only at hn
    split_ifs at ha <;> cases ha <;> cases hn
  | none =>
    rw [ha] at hn
    dsimp only at hn
    by_cases hl : (!t.vchanOpen && s2.inbox.isEmpty && s2.buf.length == 0) = true
    · rw [if_pos hl] at hn; cases hn
    rw [if_neg hl] at hn
    refine ⟨rfl, ?_, ?_⟩
    · rintro ⟨a, b, d⟩
      rw [a, b, d] at hl
      exact absurd rfl hl
    unfold ioPoll at hn
    cases hp : t.poll with
    | eintr => rw [hp] at hn; cases hn; exact .inl ⟨rfl, rfl⟩
    | error => rw [hp] at hn; cases hn
    | ready =>
      rw [hp] at hn
      dsimp only at hn
      by_cases hw : t.waitFails = true
      · rw [if_pos hw] at hn; cases hn
      rw [if_neg hw] at hn
      refine .inr ⟨rfl, by simpa using hw, ?_⟩
      have h3 : ∃ s3, (if t.stdinHup && (ioUsr1 c t s2).stdin then closeStdin c t.eofOk (ioUsr1 c t s2) else ioUsr1 c t s2) = s3 ∧
          (s3 = ioUsr1 c t s2 ∨ t.stdinHup = true ∧ s3 = closeStdin c t.eofOk (ioUsr1 c t s2)) := by
        refine ⟨_, rfl, ?_⟩
        by_cases hx : (t.stdinHup && (ioUsr1 c t s2).stdin) = true
        · rw [if_pos hx]; rw [Bool.and_eq_true] at hx; exact .inr ⟨hx.1, rfl⟩
        · rw [if_neg hx]; exact .inl rfl
      obtain ⟨s3, e3, h3⟩ := h3
      rw [e3] at hn
      cases h4 : ioRemote c t s3 with
      | leave _ => rw [h4] at hn; cases hn
      | exit1 _ => rw [h4] at hn; cases hn
      | abort _ => rw [h4] at hn; cases hn
      | next s4 =>
        rw [h4] at hn
        dsimp only at hn
        generalize hr1 : (t.outReady && (ioUsr1 c t s2).pfx.length == 0 && (ioUsr1 c t s2).stdout) = r1 at hn
        generalize hr2 : (t.errReady && (ioUsr1 c t s2).stderr) = r2 at hn
        cases h5 : ioOut c t r1 s4 with
        | leave _ => rw [h5] at hn; cases hn
        | exit1 _ => rw [h5] at hn; cases hn
        | abort _ => rw [h5] at hn; cases hn
        | next s5 =>
          rw [h5] at hn
          exact ⟨s3, s4, s5, r1, r2, h3, h4, h5, hn⟩

theorem inputOut_loc (c : IoCfg) (t : Nat) (os : List OutStep) (s : IoSt) :
    (inputOut c t os s).2.localStatus = s.localStatus := by
  have sc : ∀ (d : Str) (o : OutStep) (s : IoSt), (sendChunk t d o s).2.localStatus = s.localStatus := by
    intro d o s; unfold sendChunk; split_ifs <;> rfl
  induction os generalizing s with
  | nil => rfl
  | cons o os ih =>
    rw [inputOut]
    dsimp only
    have go : ∀ (d : Str) (s1 : IoSt), s1.localStatus = s.localStatus →
        (match sendChunk t d o s1 with
          | (none, s) => inputOut c t os s
          | (some r, s) => (r, s)).2.localStatus = s.localStatus := by
      intro d s1 h1
      have h2 := sc d o s1
      generalize sendChunk t d o s1 = r at h2 ⊢
      obtain ⟨r, s2⟩ := r
      cases r with
      | none => exact (ih s2).trans (h2.trans h1)
      | some r => exact h2.trans h1
    split_ifs
    · rfl
    · exact go _ _ rfl
    · rfl
    · split
      · rfl
      · rfl
      · exact sc [] o s
      · exact go _ _ rfl

theorem inputErr_loc (c : IoCfg) (os : List OutStep) (s : IoSt) :
    (inputErr c os s).2.localStatus = s.localStatus := by
  have sc : ∀ (d : Str) (o : OutStep) (s : IoSt), (sendChunk msgStderr d o s).2.localStatus = s.localStatus := by
    intro d o s; unfold sendChunk; split_ifs <;> rfl
  induction os generalizing s with
  | nil => rfl
  | cons o os ih =>
    rw [inputErr]
    dsimp only
    have go : ∀ (d : Str) (s1 : IoSt), s1.localStatus = s.localStatus →
        (match sendChunk msgStderr d o s1 with
          | (none, s) => inputErr c os s
          | (some r, s) => (r, s)).2.localStatus = s.localStatus := by
      intro d s1 h1
      have h2 := sc d o s1
      generalize sendChunk msgStderr d o s1 = r at h2 ⊢
      obtain ⟨r, s2⟩ := r
      cases r with
      | none => exact (ih s2).trans (h2.trans h1)
      | some r => exact h2.trans h1
    split_ifs
    · rfl
    · split
      · rfl
      · rfl
      · exact sc [] o s
      · exact go _ _ rfl

theorem ioOut_loc (c t ready) (s s' : IoSt) (h : ioOut c t ready s = .next s') : s'.localStatus = s.localStatus := by
  unfold ioOut at h
  split_ifs at h
  · have := inputOut_loc c c.outType t.out s
    generalize inputOut c c.outType t.out s = r at this h
    obtain ⟨r, s1⟩ := r
    have hc := (closeStdout_fields c s1).2.2.2.2.1
    cases r with
    | error =>
      dsimp only at h
      split_ifs at h
      cases h; exact hc.trans this
    | eof => cases h; exact hc.trans this
    | ok => cases h; exact this
    | exited => cases h; exact this
    | aborted => cases h; exact this
  · cases h; rfl

theorem ioErr_loc (c t ready) (s s' : IoSt) (h : ioErr c t ready s = .next s') : s'.localStatus = s.localStatus := by
  unfold ioErr at h
  split_ifs at h
  · have := inputErr_loc c t.err s
    generalize inputErr c t.err s = r at this h
    obtain ⟨r, s1⟩ := r
    cases r <;> cases h <;> exact this
  · cases h; rfl

theorem ioRemote_loc (c t) (s s' : IoSt) (h : ioRemote c t s = .next s') : s'.localStatus = s.localStatus := by
  unfold ioRemote at h
  have := (handleRemote_out c t.writes s).1.loc
  generalize handleRemoteData c t.writes s = r at this h
  obtain ⟨r, s1⟩ := r
  cases r with
  | error => cases h
  | aborted => cases h
  | ok => cases h; exact this
  | eof => cases h; exact (closeStdin_fields c t.eofOk s1).2.2.2.2.1.trans this
  | exited =>
    cases h
    rw [(closeStdout_fields c _).2.2.2.2.1]
    split_ifs
    · unfold sendEof; split_ifs <;> exact this
    · exact this

theorem ioUsr1_loc (c t) (s : IoSt) : (ioUsr1 c t s).localStatus = s.localStatus ∧
    ((ioUsr1 c t s).stdin = true → s.stdin = true) := by
  unfold ioUsr1
  split_ifs
  · exact ⟨(closeStdout_fields c s).2.2.2.2.1, (closeStdout_onward c s).1.stdin⟩
  · exact ⟨rfl, id⟩

/-- When the local process has been reaped, nothing is written to it any more. -/
def Reaped (s : IoSt) : Prop := s.localStatus ≠ none → s.stdin = false

theorem ioTick_reaped (c : IoCfg) (t : Tick) (s s' : IoSt) (h : Reaped s) (hn : ioTick c t s = .next s') : Reaped s' := by
  obtain ⟨s2, e2, _, _, hp⟩ := ioTick_parts c t s s' hn
  have h2 : Reaped s2 := by
    rw [e2]
    have h1 : Reaped { s with inbox := s.inbox ++ t.arrive } := h
    unfold ioReap
    split
    · exact h1
    · split_ifs
      · exact fun _ => (closeStdin_less c t.eofOk _).2
      · exact h1
  have hu := ioUsr1_loc c t s2
  have h3 : Reaped (ioUsr1 c t s2) := fun hx => bool_down hu.2 (h2 (hu.1 ▸ hx))
  rcases hp with ⟨_, e⟩ | ⟨_, _, s3, s4, s5, r1, r2, e3, e4, e5, e6⟩
  · exact e ▸ h3
  · have h4 : Reaped s3 := by
      rcases e3 with e | ⟨_, e⟩
      · exact e ▸ h3
      · rw [e]; exact fun _ => (closeStdin_less c t.eofOk _).2
    have a := ioRemote_onward c t s3
    have b := ioOut_onward c t r1 s4
    have d := ioErr_onward c t r2 s5
    rw [e4] at a; rw [e5] at b; rw [e6] at d
    intro hx
    refine bool_down (fun h => a.stdin (b.stdin (d.stdin h))) (h4 ?_)
    rw [← ioRemote_loc c t s3 s4 e4, ← ioOut_loc c t r1 s4 s5 e5, ← ioErr_loc c t r2 s5 s' e6]
    exact hx

theorem ioRun_reaped (c : IoCfg) (ts : List Tick) (s s' : IoSt) (h : Reaped s) (hn : ioRun c ts s = .next s') :
    Reaped s' := by
  induction ts generalizing s with
  | nil => cases hn; exact h
  | cons t ts ih =>
    rw [ioRun] at hn
    cases h1 : ioTick c t s with
    | leave _ => rw [h1] at hn; cases hn
    | exit1 _ => rw [h1] at hn; cases hn
    | abort _ => rw [h1] at hn; cases hn
    | next s1 =>
      rw [h1] at hn
      exact ih s1 (ioTick_reaped c t s s1 h h1) hn

/-- **C95, the service.** Once the local process of a service has ended (its status has been collected) and its output and its
standard error have ended, the service waits for nothing else, in particular not for the client: in the next iteration it sends
the exit status and leaves the loop. -/
theorem C95_service (c : IoCfg) (hc : c.isService = true) (hpid : c.hasPid = true) (socket hasErr : Bool) (buf pfx : Str)
    (ts : List Tick) (s : IoSt) (hr : ioRun c ts (ioStart c socket hasErr buf pfx) = .next s) (st : Nat)
    (hst : s.localStatus = some st) (ho : s.stdout = false) (he : s.stderr = false) (t : Tick) (ht : t.exitCodeOk = true) :
    ∃ s', ioTick c t s = .leave s' ∧ s'.sent = s.sent ++ [(0x193, i32le (st : Int))] := by
  have hin : s.stdin = false := ioRun_reaped c ts _ s (fun h => absurd rfl h) hr (by rw [hst]; simp)
  unfold ioTick
  dsimp only
  have hreap : ioReap c t { s with inbox := s.inbox ++ t.arrive } = { s with inbox := s.inbox ++ t.arrive } := by
    unfold ioReap
    split
    · rfl
    · exact if_neg (by simp [hst])
  rw [hreap]
  have : ioAllDone c t { s with inbox := s.inbox ++ t.arrive } =
      some (.leave { s with inbox := s.inbox ++ t.arrive, sent := s.sent ++ [(msgExitCode, i32le (st : Int))] }) := by
    unfold ioAllDone
    rw [if_pos (by show (s.stdin == false && s.stdout == false && s.stderr == false) = true; rw [hin, ho, he]; rfl), if_pos hc]
    rw [if_pos (by show (!c.hasPid || s.localStatus.isSome) = true; rw [hst]; simp), if_pos ht, hpid]
    have : ({ s with inbox := s.inbox ++ t.arrive } : IoSt).localStatus = some st := hst
    rw [this]
    rfl
  rw [this]
  exact ⟨_, rfl, rfl⟩

/-! ## The other end has gone away -/

/-- Every write of the schedule takes something. -/
def AllPart (ks : List Sys) : Prop := ∀ k ∈ ks, ∃ m, k = .part m

theorem flush_all (ks : List Sys) (b : Str) (hk : AllPart ks) (hl : b.length ≤ ks.length) :
    ∃ w ks', flushClientData ks b = (.ok, [], w, ks') ∧ AllPart ks' ∧ ks.length ≤ ks'.length + b.length := by
  induction ks generalizing b with
  | nil =>
    cases b with
    | nil => exact ⟨_, _, rfl, hk, by simp⟩
    | cons b bs => simp at hl
  | cons k ks ih =>
    cases b with
    | nil => exact ⟨_, _, rfl, hk, by simp⟩
    | cons b bs =>
      obtain ⟨m, rfl⟩ := hk k (List.mem_cons_self ..)
      obtain ⟨w, ks', e, h1, h2⟩ := ih ((b :: bs).drop (m + 1)) (fun k h => hk k (List.mem_cons_of_mem _ h))
        (by simp at hl ⊢; omega)
      refine ⟨(b :: bs).take (m + 1) ++ w, ks', ?_, h1, ?_⟩
      · rw [flushClientData, e]
      · simp at h2 ⊢; omega

theorem writeLoop_all (ks : List Sys) (b : Str) (hk : AllPart ks) (hl : b.length ≤ ks.length) :
    ∃ w ks', writeStdinLoop ks b = (.ok, [], w, ks') ∧ AllPart ks' ∧ ks.length ≤ ks'.length + b.length := by
  induction ks generalizing b with
  | nil =>
    cases b with
    | nil => exact ⟨_, _, rfl, hk, by simp⟩
    | cons b bs => simp at hl
  | cons k ks ih =>
    cases b with
    | nil => exact ⟨_, _, rfl, hk, by simp⟩
    | cons b bs =>
      obtain ⟨m, rfl⟩ := hk k (List.mem_cons_self ..)
      obtain ⟨w, ks', e, h1, h2⟩ := ih ((b :: bs).drop (m + 1)) (fun k h => hk k (List.mem_cons_of_mem _ h))
        (by simp at hl ⊢; omega)
      refine ⟨(b :: bs).take (m + 1) ++ w, ks', ?_, h1, ?_⟩
      · rw [writeStdinLoop, e]
      · simp at h2 ⊢; omega

/-- The bytes of the messages. -/
def inboxBytes (q : List InItem) : Nat := (q.map fun i => match i with | .broken => 0 | .msg _ d => d.length).sum

/-- The messages have been taken, at least one of them, and nothing is buffered. -/
structure Drained (q : List InItem) (s' : IoSt) : Prop where
  buf : s'.buf = []
  inbox : s'.inbox.length ≤ q.length - 1
  bytes : inboxBytes s'.inbox ≤ inboxBytes q

theorem remoteLoop_drains (c : IoCfg) (q : List InItem) (ks : List Sys) (s : IoSt) (hb : s.buf = []) (hk : AllPart ks)
    (hl : inboxBytes q ≤ ks.length) : Drained q (remoteLoop c q ks s).2 := by
  induction q generalizing ks s with
  | nil => exact ⟨hb, by simp [remoteLoop], by simp [remoteLoop]⟩
  | cons i q ih =>
    cases i with
    | broken => exact ⟨hb, by simp [remoteLoop], by simp [remoteLoop, inboxBytes]⟩
    | msg t d =>
      have ebytes : inboxBytes (.msg t d :: q) = d.length + inboxBytes q := by simp [inboxBytes]
      have stop : ∀ s1 : IoSt, s1.buf = [] → s1.inbox = q → Drained (.msg t d :: q) s1 := by
        intro s1 h1 h2
        exact ⟨h1, by rw [h2]; simp, by rw [h2, ebytes]; omega⟩
      have more : ∀ (ks' : List Sys) (s1 : IoSt), s1.buf = [] → AllPart ks' → inboxBytes q ≤ ks'.length →
          Drained (.msg t d :: q) (remoteLoop c q ks' s1).2 := by
        intro ks' s1 h1 h2 h3
        have := ih ks' s1 h1 h2 h3
        exact ⟨this.buf, by have := this.inbox; simp; omega, by have := this.bytes; rw [ebytes]; omega⟩
      rw [remoteLoop]
      dsimp only
      by_cases h1 : d.length > c.maxChunk
      · rw [if_pos h1]; exact stop _ hb rfl
      rw [if_neg h1]
      by_cases h2 : (t == msgStdin || t == msgStdout) = true
      · rw [if_pos h2]
        by_cases h3 : (s.stdin == false) = true
        · rw [if_pos h3]; exact more _ _ hb hk (by omega)
        rw [if_neg h3]
        by_cases h4 : (d.length == 0) = true
        · rw [if_pos h4]; exact stop _ hb rfl
        rw [if_neg h4, hb, writeStdin_nil]
        generalize hd : (if c.replaceOut then doReplaceChars d else d) = d'
        have hlen : d'.length = d.length := by
          rw [← hd]; split_ifs <;> simp [doReplaceChars]
        obtain ⟨w, ks', e, a, b⟩ := writeLoop_all ks d' hk (by omega)
        rw [e]
        exact more _ _ rfl a (by omega)
      rw [if_neg h2]
      by_cases h3 : (t == msgStderr) = true
      · rw [if_pos h3]
        split_ifs
        all_goals exact more _ _ hb hk (by omega)
      rw [if_neg h3]
      by_cases h4 : (t == msgExitCode) = true
      · rw [if_pos h4]
        by_cases h5 : c.isService = true
        · rw [if_pos h5]; exact more _ _ hb hk (by omega)
        · rw [if_neg h5]; exact stop _ hb rfl
      · rw [if_neg h4]; exact stop _ hb rfl

theorem handleRemote_drains (c : IoCfg) (ks : List Sys) (s : IoSt) (hb : s.buf = [] ∨ s.stdin = true) (hk : AllPart ks)
    (hl : s.buf.length + inboxBytes s.inbox ≤ ks.length) : Drained s.inbox (handleRemoteData c ks s).2 := by
  unfold handleRemoteData
  by_cases h : (s.stdin == false) = true
  · rw [if_pos h]
    have : s.buf = [] := by
      rcases hb with hb | hb
      · exact hb
      · rw [hb] at h; cases h
    exact remoteLoop_drains c _ ks s this hk (by omega)
  · rw [if_neg h]
    obtain ⟨w, ks', e, a, b⟩ := flush_all ks s.buf hk (by omega)
    rw [e]
    exact remoteLoop_drains c _ ks' _ rfl a (by omega)

theorem ioRemote_drains (c : IoCfg) (t : Tick) (s s' : IoSt) (hb : s.buf = [] ∨ s.stdin = true) (hk : AllPart t.writes)
    (hl : s.buf.length + inboxBytes s.inbox ≤ t.writes.length) (hn : ioRemote c t s = .next s') : Drained s.inbox s' := by
  have h := handleRemote_drains c t.writes s hb hk hl
  unfold ioRemote at hn
  generalize handleRemoteData c t.writes s = r at h hn
  obtain ⟨r, s1⟩ := r
  have move : ∀ s2 : IoSt, LessIn s1 s2 → Drained s.inbox s2 := by
    intro s2 l
    exact ⟨l.buf.trans h.buf, by rw [l.inbox]; exact h.inbox, by rw [l.inbox]; exact h.bytes⟩
  cases r with
  | error => cases hn
  | aborted => cases hn
  | ok => cases hn; exact h
  | eof => cases hn; exact move _ (closeStdin_less c t.eofOk s1).1
  | exited =>
    cases hn
    refine move _ (LessIn.trans ?_ (closeStdout_less c _).1)
    split_ifs
    · exact (sendEof_less c t.eofOk s1).1
    · exact .refl s1

theorem ioTick_drains (c : IoCfg) (t : Tick) (s s' : IoSt) (hg : Gone t) (hw : Works t) (hk : AllPart t.writes)
    (hl : pendingBytes s ≤ t.writes.length) (hb : s.buf = [] ∨ s.stdin = true ∧ t.reaped = none ∧ t.stdinHup = false ∧ t.usr1 = false)
    (hn : ioTick c t s = .next s') : Drained s.inbox s' ∧ ¬ (s.inbox = [] ∧ s.buf = []) := by
  obtain ⟨s2, e2, _, hnl, hp⟩ := ioTick_parts c t s s' hn
  rw [hg.2, List.append_nil] at e2
  have es : ({ s with inbox := s.inbox } : IoSt) = s := rfl
  rw [es] at e2
  have l2 := ioReap_less c t s
  rw [← e2] at l2
  have l3 := ioUsr1_less c t s2
  refine ⟨?_, fun h => hnl ⟨hg.1, l2.1.inbox.trans h.1, l2.1.buf.trans h.2⟩⟩
  rcases hp with ⟨e, _⟩ | ⟨_, _, s3, s4, s5, r1, r2, e3, e4, e5, e6⟩
  · rw [hw.1] at e; cases e
  · have l4 : LessIn s s3 := by
      rcases e3 with e | ⟨_, e⟩
      · rw [e]; exact l2.1.trans l3.1
      · rw [e]; exact l2.1.trans (l3.1.trans (closeStdin_less c t.eofOk _).1)
    have hb3 : s3.buf = [] ∨ s3.stdin = true := by
      rcases hb with hb | ⟨b1, b2, b3, b4⟩
      · exact .inl (l4.buf.trans hb)
      · right
        rcases e3 with e | ⟨e, _⟩
        · rw [e]
          have : ioUsr1 c t s2 = s2 := by unfold ioUsr1; rw [b4]; rfl
          rw [this, l2.2 b2, b1]
        · rw [b3] at e; cases e
    have h4 := ioRemote_drains c t s3 s4 hb3 hk (by rw [l4.buf, l4.inbox]; exact hl) e4
    have l5 := (ioOut_less c t r1 s4).1
    rw [e5] at l5
    have l6 := (ioErr_less c t r2 s5).1
    rw [e6] at l6
    have l := l5.trans l6
    dsimp only [IoStep.st] at l
    rw [l4.inbox] at h4
    exact ⟨l.buf.trans h4.buf, by rw [l.inbox]; exact h4.inbox, by rw [l.inbox]; exact h4.bytes⟩

theorem ioRun_gone (c : IoCfg) (ts : List Tick) (s : IoSt) (hg : ∀ t ∈ ts, Gone t ∧ Works t ∧ Takes (pendingBytes s) t)
    (hb : s.buf = []) (hl : s.inbox.length < ts.length) : ¬ ∃ s', ioRun c ts s = .next s' := by
  induction ts generalizing s with
  | nil => simp at hl
  | cons t ts ih =>
    rintro ⟨s', hn⟩
    rw [ioRun] at hn
    obtain ⟨g1, g2, g3⟩ := hg t (List.mem_cons_self ..)
    cases h1 : ioTick c t s with
    | leave _ => rw [h1] at hn; cases hn
    | exit1 _ => rw [h1] at hn; cases hn
    | abort _ => rw [h1] at hn; cases hn
    | next s1 =>
      rw [h1] at hn
      obtain ⟨d, hne⟩ := ioTick_drains c t s s1 g1 g2 g3.1 g3.2 (.inl hb) h1
      have hi : s.inbox ≠ [] := fun h => hne ⟨h, hb⟩
      have hi' := List.length_pos_iff.2 hi
      refine ih s1 (fun t ht => ?_) d.buf (by have := d.inbox; simp at hl; omega) ⟨s', hn⟩
      obtain ⟨a, b, k⟩ := hg t (List.mem_cons_of_mem _ ht)
      refine ⟨a, b, k.1, Nat.le_trans ?_ k.2⟩
      have hd := d.bytes
      unfold pendingBytes
      rw [d.buf, hb]
      exact Nat.add_le_add_left hd _

/-- **C95, partial: the other end has gone away.** If the other end is gone, `ppoll` works and the local process takes what is
written to it, the loop is left after at most as many iterations as messages are waiting, plus two - on a client and on a
service, whatever is still open and whatever the local process does. Missing: data that the local process has not taken when it
closes its input, see `C95_hangs`. -/
theorem C95_gone_partial (c : IoCfg) (ts : List Tick) (s : IoSt)
    (hg : ∀ t ∈ ts, Gone t ∧ Works t ∧ Takes (pendingBytes s) t)
    (hb : s.buf = [] ∨ s.stdin = true ∧ ∀ t ∈ ts.head?, t.reaped = none ∧ t.stdinHup = false ∧ t.usr1 = false)
    (hl : s.inbox.length + 2 ≤ ts.length) : ¬ ∃ s', ioRun c ts s = .next s' := by
  rcases hb with hb | ⟨hs, hb⟩
  · exact ioRun_gone c ts s hg hb (by omega)
  · cases ts with
    | nil => simp at hl
    | cons t ts =>
      rintro ⟨s', hn⟩
      rw [ioRun] at hn
      obtain ⟨g1, g2, g3⟩ := hg t (List.mem_cons_self ..)
      cases h1 : ioTick c t s with
      | leave _ => rw [h1] at hn; cases hn
      | exit1 _ => rw [h1] at hn; cases hn
      | abort _ => rw [h1] at hn; cases hn
      | next s1 =>
        rw [h1] at hn
        obtain ⟨d, _⟩ := ioTick_drains c t s s1 g1 g2 g3.1 g3.2 (.inr ⟨hs, hb t rfl⟩) h1
        refine ioRun_gone c ts s1 (fun t ht => ?_) d.buf (by have := d.inbox; simp at hl; omega) ⟨s', hn⟩
        obtain ⟨a, b, k⟩ := hg t (List.mem_cons_of_mem _ ht)
        refine ⟨a, b, k.1, Nat.le_trans ?_ k.2⟩
        have hd := d.bytes
        unfold pendingBytes
        rw [d.buf]
        exact Nat.le_trans (Nat.add_le_add_left hd 0) (by show 0 + inboxBytes s.inbox ≤ s.buf.length + inboxBytes s.inbox; omega)

/-- A client that waits for an exit status that cannot come, with data that nobody takes. -/
structure Stuck (s : IoSt) : Prop where
  stdin : s.stdin = false
  stderr : s.stderr = false
  buf : s.buf ≠ []
  inbox : s.inbox = []
  remote : s.remoteStatus = -1

theorem ioTick_stuck (c : IoCfg) (hc : c.isService = false) (s : IoSt) (h : Stuck s) (t : Tick) (hg : Gone t)
    (hp : t.poll ≠ .error) (hw : t.waitFails = false) (hu : t.usr1 = false) : ∃ s', ioTick c t s = .next s' ∧ Stuck s' := by
  unfold ioTick
  dsimp only
  rw [hg.2, List.append_nil]
  have es : ({ s with inbox := s.inbox } : IoSt) = s := rfl
  rw [es]
  have h2 : Stuck (ioReap c t s) := by
    have l := ioReap_less c t s
    have : (ioReap c t s).stderr = s.stderr ∧ (ioReap c t s).remoteStatus = s.remoteStatus := by
      unfold ioReap
      split
      · exact ⟨rfl, rfl⟩
      · split_ifs
        · have := closeStdin_fields c t.eofOk { s with localStatus := some ‹Nat› }
          exact ⟨this.2.2.2.1, this.2.2.2.2.2.1⟩
        · exact ⟨rfl, rfl⟩
    refine ⟨?_, this.1.trans h.stderr, by rw [l.1.buf]; exact h.buf, l.1.inbox.trans h.inbox, this.2.trans h.remote⟩
    rcases l.1.stdin with e | e
    · exact e.trans h.stdin
    · exact e
  generalize ioReap c t s = s2 at h2 ⊢
  have ha : ioAllDone c t s2 = none := by
    unfold ioAllDone
    by_cases a : (s2.stdin == false && s2.stdout == false && s2.stderr == false) = true
    · rw [if_pos a, if_neg (by rw [hc]; decide), if_neg (by rw [h2.remote]; simp)]
    · rw [if_neg a]
  rw [ha]
  dsimp only
  rw [if_neg (by simp [h2.buf])]
  have e3 : ioUsr1 c t s2 = s2 := by unfold ioUsr1; rw [hu]; rfl
  rw [e3]
  unfold ioPoll
  cases hp' : t.poll with
  | error => exact absurd hp' hp
  | eintr => exact ⟨s2, rfl, h2⟩
  | ready =>
    dsimp only
    rw [hw, if_neg (by decide), h2.stdin, Bool.and_false, if_neg (by decide)]
    have e4 : ioRemote c t s2 = .next s2 := by
      unfold ioRemote handleRemoteData
      rw [if_pos (by rw [h2.stdin]; rfl), h2.inbox]
      show IoStep.next { s2 with inbox := [] } = _
      have : ({ s2 with inbox := [] } : IoSt) = s2 := by
        have e := h2.inbox
        cases s2
        dsimp only at e
        subst e
        rfl
      rw [this]
    rw [e4]
    dsimp only
    generalize (t.outReady && s2.pfx.length == 0 && s2.stdout) = r1
    generalize (t.errReady && s2.stderr) = r2
    have h5 : ∃ s5, ioOut c t r1 s2 = .next s5 ∧ Stuck s5 := by
      have l := (ioOut_less c t r1 s2).1
      have b := ioOut_onward c t r1 s2
      have d := ioOut_sameIn c t r1 s2
      unfold ioOut at l b d ⊢
      by_cases hx : (s2.pfx.length != 0 || (s2.stdout && r1)) = true
      · rw [if_pos hx] at l b d ⊢
        have rs := (inputOut_sameIn c c.outType t.out s2).remote
        generalize inputOut c c.outType t.out s2 = r at l b d rs ⊢
        obtain ⟨r, s1⟩ := r
        have fin : ∀ s5, LessIn s2 s5 → Onward s2 s5 → SameIn s2 s5 → Stuck s5 := by
          intro s5 l b d
          refine ⟨?_, bool_down b.stderr h2.stderr, by rw [l.buf]; exact h2.buf, l.inbox.trans h2.inbox, d.remote.trans h2.remote⟩
          rcases l.stdin with e | e
          · exact e.trans h2.stdin
          · exact e
        cases r with
        | error =>
          have : (!c.isService && s1.remoteStatus == -1) = true := by
            rw [hc, show s1.remoteStatus = -1 from rs.trans h2.remote]; rfl
          dsimp only at l b d ⊢
          rw [if_pos this] at l b d ⊢
          exact ⟨_, rfl, fin _ l b d⟩
        | eof => exact ⟨_, rfl, fin _ l b d⟩
        | ok => exact ⟨_, rfl, fin _ l b d⟩
        | exited => exact ⟨_, rfl, fin _ l b d⟩
        | aborted => exact ⟨_, rfl, fin _ l b d⟩
      · rw [if_neg hx]; exact ⟨s2, rfl, h2⟩
    obtain ⟨s5, e5, h5⟩ := h5
    rw [e5]
    dsimp only
    refine ⟨s5, ?_, h5⟩
    unfold ioErr
    rw [h5.stderr]
    rfl

/-- **C95 is violated: a client can hang for ever.** If its local process has closed its input with data still buffered, and the
other end has gone away without an exit status, the loop is never left, whatever else happens: the buffer cannot be flushed any
more, and a closed vchan counts only with an empty buffer. -/
theorem C95_hangs (c : IoCfg) (hc : c.isService = false) (s : IoSt) (h : Stuck s) (ts : List Tick)
    (ht : ∀ t ∈ ts, Gone t ∧ t.poll ≠ .error ∧ t.waitFails = false ∧ t.usr1 = false) :
    ∃ s', ioRun c ts s = .next s' ∧ Stuck s' := by
  induction ts generalizing s with
  | nil => exact ⟨s, rfl, h⟩
  | cons t ts ih =>
    obtain ⟨g, p, w, u⟩ := ht t (List.mem_cons_self ..)
    obtain ⟨s1, e1, h1⟩ := ioTick_stuck c hc s h t g p w u
    obtain ⟨s', e, h'⟩ := ih s1 h1 (fun t h => ht t (List.mem_cons_of_mem _ h))
    exact ⟨s', by rw [ioRun, e1]; exact e, h'⟩

/-- Such a state is reached: three bytes arrive, the local process takes one and then closes its input, the qube dies. -/
theorem C95_hangs_reachable : ∃ s, ioRun exClient
      [{ arrive := [.msg 0x191 c!"abc"], writes := [.part 0, .eagain] }, { stdinHup := true, reaped := some 0, vchanOpen := false }]
      (ioStart exClient false false [] []) = .next s ∧ Stuck s := by
  refine ⟨_, rfl, ?_⟩
  exact ⟨rfl, rfl, by decide, rfl, rfl⟩

/-! ## Examples -/

/-- `C95_client`: the service has sent three bytes, the end and its status, the local process of the client has ended. -/
example : ∃ s, ioRun exClient
      [{ arrive := [.msg 0x191 c!"abc", .msg 0x191 [], .msg 0x193 (i32le 3)], writes := [.part 9] }, { reaped := some 0 }]
      (ioStart exClient false false [] []) = .next s ∧ hasEof s.seen ∧ lastExit s.seen = some 3 ∧ s.localStatus ≠ none := by
  refine ⟨_, rfl, ⟨0x191, rfl, ?_⟩, rfl, by decide⟩
  exact List.mem_cons_of_mem _ (List.mem_cons_self ..)

/-- `C95_service`: a service that has written its output, and ended, while the client still sends. -/
def exServiceCfg : IoCfg := { isService := true, hasPid := true }

example : ∃ s, ioRun exServiceCfg
      [{ arrive := [.msg 0x190 c!"abc"], writes := [.part 9], outReady := true,
         out := [⟨1000, .got c!"out", true, true, none⟩, ⟨1000, .got [], true, true, none⟩], errReady := true,
         err := [⟨1000, .got [], true, true, none⟩] }, { reaped := some 7, arrive := [.msg 0x190 c!"x"], poll := .eintr, exitCodeOk := true }]
      (ioStart exServiceCfg false true [] []) = .leave s ∧ s.sent.getLast? = some (0x193, i32le 7) := ⟨_, rfl, by decide⟩

example : ∃ s, ioRun exServiceCfg
      [{ reaped := some 7 }, { outReady := true, out := [⟨1000, .got [], true, true, none⟩], errReady := true, err := [⟨1000, .got [], true, true, none⟩] }]
      (ioStart exServiceCfg false true [] []) = .next s ∧ s.localStatus = some 7 ∧ s.stdout = false ∧ s.stderr = false :=
  ⟨_, rfl, rfl, rfl, rfl⟩

/-- `C95_gone_partial`: two messages and a buffered byte, the other end has gone. -/
example : ∃ s, ioRun exClient
      [{ arrive := [.msg 0x191 c!"abc", .msg 0x191 c!"de"], writes := [.part 0, .eagain] }] (ioStart exClient false false [] []) = .next s ∧
    s.buf ≠ [] ∧ s.inbox ≠ [] ∧ s.stdin = true ∧
    ∀ t ∈ List.replicate 5 ({ vchanOpen := false, writes := List.replicate 9 (.part 0) } : Tick),
      Gone t ∧ Works t ∧ Takes (pendingBytes s) t := by
  refine ⟨_, rfl, by decide, by decide, rfl, ?_⟩
  intro t ht
  rw [List.eq_of_mem_replicate ht]
  refine ⟨⟨rfl, rfl⟩, ⟨rfl, rfl⟩, fun k hk => ⟨0, List.eq_of_mem_replicate hk⟩, ?_⟩
  decide

end Qrexec
