import Verif.Props.Start
import Verif.Props.DataOut

/-!
# C111: the copy of what a service writes to stderr
-/
namespace Qrexec

/-- Neither what was read from stderr nor its copy changes. -/
def SameLog (s s' : IoSt) : Prop := s'.copied = s.copied ∧ s'.readErr = s.readErr

theorem SameLog.trans {a b c : IoSt} (h : SameLog a b) (k : SameLog b c) : SameLog a c :=
  ⟨k.1.trans h.1, k.2.trans h.2⟩

theorem remoteLoop_log (c : IoCfg) (q : List InItem) (ks : List Sys) (s : IoSt) : SameLog s (remoteLoop c q ks s).2 := by
  induction q generalizing ks s with
  | nil => exact ⟨rfl, rfl⟩
  | cons i q ih =>
    cases i with
    | broken => exact ⟨rfl, rfl⟩
    | msg t d =>
      rw [remoteLoop]
      dsimp only
      have cont : ∀ ks' s1, SameLog s s1 → SameLog s (remoteLoop c q ks' s1).2 := fun ks' s1 h => h.trans (ih ks' s1)
      split_ifs
      · exact ⟨rfl, rfl⟩
      · exact cont _ _ ⟨rfl, rfl⟩
      · exact ⟨rfl, rfl⟩
      · split
        · exact cont _ _ ⟨rfl, rfl⟩
        · exact ⟨rfl, rfl⟩
        · exact ⟨rfl, rfl⟩
        · exact ⟨rfl, rfl⟩
      · split
        · exact cont _ _ ⟨rfl, rfl⟩
        · exact ⟨rfl, rfl⟩
        · exact ⟨rfl, rfl⟩
        · exact ⟨rfl, rfl⟩
      all_goals first | exact cont _ _ ⟨rfl, rfl⟩ | exact ⟨rfl, rfl⟩

theorem handleRemote_log (c : IoCfg) (ks : List Sys) (s : IoSt) : SameLog s (handleRemoteData c ks s).2 := by
  unfold handleRemoteData
  split_ifs
  · exact remoteLoop_log ..
  · split
    · exact SameLog.trans ⟨rfl, rfl⟩ (remoteLoop_log ..)
    all_goals exact ⟨rfl, rfl⟩

theorem sendChunk_log (t : Nat) (d : Str) (o : OutStep) (s : IoSt) : SameLog s (sendChunk t d o s).2 := by
  unfold sendChunk
  split_ifs <;> exact ⟨rfl, rfl⟩

theorem inputOut_log (c : IoCfg) (t : Nat) (os : List OutStep) (s : IoSt) : SameLog s (inputOut c t os s).2 := by
  induction os generalizing s with
  | nil => exact ⟨rfl, rfl⟩
  | cons o os ih =>
    rw [inputOut]
    dsimp only
    have go : ∀ d s1, SameLog s s1 → SameLog s (match sendChunk t d o s1 with
        | (none, s) => inputOut c t os s
        | (some r, s) => (r, s)).2 := by
      intro d s1 h
      have h2 := h.trans (sendChunk_log t d o s1)
      generalize sendChunk t d o s1 = r at h2 ⊢
      obtain ⟨r, s2⟩ := r
      cases r with
      | none => exact h2.trans (ih s2)
      | some r => exact h2
    by_cases h1 : o.space ≤ 8
    · rw [if_pos h1]; exact ⟨rfl, rfl⟩
    rw [if_neg h1]
    by_cases h2 : (s.pfx.length != 0) = true
    · rw [if_pos h2]; exact go _ _ ⟨rfl, rfl⟩
    rw [if_neg h2]
    by_cases h3 : (s.stdout == false) = true
    · rw [if_pos h3]; exact ⟨rfl, rfl⟩
    rw [if_neg h3]
    cases o.read with
    | again => exact ⟨rfl, rfl⟩
    | error => exact ⟨rfl, rfl⟩
    | connReset => exact sendChunk_log ..
    | got d => exact go _ _ ⟨rfl, rfl⟩

theorem closeStdin_log (c : IoCfg) (ok : Bool) (s : IoSt) : SameLog s (closeStdin c ok s) := by
  unfold closeStdin sendEof
  split_ifs <;> exact ⟨rfl, rfl⟩

theorem closeStdout_log (c : IoCfg) (s : IoSt) : SameLog s (closeStdout c s) := by
  unfold closeStdout
  split_ifs <;> exact ⟨rfl, rfl⟩

/-- What is known about the copy: nothing without a descriptor for it; never anything that was not read; and all of it, in order, if
`all` (no write of a copy failed). -/
def LogInv (c : IoCfg) (all : Prop) (s : IoSt) : Prop :=
  (c.dup = none → s.copied = []) ∧ s.copied.Sublist s.readErr ∧ (all → c.dup ≠ none → s.copied = s.readErr)

theorem SameLog.inv {c all} {s s' : IoSt} (k : SameLog s s') (h : LogInv c all s) : LogInv c all s' := by
  unfold LogInv
  rw [k.1, k.2]
  exact h

theorem gotErr_inv (c : IoCfg) (all : Prop) (o : OutStep) (d : Str) (s : IoSt) (ho : all → o.copyFails = none)
    (h : LogInv c all s) : LogInv c all (s.gotErr c o d) := by
  obtain ⟨h1, h2, h3⟩ := h
  unfold IoSt.gotErr
  refine ⟨fun hn => ?_, ?_, fun ha hd => ?_⟩
  · simp [hn, h1 hn]
  · refine List.Sublist.append h2 ?_
    split_ifs
    · split
      · exact List.Sublist.refl _
      · exact List.take_sublist ..
    · exact List.nil_sublist _
  · have : c.dup.isSome = true := Option.isSome_iff_ne_none.2 hd
    simp only [this, if_true, ho ha, h3 ha hd]

theorem inputErr_inv (c : IoCfg) (all : Prop) (os : List OutStep) (s : IoSt) (ho : all → ∀ o ∈ os, o.copyFails = none)
    (h : LogInv c all s) : LogInv c all (inputErr c os s).2 := by
  induction os generalizing s with
  | nil => exact h
  | cons o os ih =>
    have ih := fun s => ih s (fun ha x hx => ho ha x (List.mem_cons_of_mem _ hx))
    rw [inputErr]
    dsimp only
    by_cases h1 : o.space ≤ 8
    · rw [if_pos h1]; exact h
    rw [if_neg h1]
    cases o.read with
    | again => exact h
    | error => exact h
    | connReset => exact (sendChunk_log ..).inv h
    | got d =>
      dsimp only
      have h2 := gotErr_inv c all o (d.take (min (o.space - 8).toNat c.maxChunk)) s (fun ha => ho ha o (by simp)) h
      have h3 := (sendChunk_log msgStderr (d.take (min (o.space - 8).toNat c.maxChunk)) o _).inv h2
      generalize sendChunk msgStderr _ o _ = r at h3 ⊢
      obtain ⟨r, s2⟩ := r
      cases r with
      | none => exact ih s2 h3
      | some r => exact h3

theorem ioTick_log (c : IoCfg) (all : Prop) (t : Tick) (s : IoSt) (ho : all → ∀ o ∈ t.err, o.copyFails = none)
    (h : LogInv c all s) : LogInv c all (ioTick c t s).st := by
  unfold ioTick
  dsimp only
  have h1 : LogInv c all (ioReap c t { s with inbox := s.inbox ++ t.arrive }) := by
    refine SameLog.inv (s := s) ?_ h
    unfold ioReap
    split
    · exact ⟨rfl, rfl⟩
    · split_ifs
      · exact SameLog.trans ⟨rfl, rfl⟩ (closeStdin_log ..)
      · exact ⟨rfl, rfl⟩
  generalize ioReap c t { s with inbox := s.inbox ++ t.arrive } = s1 at h1 ⊢
  unfold ioAllDone
  have poll : ∀ s2, LogInv c all s2 → LogInv c all (ioPoll c t s2).st := by
    intro s2 h2
    unfold ioPoll
    split
    · exact h2
    · exact h2
    · dsimp only
      by_cases hw : t.waitFails = true
      · rw [if_pos hw]; exact h2
      rw [if_neg hw]
      have h3 : LogInv c all (if t.stdinHup && s2.stdin then closeStdin c t.eofOk s2 else s2) := by
        split_ifs
        · exact (closeStdin_log ..).inv h2
        · exact h2
      generalize (if t.stdinHup && s2.stdin then closeStdin c t.eofOk s2 else s2) = s3 at h3 ⊢
      have h4 : LogInv c all (ioRemote c t s3).st := by
        unfold ioRemote
        have := (handleRemote_log c t.writes s3).inv h3
        generalize handleRemoteData c t.writes s3 = r at this ⊢
        obtain ⟨r, s4⟩ := r
        cases r with
        | error => exact this
        | aborted => exact this
        | eof => exact (closeStdin_log ..).inv this
        | exited =>
          refine (closeStdout_log ..).inv (SameLog.inv ?_ this)
          unfold sendEof
          split_ifs <;> exact ⟨rfl, rfl⟩
        | ok => exact this
      generalize ioRemote c t s3 = r at h4 ⊢
      cases r with
      | leave s4 => exact h4
      | exit1 s4 => exact h4
      | abort s4 => exact h4
      | next s4 =>
        dsimp only
        generalize (t.outReady && s2.pfx.length == 0 && s2.stdout) = oready
        generalize (t.errReady && s2.stderr) = eready
        have h5 : LogInv c all (ioOut c t oready s4).st := by
          unfold ioOut
          split_ifs
          · have := (inputOut_log c c.outType t.out s4).inv h4
            generalize inputOut c c.outType t.out s4 = r at this ⊢
            obtain ⟨r, s5⟩ := r
            cases r with
            | error =>
              dsimp only
              split_ifs
              · exact (closeStdout_log ..).inv this
              · exact this
            | eof => exact (closeStdout_log ..).inv this
            | aborted => exact this
            | exited => exact this
            | ok => exact this
          · exact h4
        generalize ioOut c t oready s4 = r at h5 ⊢
        cases r with
        | leave s5 => exact h5
        | exit1 s5 => exact h5
        | abort s5 => exact h5
        | next s5 =>
          dsimp only
          unfold ioErr
          split_ifs
          · have := inputErr_inv c all t.err s5 ho h5
            generalize inputErr c t.err s5 = r at this ⊢
            obtain ⟨r, s6⟩ := r
            cases r with
            | error => exact this
            | eof => exact SameLog.inv (s := s6) ⟨rfl, rfl⟩ this
            | aborted => exact this
            | exited => exact this
            | ok => exact this
          · exact h5
  have usr : LogInv c all (ioUsr1 c t s1) := by
    refine SameLog.inv ?_ h1
    unfold ioUsr1
    split_ifs
    · have := closeStdout_log c s1
      exact ⟨this.1, this.2⟩
    · exact ⟨rfl, rfl⟩
  have rest : LogInv c all (if !t.vchanOpen && s1.inbox.isEmpty && s1.buf.length == 0 then IoStep.leave s1
      else ioPoll c t (ioUsr1 c t s1)).st := by
    split_ifs
    · exact h1
    · exact poll _ usr
  split_ifs
  all_goals first
    | exact SameLog.inv (s := s1) ⟨rfl, rfl⟩ h1
    | exact poll _ usr
    | exact h1

theorem ioRun_log (c : IoCfg) (all : Prop) (ts : List Tick) (s : IoSt)
    (ho : all → ∀ t ∈ ts, ∀ o ∈ t.err, o.copyFails = none) (h : LogInv c all s) : LogInv c all (ioRun c ts s).st := by
  induction ts generalizing s with
  | nil => exact h
  | cons t ts ih =>
    have ih := fun s => ih s (fun ha x hx => ho ha x (List.mem_cons_of_mem _ hx))
    have ht := ioTick_log c all t s (fun ha => ho ha t (by simp)) h
    rw [ioRun]
    generalize ioTick c t s = r at ht ⊢
    cases r with
    | next s1 => exact ih s1 ht
    | leave s1 => exact ht
    | exit1 s1 => exact ht
    | abort s1 => exact ht

/-- **C111.** Whatever happens on a connection: nothing is copied without a descriptor for the copy, only what was read from stderr is
copied, and if no write of the copy fails the copy is what was read, all of it and in order. -/
theorem C111_copy (c : IoCfg) (socket hasErr : Bool) (buf pfx : Str) (ts : List Tick) :
    let s := (ioRun c ts (ioStart c socket hasErr buf pfx)).st
    (c.dup = none → s.copied = []) ∧ s.copied.Sublist s.readErr ∧
    ((∀ t ∈ ts, ∀ o ∈ t.err, o.copyFails = none) → c.dup ≠ none → s.copied = s.readErr) :=
  ioRun_log c (∀ t ∈ ts, ∀ o ∈ t.err, o.copyFails = none) ts _ id ⟨fun _ => rfl, List.Sublist.refl _, fun _ _ => rfl⟩

/-- **C111, the log and the caller.** As long as the data reach the caller, the copy consists of the contents of the messages for stderr:
the log has neither more nor less than what the caller has been sent. -/
theorem C111_log (c : IoCfg) (v : Nat) (socket hasErr : Bool) (buf : Str) (ts : List Tick) (s : IoSt)
    (hv : c.maxChunk = maxDataChunk v) (hsv : c.isService = true) (hd : c.dup ≠ none)
    (hr : ioRun c ts (ioStart c socket hasErr buf []) = .next s ∨ ioRun c ts (ioStart c socket hasErr buf []) = .leave s)
    (hu : socket = true ∨ ∀ t ∈ ts, t.usr1 = false) (hok : s.sendOk = true)
    (hc : ∀ t ∈ ts, ∀ o ∈ t.err, o.copyFails = none) :
    s.copied = (s.sent.filter (fun m => m.1 == 0x192)).flatMap (·.2) := by
  have h1 := (C111_copy c socket hasErr buf [] ts).2.2 hc hd
  have hst : (ioRun c ts (ioStart c socket hasErr buf [])).st = s := by rcases hr with h | h <;> rw [h] <;> rfl
  rw [hst] at h1
  obtain ⟨_, _, _, _, chunks, _, e2, e3⟩ := C49_sent c v socket hasErr buf [] ts s hv (by rw [hsv]; exact fun h => nomatch h) hr (.inl rfl) hu hok
  rw [h1, ← e2]
  have e4 : outsOf 0x192 s.sent = (s.sent.filter (fun m => m.1 == 0x192)).map (·.2) := by
    unfold outsOf
    rfl
  have e5 : (outsOf 0x192 s.sent).flatten = chunks.flatten := by
    rcases e3 with ⟨e, _⟩ | ⟨e, _⟩ <;> rw [e] <;> simp
  rw [← e5, e4, List.flatMap_def]

/-- **C111, the descriptor.** For a service, the copy goes to the process that was started for it (`logger`), and there is none if it cannot
be started; there is nothing to copy for a socket service, which has no stderr. -/
theorem C111_service (w : StartWorld) (c : RpcCmd) (conf : SvcConf) (version : Nat) (ro re : Bool) (cfg : IoCfg) (socket hasErr : Bool)
    (first : Str) (hs : c.service ≠ none) (h : agentServe w 0x200 (some (c, conf)) version ro re = .io cfg socket hasErr first) :
    cfg.dup = w.logger ∧ cfg.isService = true ∧ cfg.maxChunk = maxDataChunk version ∧ hasErr = !socket := by
  have hi := Option.isSome_iff_ne_none.2 hs
  unfold agentServe at h
  rw [if_neg (by decide), if_pos rfl] at h
  dsimp only at h
  split at h
  · cases h
  · cases h; exact ⟨if_pos hi, rfl, rfl, rfl⟩
  · cases h; exact ⟨if_pos hi, rfl, rfl, rfl⟩

/-- **C111, the log entry.** The log of a call of a service of a qube carries the name of the service with its argument, and the qube, in
one word behind the option `-t`: nothing in a name is taken for an option of `logger`. -/
theorem C111_tag (strip : Bool) (line : Str) (cmd : RpcCmd) (s : RpcService) (hp : parseRpcCommand strip line = some cmd)
    (hs : cmd.service = some s) :
    ∃ call rest, cmd.command = call ++ c!" " ++ s.source ++ rest ∧ ' ' ∉ call ∧ ' ' ∉ s.source ∧ (rest = [] ∨ ∃ r, rest = ' ' :: r) ∧
      loggerArgv s = [c!"logger", c!"-t", call ++ c!"-" ++ s.source] := by
  obtain ⟨text, text', _, _, h⟩ := (C50_parse strip line cmd).1 hp
  rcases h with ⟨s', e1, _, h⟩ | ⟨e, _, _⟩
  · rw [hs] at e1
    cases e1
    generalize cmd.command = cmdText at h
    cases h with
    | noArg name src tail h1 h2 h3 h4 h5 h6 h7 =>
      exact ⟨name, tail, rfl, h1, h6, h7, by simp [loggerArgv, RpcService.descLen]⟩
    | arg name a src tail h1 h2 h3 h4 h5 h6 h7 h8 h9 =>
      exact ⟨name ++ c!"+" ++ a, tail, rfl, by simp [h1, h8], h6, h7, by simp only [loggerArgv, RpcService.descLen, Option.isNone_some, Bool.false_eq_true, if_false, List.take_length]⟩
  · rw [hs] at e; cases e

/-- A call as the daemon passes it on: the tag is the service with its argument, a hyphen, and the calling qube. -/
theorem C111_tag_call (user name arg src : Str) (hu : ':' ∉ user) (h1 : ' ' ∉ name) (h2 : '+' ∉ name)
    (h3 : 1 ≤ name.length) (h4 : name.length ≤ 255) (h5 : ' ' ∉ arg) (h6 : src ≠ []) (h7 : ' ' ∉ src)
    (h8 : name.length + 1 + arg.length ≤ 65000) :
    ∃ cmd s, parseRpcCommand true (user ++ c!":QUBESRPC " ++ (name ++ (c!"+" ++ arg)) ++ c!" " ++ src) = some cmd ∧
      cmd.service = some s ∧ loggerArgv s = [c!"logger", c!"-t", name ++ c!"+" ++ arg ++ c!"-" ++ src] := by
  refine ⟨_, _, C50_from_daemon user name arg src hu h1 h2 h3 h4 h5 h6 h7 h8, rfl, ?_⟩
  simp only [loggerArgv, RpcService.descLen, Option.isNone_some, Bool.false_eq_true, if_false, List.take_length]

/-- Services and qubes are joined with a hyphen that may occur in both: calls of different services by different qubes may have the same
tag. -/
theorem C111_tag_ambiguous : ∃ a b : RpcService, a.descriptor ≠ b.descriptor ∧ a.source ≠ b.source ∧ loggerArgv a = loggerArgv b :=
  ⟨⟨c!"svc+", c!"svc", none, c!"a-b"⟩, ⟨c!"svc-a+", c!"svc-a", none, c!"b"⟩, by decide, by decide, by decide⟩

/-- **C111 is violated** for a command that is not a service: no process for a log is started, but the copy goes to descriptor 0, the
standard input of the agent. -/
theorem C111_violated (w : StartWorld) (c : RpcCmd) (conf : SvcConf) (version : Nat) (ro re : Bool) (hf : w.forks = true)
    (hs : c.service = none) : ∃ cfg, agentServe w 0x200 (some (c, conf)) version ro re = .io cfg false true [] ∧ cfg.dup = some 0 ∧
      ∀ ts, (∀ t ∈ ts, ∀ o ∈ t.err, o.copyFails = none) →
        (ioRun cfg ts (ioStart cfg false true [] [])).st.copied = (ioRun cfg ts (ioStart cfg false true [] [])).st.readErr := by
  refine ⟨{ isService := true, hasPid := true, replaceOut := ro, replaceErr := re, maxChunk := maxDataChunk version, dup := some 0 },
    ?_, rfl, fun ts h => (C111_copy _ false true [] [] ts).2.2 h (by simp)⟩
  unfold agentServe executeParsed doForkExec
  rw [if_neg (by decide), if_pos rfl]
  dsimp only
  rw [hs, if_pos hf]
  rfl

/-- A service with a log. -/
def exLogSvc : IoCfg := { isService := true, hasPid := true, maxChunk := maxDataChunk 3, dup := some 9 }

/-- It writes twice, the second copy fails in the middle. -/
example : (ioRun exLogSvc [{ errReady := true, err := [⟨100, .got c!"one", true, true, none⟩, ⟨100, .got c!"two", true, true, some 1⟩] }]
      (ioStart exLogSvc false true [] [])).st.copied = c!"onet" := by decide

/-- The hypotheses of `C111_log` are met by a run that ends. -/
example : ∃ s, ioRun exLogSvc
      [{ errReady := true, err := [⟨100, .got c!"one", true, true, none⟩, ⟨100, .got c!"two", true, true, none⟩] },
       { reaped := some 3, outReady := true, out := [⟨100, .got [], true, true, none⟩], errReady := true,
         err := [⟨100, .got c!"!", true, true, none⟩, ⟨100, .got [], true, true, none⟩] }, {}]
      (ioStart exLogSvc false true [] []) = .leave s ∧ s.sendOk = true ∧ s.copied = c!"onetwo!" := ⟨_, rfl, by decide, by decide⟩

end Qrexec
