import Verif.Props.Connection
import Verif.Props.DataEnd

/-!
# C118: a connection ends
-/
namespace Qrexec
open Spec

/-- The program of the client takes its input, the events of the vchan can be read, and no part of a message arrives. -/
def CleanClient (t : Tick) : Prop := TakesInput t ∧ t.waitFails = false ∧ .broken ∉ t.arrive

/-- What a service sends. -/
def FromService (mx : Nat) (i : InItem) : Prop :=
  ∃ t d, i = .msg t d ∧ d.length ≤ mx ∧ (t = 0x191 ∨ t = 0x192 ∨ t = 0x193)

/-- Only writes of a part, or none. -/
def CleanWrites (ks : List Sys) : Prop := ∀ k ∈ ks, k = .eagain ∨ ∃ n, k = .part n

theorem writeLoop_clean (ks : List Sys) (d : Str) (h : CleanWrites ks) :
    (writeStdinLoop ks d).1 = .ok ∧ (writeStdinLoop ks d).2.1 = [] ∧ CleanWrites (writeStdinLoop ks d).2.2.2 ∨
    (writeStdinLoop ks d).1 = .buffered := by
  induction ks generalizing d with
  | nil =>
    cases d with
    | nil => exact .inl ⟨rfl, rfl, h⟩
    | cons a d => exact .inr rfl
  | cons k ks ih =>
    have ht : CleanWrites ks := fun k hk => h k (List.mem_cons_of_mem _ hk)
    cases d with
    | nil => rw [writeStdinLoop]; exact .inl ⟨rfl, rfl, h⟩
    | cons a d =>
      rcases h k (List.mem_cons_self ..) with e | ⟨n, e⟩
      · subst e; exact .inr rfl
      · subst e
        rw [writeStdinLoop]
        exact ih _ ht

theorem flush_clean (ks : List Sys) (d : Str) (h : CleanWrites ks) :
    (flushClientData ks d).1 = .ok ∧ (flushClientData ks d).2.1 = [] ∧ CleanWrites (flushClientData ks d).2.2.2 ∨
    (flushClientData ks d).1 = .buffered := by
  induction ks generalizing d with
  | nil =>
    cases d with
    | nil => exact .inl ⟨rfl, rfl, h⟩
    | cons a d => exact .inr rfl
  | cons k ks ih =>
    have ht : CleanWrites ks := fun k hk => h k (List.mem_cons_of_mem _ hk)
    cases d with
    | nil => rw [flushClientData]; exact .inl ⟨rfl, rfl, h⟩
    | cons a d =>
      rcases h k (List.mem_cons_self ..) with e | ⟨n, e⟩
      · subst e; exact .inr rfl
      · subst e
        rw [flushClientData]
        exact ih _ ht

/-- The result of receiving: nothing fails, and stdin ends only with an empty buffer. -/
structure RecvClean (s : IoSt) (r : Rc × IoSt) : Prop where
  rc : r.1 = .ok ∨ r.1 = .eof ∨ r.1 = .exited
  stdin : r.2.stdin = s.stdin
  eof : r.1 = .eof → r.2.buf = []
  closed : s.stdin = false → r.2.buf = []
  remote : r.1 ≠ .exited → r.2.remoteStatus = s.remoteStatus

theorem RecvClean.then {s s1 : IoSt} {r : Rc × IoSt} (h : RecvClean s1 r) (h1 : s1.stdin = s.stdin) (h2 : s1.remoteStatus = s.remoteStatus) :
    RecvClean s r :=
  ⟨h.rc, h.stdin.trans h1, h.eof, fun k => h.closed (h1.trans k), fun k => (h.remote k).trans h2⟩

theorem remoteLoop_clean (c : IoCfg) (hc : c.isService = false) (q : List InItem) (ks : List Sys) (s : IoSt) (hk : CleanWrites ks)
    (hq : ∀ i ∈ q, FromService c.maxChunk i) (hb : s.buf = []) : RecvClean s (remoteLoop c q ks s) := by
  induction q generalizing ks s with
  | nil => exact ⟨.inl rfl, rfl, (fun h => nomatch h), fun _ => hb, fun _ => rfl⟩
  | cons i q ih =>
    have hq' : ∀ i ∈ q, FromService c.maxChunk i := fun i hi => hq i (List.mem_cons_of_mem _ hi)
    obtain ⟨t, d, rfl, hd, ht⟩ := hq i (List.mem_cons_self ..)
    rw [remoteLoop]
    dsimp only
    rw [if_neg (by omega)]
    rcases ht with rfl | rfl | rfl
    · rw [if_pos (by decide)]
      by_cases hs : (s.stdin == false) = true
      · rw [if_pos hs]
        exact RecvClean.then (ih ks { s with inbox := q, seen := s.seen ++ [.msg 0x191 d] } hk hq' hb) rfl rfl
      · rw [if_neg hs]
        have hs' : s.stdin = true := by simpa using hs
        by_cases hl : (d.length == 0) = true
        · rw [if_pos hl]
          exact ⟨.inr (.inl rfl), rfl, fun _ => hb, fun _ => hb, fun _ => rfl⟩
        · rw [if_neg hl]
          rw [hb, writeStdin_nil]
          have hw := writeLoop_clean ks (if c.replaceOut = true then doReplaceChars d else d) hk
          generalize writeStdinLoop ks (if c.replaceOut = true then doReplaceChars d else d) = r at hw ⊢
          obtain ⟨r, b, w, ks'⟩ := r
          rcases hw with ⟨rfl, h2, h3⟩ | rfl
          · dsimp only at h2 h3 ⊢
            exact RecvClean.then (ih ks' { s with inbox := q, seen := s.seen ++ [.msg 0x191 d], buf := b, written := s.written ++ w } h3 hq' h2) rfl rfl
          · exact ⟨.inl rfl, rfl, (fun h => nomatch h), (fun h => by rw [hs'] at h; cases h), fun _ => rfl⟩
    · rw [if_neg (by decide), if_pos (by decide), if_neg (by rw [hc]; decide)]
      exact RecvClean.then (ih ks { s with inbox := q, seen := s.seen ++ [.msg 0x192 d], logged := s.logged ++ (if c.replaceErr then doReplaceChars d else d) } hk hq' hb) rfl rfl
    · rw [if_neg (by decide), if_neg (by decide), if_pos (by decide), if_neg (by rw [hc]; decide)]
      exact ⟨.inr (.inr rfl), rfl, (fun h => nomatch h), fun _ => hb, fun h => absurd rfl h⟩

theorem handleRemote_clean (c : IoCfg) (hc : c.isService = false) (ks : List Sys) (s : IoSt) (hk : CleanWrites ks)
    (hq : ∀ i ∈ s.inbox, FromService c.maxChunk i) (hb : s.stdin = false → s.buf = []) : RecvClean s (handleRemoteData c ks s) := by
  unfold handleRemoteData
  by_cases hs : (s.stdin == false) = true
  · rw [if_pos hs]
    exact remoteLoop_clean c hc _ _ _ hk hq (hb (by simpa using hs))
  · rw [if_neg hs]
    have hs' : s.stdin = true := by simpa using hs
    have hf := flush_clean ks s.buf hk
    generalize flushClientData ks s.buf = r at hf ⊢
    obtain ⟨r, b, w, ks'⟩ := r
    rcases hf with ⟨rfl, h2, h3⟩ | rfl
    · dsimp only at h2 h3 ⊢
      exact RecvClean.then (remoteLoop_clean c hc s.inbox ks' { s with buf := b, written := s.written ++ w } h3 hq h2) rfl rfl
    · exact ⟨.inl rfl, rfl, (fun h => nomatch h), (fun h => by rw [hs'] at h; cases h), fun _ => rfl⟩

theorem inputOut_stderr (c : IoCfg) (t : Nat) (os : List OutStep) (s : IoSt) :
    (inputOut c t os s).2.stderr = s.stderr ∧ (inputOut c t os s).2.stdout = s.stdout := by
  have sc : ∀ d o x, (sendChunk t d o x).2.stderr = x.stderr ∧ (sendChunk t d o x).2.stdout = x.stdout := by
    intro d o x; unfold sendChunk; split_ifs <;> exact ⟨rfl, rfl⟩
  induction os generalizing s with
  | nil => exact ⟨rfl, rfl⟩
  | cons o os ih =>
    rw [inputOut]
    dsimp only
    have go : ∀ d s1, s1.stderr = s.stderr ∧ s1.stdout = s.stdout → (match sendChunk t d o s1 with
        | (none, s) => inputOut c t os s
        | (some r, s) => (r, s)).2.stderr = s.stderr ∧ (match sendChunk t d o s1 with
        | (none, s) => inputOut c t os s
        | (some r, s) => (r, s)).2.stdout = s.stdout := by
      intro d s1 h
      have h2 := sc d o s1
      rw [h.1, h.2] at h2
      generalize sendChunk t d o s1 = r at h2 ⊢
      obtain ⟨r, s2⟩ := r
      cases r with
      | none => exact ⟨(ih s2).1.trans h2.1, (ih s2).2.trans h2.2⟩
      | some r => exact h2
    by_cases h1 : o.space ≤ 8
    · rw [if_pos h1]; exact ⟨rfl, rfl⟩
    rw [if_neg h1]
    by_cases h2 : (s.pfx.length != 0) = true
    · rw [if_pos h2]; exact go _ _ ⟨rfl, rfl⟩
    rw [if_neg h2]
    by_cases h3 : (s.stdout == false) = true
    · rw [if_pos h3]; exact ⟨rfl, rfl⟩
    rw [if_neg h3]
    cases o.read with
    | again => exact ⟨rfl, rfl⟩
    | error => exact ⟨rfl, rfl⟩
    | connReset => exact sc ..
    | got d => exact go _ _ ⟨rfl, rfl⟩

/-- The invariant of a client whose program takes its input. -/
structure CleanSt (c : IoCfg) (s : IoSt) : Prop where
  closed : s.stdin = false → s.buf = []
  items : ∀ i ∈ s.inbox, FromService c.maxChunk i
  stderr : s.stderr = false
  status : s.remoteStatus ≠ -1 → s.stdout = false

theorem closeStdout_clean (c : IoCfg) (s : IoSt) (he : c.exitOnStdoutEof = false) : closeStdout c s = { s with stdout := false } := by
  unfold closeStdout; rw [if_neg (by rw [he]; decide)]

theorem CleanSt.closeStdout {c : IoCfg} {s : IoSt} (h1 : s.stdin = false → s.buf = []) (h2 : ∀ i ∈ s.inbox, FromService c.maxChunk i)
    (h3 : s.stderr = false) (he : c.exitOnStdoutEof = false) : CleanSt c (Qrexec.closeStdout c s) := by
  rw [closeStdout_clean c s he]
  exact ⟨h1, h2, h3, fun _ => rfl⟩

/-- An iteration of such a client does not fail, but when there are unsent prefix data (`C63_violated_prefix`). -/
theorem ioTick_clean (c : IoCfg) (hc : c.isService = false) (he : c.exitOnStdoutEof = false) (t : Tick) (s : IoSt) (h : CleanSt c s)
    (ht : CleanClient t) (hp : t.poll ≠ .error) (hu : t.usr1 = false) (ha : ∀ i ∈ t.arrive, FromService c.maxChunk i) :
    (∃ s', ioTick c t s = .leave s') ∨ (∃ s', ioTick c t s = .next s' ∧ CleanSt c s' ∧ (s.pfx = [] → s'.pfx = [])) ∨
    (∃ s', ioTick c t s = .exit1 s') ∧ s.pfx ≠ [] := by
  obtain ⟨⟨hr, hh, hw⟩, hwf, _⟩ := ht
  have h1 : CleanSt c { s with inbox := s.inbox ++ t.arrive } :=
    ⟨h.closed, fun i hi => by
      rcases List.mem_append.1 hi with hi | hi
      · exact h.items i hi
      · exact ha i hi, h.stderr, h.status⟩
  unfold ioTick
  dsimp only
  have hreap : ioReap c t { s with inbox := s.inbox ++ t.arrive } = { s with inbox := s.inbox ++ t.arrive } := by
    unfold ioReap; rw [hr]
  rw [hreap]
  have hpfx : s.pfx = ({ s with inbox := s.inbox ++ t.arrive } : IoSt).pfx := rfl
  rw [hpfx]
  generalize ({ s with inbox := s.inbox ++ t.arrive } : IoSt) = s1 at h1 ⊢
  have usr : ioUsr1 c t s1 = s1 := by unfold ioUsr1; rw [hu]; rfl
  rw [usr]
  have poll : (∃ s', ioPoll c t s1 = .next s' ∧ CleanSt c s' ∧ (s1.pfx = [] → s'.pfx = [])) ∨ (∃ s', ioPoll c t s1 = .exit1 s') ∧ s1.pfx ≠ [] := by
    unfold ioPoll
    cases hq : t.poll with
    | error => exact absurd hq hp
    | eintr => exact .inl ⟨_, rfl, h1, id⟩
    | ready =>
      dsimp only
      rw [hwf, if_neg (by decide), hh, Bool.false_and, if_neg (by decide)]
      have h4 : ∃ s4, ioRemote c t s1 = .next s4 ∧ CleanSt c s4 ∧ s4.pfx = s1.pfx := by
        have r := handleRemote_clean c hc t.writes s1 hw h1.items h1.closed
        have o := handleRemote_out c t.writes s1
        unfold ioRemote
        generalize handleRemoteData c t.writes s1 = x at r o ⊢
        obtain ⟨rc, s2⟩ := x
        have items : ∀ i ∈ s2.inbox, FromService c.maxChunk i := fun i hi => h1.items i (o.2.1.subset hi)
        have err : s2.stderr = false := o.1.stderr.trans h1.stderr
        have pfx : s2.pfx = s1.pfx := o.1.pfx
        have closed : s2.stdin = false → s2.buf = [] := fun k => r.closed (r.stdin.symm.trans k)
        rcases r.rc with e | e | e
        · have e : rc = .ok := e
          subst e
          refine ⟨s2, rfl, ⟨closed, items, err, fun k => ?_⟩, pfx⟩
          rw [r.remote (fun e => nomatch e)] at k
          exact o.1.stdout.trans (h1.status k)
        · have e : rc = .eof := e
          subst e
          have hb : s2.buf = [] := r.eof rfl
          have hst : s2.remoteStatus ≠ -1 → s2.stdout = false := fun k => by
            rw [r.remote (fun e => nomatch e)] at k
            exact o.1.stdout.trans (h1.status k)
          refine ⟨_, rfl, ?_⟩
          unfold closeStdin sendEof
          dsimp only
          split_ifs <;> exact ⟨⟨fun _ => hb, items, err, (by first | exact fun _ => rfl | exact hst)⟩, pfx⟩
        · have e : rc = .exited := e
          subst e
          refine ⟨_, rfl, ?_⟩
          unfold sendEof
          rw [closeStdout_clean c _ he]
          split_ifs <;> exact ⟨⟨closed, items, err, fun _ => rfl⟩, pfx⟩
      obtain ⟨s4, e4, h4, p4⟩ := h4
      rw [e4]
      dsimp only
      generalize (t.outReady && s1.pfx.length == 0 && s1.stdout) = oready
      generalize (t.errReady && s1.stderr) = eready
      have h5 : (∃ s5, ioOut c t oready s4 = .next s5 ∧ CleanSt c s5 ∧ (s4.pfx = [] → s5.pfx = [])) ∨
          (∃ s5, ioOut c t oready s4 = .exit1 s5) ∧ s4.pfx ≠ [] := by
        unfold ioOut
        by_cases hb : (s4.pfx.length != 0 || (s4.stdout && oready)) = true
        · rw [if_pos hb]
          have hrs : s4.pfx = [] → s4.remoteStatus = -1 := by
            intro hp
            have hso : s4.stdout = true := by
              rw [hp] at hb
              simp at hb
              exact hb.1
            by_contra hne
            rw [h4.status hne] at hso; cases hso
          have l := (inputOut_less c c.outType t.out s4)
          have sm := inputOut_sameIn c c.outType t.out s4
          have pf := inputOut_pfx c c.outType t.out s4
          have se := inputOut_stderr c c.outType t.out s4
          generalize inputOut c c.outType t.out s4 = x at l sm pf se ⊢
          obtain ⟨rc, s5⟩ := x
          have closed : s5.stdin = false → s5.buf = [] := fun k => by
            rw [show s5.buf = s4.buf from l.1.buf]; exact h4.closed (l.2.symm.trans k)
          have items : ∀ i ∈ s5.inbox, FromService c.maxChunk i := fun i hi => h4.items i (by
            rw [show s5.inbox = s4.inbox from l.1.inbox] at hi; exact hi)
          have err : s5.stderr = false := se.1.trans h4.stderr
          have rem : s5.remoteStatus = s4.remoteStatus := sm.remote
          have nx : CleanSt c s5 := ⟨closed, items, err, fun k => se.2.trans (h4.status (fun e => k (rem.trans e)))⟩
          have cl : CleanSt c (Qrexec.closeStdout c s5) := CleanSt.closeStdout closed items err he
          have clp : s4.pfx = [] → (Qrexec.closeStdout c s5).pfx = [] := fun k => by
            rw [closeStdout_clean c s5 he]; exact pf k
          cases rc with
          | error =>
            dsimp only
            by_cases hr : s4.remoteStatus = -1
            · rw [if_pos (by rw [hc, rem, hr]; rfl)]
              exact .inl ⟨_, rfl, cl, clp⟩
            · rw [if_neg (by rw [hc, rem]; simpa using hr)]
              exact .inr ⟨⟨_, rfl⟩, fun hp => hr (hrs hp)⟩
          | eof => exact .inl ⟨_, rfl, cl, clp⟩
          | ok => exact .inl ⟨_, rfl, nx, pf⟩
          | exited => exact .inl ⟨_, rfl, nx, pf⟩
          | aborted => exact .inl ⟨_, rfl, nx, pf⟩
        · rw [if_neg hb]; exact .inl ⟨_, rfl, h4, id⟩
      rw [p4] at h5
      rcases h5 with ⟨s5, e5, h5, p5⟩ | ⟨⟨s5, e5⟩, p5⟩
      · rw [e5]
        dsimp only
        refine .inl ⟨s5, ?_, h5, p5⟩
        unfold ioErr
        rw [h5.stderr]
        rfl
      · rw [e5]
        exact .inr ⟨⟨_, rfl⟩, p5⟩
  have rest : (∃ s', (if !t.vchanOpen && s1.inbox.isEmpty && s1.buf.length == 0 then IoStep.leave s1 else ioPoll c t s1) = .leave s') ∨
      (∃ s', (if !t.vchanOpen && s1.inbox.isEmpty && s1.buf.length == 0 then IoStep.leave s1 else ioPoll c t s1) = .next s' ∧ CleanSt c s' ∧
        (s1.pfx = [] → s'.pfx = [])) ∨
      (∃ s', (if !t.vchanOpen && s1.inbox.isEmpty && s1.buf.length == 0 then IoStep.leave s1 else ioPoll c t s1) = .exit1 s') ∧ s1.pfx ≠ [] := by
    by_cases hb : (!t.vchanOpen && s1.inbox.isEmpty && s1.buf.length == 0) = true
    · rw [if_pos hb]; exact .inl ⟨_, rfl⟩
    · rw [if_neg hb]; exact .inr poll
  unfold ioAllDone
  by_cases a1 : (s1.stdin == false && s1.stdout == false && s1.stderr == false) = true
  · rw [if_pos a1, if_neg (by rw [hc]; decide)]
    by_cases a3 : ((!c.hasPid || s1.localStatus.isSome) && decide (s1.remoteStatus ≥ 0)) = true
    · rw [if_pos a3]; exact .inl ⟨_, rfl⟩
    · rw [if_neg a3]; exact rest
  · rw [if_neg a1]; exact rest

/-- The messages of a service are of three types. -/
theorem run_types (c : IoCfg) (v : Nat) (socket hasErr : Bool) (buf : Str) (ts : List Tick) (hs : c.isService = true)
    (hv : c.maxChunk = maxDataChunk v) (hu : ∀ t ∈ ts, t.usr1 = false) :
    ∀ i ∈ (ioRun c ts (ioStart c socket hasErr buf [])).st.sent.map toItem, FromService (maxDataChunk v) i := by
  have hge := maxDataChunk_ge v
  have h := (ioRun_out c (by omega) False [] ts _ (start_out c _ socket hasErr buf [] (by rw [hs]; exact fun h => nomatch h)) (fun h => absurd h id)
    (.inl rfl) (.inr hu)).1
  have fin : ∀ s : IoSt, SentOk c s → ∀ m ∈ s.sent, FromService (maxDataChunk v) (toItem m) := by
    intro s hx m hm
    obtain ⟨a, b⟩ := hx m hm
    refine ⟨m.1, m.2, rfl, by omega, ?_⟩
    rcases b with b | b
    · left; rw [b]; unfold IoCfg.outType; rw [if_pos hs]; rfl
    · right; left; exact b.1
  intro i hi
  obtain ⟨m, hm, rfl⟩ := List.mem_map.1 hi
  generalize ioRun c ts (ioStart c socket hasErr buf []) = r at h hm
  cases r with
  | next s => exact fin s h.sent m hm
  | exit1 s => exact fin s h m hm
  | abort s => exact fin s h m hm
  | leave s =>
    rcases h with h | ⟨s0, h0, hs, _, _, _, _, rfl⟩
    · exact fin s h.sent m hm
    · rcases List.mem_append.1 hm with hm | hm
      · exact fin s0 h0.sent m hm
      · rw [List.mem_singleton.1 hm]
        exact ⟨_, _, rfl, by simp [i32le, u32le]; omega, .inr (.inr rfl)⟩

theorem ioRun_clean (c : IoCfg) (hc : c.isService = false) (he : c.exitOnStdoutEof = false) (ts : List Tick) (s : IoSt) (h : CleanSt c s)
    (ht : ∀ t ∈ ts, CleanClient t ∧ t.poll ≠ .error ∧ t.usr1 = false ∧ ∀ i ∈ t.arrive, FromService c.maxChunk i) :
    (∀ s', ioRun c ts s = .next s' → CleanSt c s') ∧
    (s.pfx = [] → (∃ s', ioRun c ts s = .leave s') ∨ ∃ s', ioRun c ts s = .next s') := by
  induction ts generalizing s with
  | nil => exact ⟨fun s' k => by cases k; exact h, fun _ => .inr ⟨s, rfl⟩⟩
  | cons t ts ih =>
    obtain ⟨a, b, d, e⟩ := ht t (List.mem_cons_self ..)
    rw [ioRun]
    rcases ioTick_clean c hc he t s h a b d e with ⟨s', k⟩ | ⟨s', k, h', p⟩ | ⟨⟨s', k⟩, p⟩
    · rw [k]; exact ⟨(fun _ k => nomatch k), fun _ => .inl ⟨_, rfl⟩⟩
    · rw [k]
      obtain ⟨i1, i2⟩ := ih s' h' (fun t hx => ht t (List.mem_cons_of_mem _ hx))
      exact ⟨i1, fun hp => i2 (p hp)⟩
    · rw [k]; exact ⟨(fun _ k => nomatch k), fun hp => absurd hp p⟩

theorem cleanStart (c : IoCfg) (socket : Bool) (buf pfx : Str) : CleanSt c (ioStart c socket false buf pfx) :=
  ⟨(fun h => nomatch h), (fun _ h => nomatch h), rfl, fun h => absurd rfl h⟩

/-- The state of such a client, in every state of the connection, and what can come to it. -/
theorem cn_clean {ca cb : IoCfg} {sockA sockB hasErr : Bool} {bufA bufB pfxA : Str} {v : Nat}
    (ha : ca.isService = false) (hb : cb.isService = true) (hva : ca.maxChunk = maxDataChunk v) (hvb : cb.maxChunk = maxDataChunk v)
    (he : ca.exitOnStdoutEof = false) {x : CnSide × CnSide}
    (h : CnReach ca cb CleanClient (cnStart ca cb sockA sockB hasErr bufA bufB pfxA) x) (hr : x.1.fin = .running) :
    CleanSt ca x.1.st ∧ ∀ i ∈ x.1.way, i ≠ .broken → FromService ca.maxChunk i := by
  obtain ⟨tsA, tsB, i⟩ := cn_inv ha hb hva hvb h
  have ty := run_types cb v sockB hasErr bufB tsB hb hvb (fun t ht => (i.b.usr1 t ht).1)
  rw [i.b.st, ← hva] at ty
  have ty : ∀ y ∈ tsA.flatMap Tick.arrive ++ x.1.way, y ≠ .broken → FromService ca.maxChunk y := by
    obtain ⟨torn, e1, e2, _⟩ := i.a.items
    intro y hy hb
    rw [e1] at hy
    rcases List.mem_append.1 hy with hy | hy
    · exact ty y hy
    · rcases e2 with rfl | rfl
      · cases hy
      · exact absurd (List.mem_singleton.1 hy) hb
  refine ⟨?_, fun y hy => ty y (List.mem_append_right _ hy)⟩
  exact (ioRun_clean ca ha he tsA _ (cleanStart ca sockA bufA pfxA) (fun t ht => ⟨i.loc t ht, (i.a.usr1 t ht).2, (i.a.usr1 t ht).1, fun y hy =>
      ty y (List.mem_append_left _ (List.mem_flatMap.2 ⟨t, ht, hy⟩)) (fun e => (i.loc t ht).2.2 (e ▸ hy))⟩)).1 _ (i.a.run hr)

/-- **C118, a client does not fail.** As long as its program takes its input, behind the prefix data no iteration of a client makes it exit or abort,
whatever the service does and whether or not it has died, unless it died in the middle of a message (last example). -/
theorem C118_survives (ca cb : IoCfg) (v : Nat) (sockA sockB hasErr : Bool) (bufA bufB pfxA : Str) (x : CnSide × CnSide)
    (ha : ca.isService = false) (hb : cb.isService = true) (hva : ca.maxChunk = maxDataChunk v) (hvb : cb.maxChunk = maxDataChunk v)
    (he : ca.exitOnStdoutEof = false) (h : CnReach ca cb CleanClient (cnStart ca cb sockA sockB hasErr bufA bufB pfxA) x) (hp : x.1.st.pfx = []) (t : Tick)
    (ht : CleanClient t) (ok : CnOk t x.1 x.2) : (cnTick ca t x.1 x.2).1.fin ≠ .failed := by
  obtain ⟨h1, h2⟩ := cn_clean ha hb hva hvb he h ok.runs
  unfold cnTick
  dsimp only
  rcases ioTick_clean ca ha he t x.1.st h1 ht ok.poll ok.usr1 (fun i hi => h2 i (ok.comes.subset hi) (fun e => ht.2.2 (e ▸ hi))) with
    ⟨s', k⟩ | ⟨s', k, _⟩ | ⟨_, p⟩
  · rw [k]; exact fun e => nomatch e
  · rw [k]; exact fun e => nomatch e
  · exact absurd hp p

/-- **C118, the service ends.** When the program of the service has ended (its status has been collected) and its output and its
stderr were read to their ends, the service sends the status and leaves in its next iteration, if the client has not gone. -/
theorem C118_service_ends (ca cb : IoCfg) (g : Tick → Prop) (v : Nat) (sockA sockB hasErr : Bool) (bufA bufB pfxA : Str) (x : CnSide × CnSide)
    (ha : ca.isService = false) (hb : cb.isService = true) (hva : ca.maxChunk = maxDataChunk v) (hvb : cb.maxChunk = maxDataChunk v) (hp : cb.hasPid = true)
    (h : CnReach ca cb g (cnStart ca cb sockA sockB hasErr bufA bufB pfxA) x) (hr : x.1.fin = .running) (st : Nat)
    (hst : x.2.st.localStatus = some st) (ho : x.2.st.stdout = false) (hee : x.2.st.stderr = false) (t : Tick) (ok : CnOk t x.2 x.1) :
    (cnTick cb t x.2 x.1).1.fin = .left ∧ (cnTick cb t x.2 x.1).2.way = x.1.way ++ [.msg 0x193 (i32le (st : Int))] := by
  obtain ⟨tsA, tsB, i⟩ := cn_inv ha hb hva hvb h
  obtain ⟨s', k1, k2⟩ := C95_service cb hb hp sockB hasErr bufB [] tsB x.2.st (i.b.run ok.runs) st hst ho hee t (ok.works hr).2.2.1
  unfold cnTick
  dsimp only
  rw [k1]
  refine ⟨rfl, ?_⟩
  show x.1.way ++ (s'.sent.drop x.2.st.sent.length).map _ = _
  rw [k2, List.drop_left]
  rfl

/-- Iterations of the client alone, as long as it runs. -/
def clientAlone (ca : IoCfg) : List Tick → CnSide × CnSide → CnSide × CnSide
  | [], x => x
  | t :: ts, x => if x.1.fin = .running then clientAlone ca ts (cnTick ca t x.1 x.2) else x

theorem alone_stop (ca : IoCfg) (ts : List Tick) (x : CnSide × CnSide) (h : x.1.fin ≠ .running) : clientAlone ca ts x = x := by
  cases ts with
  | nil => rfl
  | cons t ts => rw [clientAlone, if_neg h]

theorem alone_run (ca : IoCfg) (ts : List Tick) (x : CnSide × CnSide) (h : x.1.fin = .running) :
    (clientAlone ca ts x).1.fin = (ioOutcome (ioRun ca ts x.1.st)).2 ∧ (clientAlone ca ts x).2.fin = x.2.fin ∧
    (clientAlone ca ts x).2.st = x.2.st := by
  induction ts generalizing x with
  | nil => exact ⟨h, rfl, rfl⟩
  | cons t ts ih =>
    rw [clientAlone, if_pos h, ioRun]
    cases hk : ioTick ca t x.1.st with
    | next s1 =>
      have e1 : (cnTick ca t x.1 x.2).1.fin = .running := by unfold cnTick; rw [hk]; rfl
      have e2 : (cnTick ca t x.1 x.2).1.st = s1 := by unfold cnTick; rw [hk]; rfl
      have := ih _ e1
      rw [e2] at this
      exact this
    | leave s1 =>
      have e1 : (cnTick ca t x.1 x.2).1.fin = .left := by unfold cnTick; rw [hk]; rfl
      rw [alone_stop _ _ _ (by rw [e1]; decide)]
      exact ⟨e1, rfl, rfl⟩
    | exit1 s1 =>
      have e1 : (cnTick ca t x.1 x.2).1.fin = .failed := by unfold cnTick; rw [hk]; rfl
      rw [alone_stop _ _ _ (by rw [e1]; decide)]
      exact ⟨e1, rfl, rfl⟩
    | abort s1 =>
      have e1 : (cnTick ca t x.1 x.2).1.fin = .failed := by unfold cnTick; rw [hk]; rfl
      rw [alone_stop _ _ _ (by rw [e1]; decide)]
      exact ⟨e1, rfl, rfl⟩

/-- Nothing more comes. -/
theorem alone_reach (ca cb : IoCfg) (g : Tick → Prop) (x0 : CnSide × CnSide) (ts : List Tick) (x : CnSide × CnSide)
    (h : CnReach ca cb g x0 x) (hn : x.2.fin ≠ .running) (hw : x.1.way = [])
    (ht : ∀ t ∈ ts, g t ∧ t.arrive = [] ∧ t.poll ≠ .error ∧ t.usr1 = false ∧ t.reaped = none) : CnReach ca cb g x0 (clientAlone ca ts x) := by
  induction ts generalizing x with
  | nil => exact h
  | cons t ts ih =>
    rw [clientAlone]
    by_cases hr : x.1.fin = .running
    · rw [if_pos hr]
      obtain ⟨a, b, d, e, f⟩ := ht t (List.mem_cons_self ..)
      refine ih _ (h.step (.client t x ⟨hr, by rw [b]; exact List.nil_prefix, fun k => absurd k hn, fun _ => by rw [b, hw], d, e,
        fun n hn' => by rw [f] at hn'; cases hn'⟩ a)) hn ?_ (fun t hx => ht t (List.mem_cons_of_mem _ hx))
      show x.1.way.drop t.arrive.length = []
      rw [hw]; simp
    · rw [if_neg hr]; exact h

/-- **C118, it ends.** The service has left or has died, the prefix data have been sent, and the program of the client takes its input: when all that is on its way has
arrived, the client leaves after at most as many iterations as there are messages, plus two, each of which finds the vchan
closed and writes as much as the program takes. It ends with what `C118_status` and `C118_complete` say, as nothing else has
changed. -/
theorem C118_ends (ca cb : IoCfg) (v : Nat) (sockA sockB hasErr : Bool) (bufA bufB pfxA : Str) (x : CnSide × CnSide)
    (ha : ca.isService = false) (hb : cb.isService = true) (hva : ca.maxChunk = maxDataChunk v) (hvb : cb.maxChunk = maxDataChunk v)
    (he : ca.exitOnStdoutEof = false) (h : CnReach ca cb CleanClient (cnStart ca cb sockA sockB hasErr bufA bufB pfxA) x)
    (hp : x.1.st.pfx = []) (hr : x.1.fin = .running) (hn : x.2.fin ≠ .running) (t0 : Tick) (ts : List Tick) (h0 : t0.arrive = x.1.way)
    (hs : ∀ t ∈ ts, t.arrive = [])
    (ht : ∀ t ∈ t0 :: ts, CleanClient t ∧ t.vchanOpen = false ∧ t.poll = .ready ∧ t.usr1 = false ∧
      Takes (pendingBytes { x.1.st with inbox := x.1.st.inbox ++ x.1.way }) t)
    (hl : x.1.st.inbox.length + x.1.way.length + 1 ≤ ts.length) :
    CnReach ca cb CleanClient (cnStart ca cb sockA sockB hasErr bufA bufB pfxA) (clientAlone ca (t0 :: ts) x) ∧
    (clientAlone ca (t0 :: ts) x).1.fin = .left ∧ (clientAlone ca (t0 :: ts) x).2.fin = x.2.fin ∧
    (clientAlone ca (t0 :: ts) x).2.st = x.2.st := by
  obtain ⟨k1, k2⟩ := cn_clean ha hb hva hvb he h hr
  obtain ⟨a1, a2, a3, a4, a5⟩ := ht t0 (List.mem_cons_self ..)
  obtain ⟨r1, r2, r3⟩ := alone_run ca (t0 :: ts) x hr
  refine ⟨?_, ?_, r2, r3⟩
  · rw [clientAlone, if_pos hr]
    refine alone_reach ca cb _ _ ts _ (h.step (.client t0 x ⟨hr, by rw [h0]; exact List.prefix_refl _, fun k => absurd k hn, fun _ => h0,
      by rw [a3]; decide, a4, fun n hn' => by rw [a1.1.1] at hn'; cases hn'⟩ a1)) hn ?_ (fun t hx => ?_)
    · show x.1.way.drop t0.arrive.length = []
      rw [h0]; simp
    · obtain ⟨b1, b2, b3, b4, b5⟩ := ht t (List.mem_cons_of_mem _ hx)
      exact ⟨b1, hs t hx, by rw [b3]; decide, b4, b1.1.1⟩
  · rw [r1]
    have e : ioRun ca (t0 :: ts) x.1.st =
        ioRun ca ({ t0 with arrive := [] } :: ts) { x.1.st with inbox := x.1.st.inbox ++ x.1.way } := by
      have : ioTick ca t0 x.1.st = ioTick ca { t0 with arrive := [] } { x.1.st with inbox := x.1.st.inbox ++ x.1.way } := by
        have e1 : ({ x.1.st with inbox := x.1.st.inbox ++ x.1.way ++ ([] : List InItem) } : IoSt) =
            { x.1.st with inbox := x.1.st.inbox ++ t0.arrive } := by rw [List.append_nil, h0]
        have e2 : ∀ s, ioReap ca { t0 with arrive := [] } s = ioReap ca t0 s := fun s => rfl
        have e3 : ∀ s, ioAllDone ca { t0 with arrive := [] } s = ioAllDone ca t0 s := fun s => rfl
        have e4 : ∀ s, ioPoll ca { t0 with arrive := [] } s = ioPoll ca t0 s := fun s => rfl
        have e5 : ∀ s, ioUsr1 ca { t0 with arrive := [] } s = ioUsr1 ca t0 s := fun s => rfl
        unfold ioTick
        dsimp only
        rw [e1]
        simp only [e2, e3, e4, e5]
      rw [ioRun, ioRun, this]
    have nl : ¬ ∃ s', ioRun ca (t0 :: ts) x.1.st = .next s' := by
      rw [e]
      refine C95_gone_partial ca _ _ (fun t hx => ?_) ?_ ?_
      · rcases List.mem_cons.1 hx with rfl | hx
        · exact ⟨⟨a2, rfl⟩, ⟨a3, a1.2.1⟩, a5⟩
        · obtain ⟨b1, b2, b3, b4, b5⟩ := ht t (List.mem_cons_of_mem _ hx)
          exact ⟨⟨b2, hs t hx⟩, ⟨b3, b1.2.1⟩, b5⟩
      · cases hq : x.1.st.stdin with
        | false => exact .inl (k1.closed hq)
        | true =>
          refine .inr ⟨rfl, fun t hx => ?_⟩
          cases hx
          exact ⟨a1.1.1, a1.1.2.1, a4⟩
      · show (x.1.st.inbox ++ x.1.way).length + 2 ≤ ts.length + 1
        rw [List.length_append]; omega
    rcases (ioRun_clean ca ha he (t0 :: ts) x.1.st k1 (fun t hx => by
      obtain ⟨b1, b2, b3, b4, b5⟩ := ht t hx
      refine ⟨b1, by rw [b3]; decide, b4, fun i hi => ?_⟩
      rcases List.mem_cons.1 hx with rfl | hx
      · exact k2 i (by rw [← h0]; exact hi) (fun e => a1.2.2 (e ▸ hi))
      · rw [hs t hx] at hi; cases hi)).2 hp with ⟨s', k⟩ | ⟨s', k⟩
    · rw [k]; rfl
    · exact absurd ⟨s', k⟩ nl

set_option maxRecDepth 100000 in
/-- The hypotheses of `C118_ends` are met behind the first six steps of the example: five messages are on their way. -/
example : ∃ x, CnReach exCnA exCnB CleanClient (cnStart exCnA exCnB false false true c!"<" []) x ∧ x.1.fin = .running ∧ x.2.fin = .left ∧
    x.1.way.length = 5 ∧ x.1.st.buf ≠ [] ∧
    let tick : Tick := { vchanOpen := false, writes := List.replicate 20 (.part 0) }
    ∀ t ∈ { tick with arrive := x.1.way } :: List.replicate 20 tick, CleanClient t ∧ t.vchanOpen = false ∧ t.poll = .ready ∧ t.usr1 = false ∧
      Takes (pendingBytes { x.1.st with inbox := x.1.st.inbox ++ x.1.way }) t := by
  have hx : ∃ x, CnReach exCnA exCnB CleanClient (cnStart exCnA exCnB false false true c!"<" []) x ∧ x.1.fin = .running ∧ x.2.fin = .left ∧
    x.1.way.length = 5 ∧ x.1.st.buf ≠ [] ∧ pendingBytes { x.1.st with inbox := x.1.st.inbox ++ x.1.way } ≤ 20 ∧ .broken ∉ x.1.way := by
    refine ⟨_, cnRunB_reach exCnA exCnB CleanClient (exCnTicks.take 6) _ ?_ .start (y := (cnRunB exCnA exCnB (exCnTicks.take 6)
      (cnStart exCnA exCnB false false true c!"<" [])).getD (cnStart exCnA exCnB false false true c!"<" [])) ?_, ?_, ?_, ?_, ?_, ?_, ?_⟩
    · unfold exCnTicks CleanClient TakesInput
      simp
    all_goals decide +kernel
  obtain ⟨x, h1, h2, h3, h4, h5, h6, h7⟩ := hx
  refine ⟨x, h1, h2, h3, h4, h5, ?_⟩
  have hp : ∀ k ∈ List.replicate 20 (Sys.part 0), k = .part 0 := fun k hk => List.eq_of_mem_replicate hk
  intro tick t ht
  have hc : t.reaped = none ∧ t.stdinHup = false ∧ t.writes = List.replicate 20 (.part 0) ∧ t.waitFails = false ∧ t.vchanOpen = false ∧
      t.poll = .ready ∧ t.usr1 = false ∧ .broken ∉ t.arrive := by
    rcases List.mem_cons.1 ht with rfl | ht
    · exact ⟨rfl, rfl, rfl, rfl, rfl, rfl, rfl, h7⟩
    · rw [List.eq_of_mem_replicate ht]; exact ⟨rfl, rfl, rfl, rfl, rfl, rfl, rfl, fun h => nomatch h⟩
  obtain ⟨a, b, c, d, e, f, g, k⟩ := hc
  refine ⟨⟨⟨a, b, ?_⟩, d, k⟩, e, f, g, ?_, ?_⟩
  · rw [c]; exact fun k hk => .inr ⟨0, hp k hk⟩
  · rw [c]; exact fun k hk => ⟨0, hp k hk⟩
  · rw [c, List.length_replicate]; exact h6

set_option maxRecDepth 100000 in
/-- A service that dies in the middle of a message: the client fails, what came before has been written. -/
example : ∃ x, CnReach exCnA exCnB TakesInput (cnStart exCnA exCnB false false true c!"<" []) x ∧ x.2.fin = .failed ∧ x.1.fin = .failed ∧
    x.1.st.written = c!"<ans" := by
  let t : Tick := { arrive := [.msg 0x192 c!"hm", .broken], writes := List.replicate 9 (.part 0) }
  let x0 := cnStart exCnA exCnB false false true c!"<" []
  let x1 := (cnRunB exCnA exCnB (exCnTicks.take 4) x0).getD x0
  have h1 : CnReach exCnA exCnB TakesInput x0 x1 := by
    refine cnRunB_reach exCnA exCnB TakesInput (exCnTicks.take 4) x0 ?_ .start ?_
    · unfold exCnTicks TakesInput
      simp
    · decide +kernel
  let x2 : CnSide × CnSide := ({ x1.1 with way := x1.1.way ++ [.broken] }, { x1.2 with fin := .failed })
  have h2 : CnReach exCnA exCnB TakesInput x0 x2 := h1.step (.serviceDies x1 [.broken] (by decide +kernel) (.inr rfl))
  refine ⟨cnTick exCnA t x2.1 x2.2, h2.step (.client t x2 (cnOkB_ok _ _ _ (by decide +kernel)) ⟨rfl, rfl, fun k hk => .inr ⟨0, ?_⟩⟩), ?_, ?_, ?_⟩
  · exact List.eq_of_mem_replicate (n := 9) hk
  all_goals decide +kernel

end Qrexec
