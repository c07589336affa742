import Verif.Lemmas.DataIn

/-!
# C48: data for the local process is neither lost, duplicated nor reordered
-/
namespace Qrexec

theorem ioPoll_in (c : IoCfg) (init : Str) (t : Tick) (s : IoSt) (hp : Prefixed c init s) (hk : Kept c init s) :
    (ioPoll c t s).st.seen ++ (ioPoll c t s).st.inbox = s.seen ++ s.inbox ∧
    Prefixed c init (ioPoll c t s).st ∧
    ((ioPoll c t s).alive → Kept c init (ioPoll c t s).st) ∧
    (ioPoll c t s).st.buf.length ≤ max s.buf.length c.maxChunk ∧
    ((ioPoll c t s).alive → CleanTick t → c.exitOnStdoutEof = false → DoneIn c init s →
      DoneIn c init (ioPoll c t s).st) ∧
    s.seen <+: (ioPoll c t s).st.seen := by
  have triv : s.seen ++ s.inbox = s.seen ++ s.inbox ∧ Prefixed c init s ∧ (True → Kept c init s) ∧
      s.buf.length ≤ max s.buf.length c.maxChunk ∧
      (True → CleanTick t → c.exitOnStdoutEof = false → DoneIn c init s → DoneIn c init s) ∧ s.seen <+: s.seen :=
    ⟨rfl, hp, fun _ => hk, by omega, fun _ _ _ h => h, List.prefix_rfl⟩
  unfold ioPoll
  cases t.poll with
  | eintr => exact triv
  | error => exact triv
  | ready =>
    dsimp only
    by_cases hw : t.waitFails = true
    · rw [if_pos hw]
      exact ⟨rfl, hp, fun h => absurd h id, by simp only [IoStep.st]; omega, fun h => absurd h id, List.prefix_rfl⟩
    rw [if_neg hw]
    generalize hs1 : (if (t.stdinHup && s.stdin) = true then closeStdin c t.eofOk s else s) = s1
    have hl : LessIn s s1 := by
      rw [← hs1]; split_ifs
      · exact (closeStdin_less c t.eofOk s).1
      · exact .refl s
    have hd1 : CleanTick t → s1.stdin = s.stdin := by
      intro hc
      rw [← hs1, hc.2.1, if_neg (by simp)]
    have hr := ioRemote_in c init t s1 (hl.pref hp) (hl.kept hk)
    rw [hl.seen, hl.inbox, hl.buf] at hr
    generalize ioRemote c t s1 = r at hr ⊢
    obtain ⟨a1, a2, a3, a4, a5, a6⟩ := hr
    -- the outgoing direction
    have out : ∀ (s2 : IoSt) (r : IoStep), LessIn s2 r.st →
        (c.exitOnStdoutEof = false → r.st.stdin = s2.stdin) →
        s2.seen ++ s2.inbox = s.seen ++ s.inbox → Prefixed c init s2 → Kept c init s2 →
        s2.buf.length ≤ max s.buf.length c.maxChunk →
        (CleanTick t → c.exitOnStdoutEof = false → DoneIn c init s1 → DoneIn c init s2) → s.seen <+: s2.seen →
        r.st.seen ++ r.st.inbox = s.seen ++ s.inbox ∧ Prefixed c init r.st ∧ Kept c init r.st ∧
        r.st.buf.length ≤ max s.buf.length c.maxChunk ∧
        (CleanTick t → c.exitOnStdoutEof = false → DoneIn c init s1 → DoneIn c init r.st) ∧ s.seen <+: r.st.seen := by
      intro s2 r h1 h2 h3 h4 h5 h6 h7 h8
      refine ⟨by rw [h1.seen, h1.inbox, h3], h1.pref h4, h1.kept h5, by rw [h1.buf]; exact h6,
        fun x y z => DoneIn.less h1 (h2 y) (h7 x y z), by rw [h1.seen]; exact h8⟩
    cases r with
    | next s2 =>
      dsimp only [IoStep.st] at a1 a2 a3 a4 a5 a6 ⊢
      generalize (t.outReady && s.pfx.length == 0 && s.stdout) = rdy
      obtain ⟨o1, o2⟩ := ioOut_less c t rdy s2
      have ho := out s2 _ o1 o2 a1 a2 (a3 trivial) a4 (a5 trivial) a6
      generalize hio : ioOut c t rdy s2 = ro at ho ⊢
      have fin : ∀ r : IoStep, (r.st.seen ++ r.st.inbox = s.seen ++ s.inbox ∧ Prefixed c init r.st ∧ Kept c init r.st ∧
        r.st.buf.length ≤ max s.buf.length c.maxChunk ∧
        (CleanTick t → c.exitOnStdoutEof = false → DoneIn c init s1 → DoneIn c init r.st) ∧ s.seen <+: r.st.seen) →
          r.st.seen ++ r.st.inbox = s.seen ++ s.inbox ∧ Prefixed c init r.st ∧ (r.alive → Kept c init r.st) ∧
          r.st.buf.length ≤ max s.buf.length c.maxChunk ∧
          (r.alive → CleanTick t → c.exitOnStdoutEof = false → DoneIn c init s → DoneIn c init r.st) ∧
          s.seen <+: r.st.seen := by
        rintro r ⟨b1, b2, b3, b4, b5, b6⟩
        exact ⟨b1, b2, fun _ => b3, b4, fun _ x y z => b5 x y (DoneIn.less hl (hd1 x) z), b6⟩
      cases ro with
      | next s3 =>
        obtain ⟨b1, b2, b3, b4, b5, b6⟩ := ho
        obtain ⟨e1, e2⟩ := ioErr_less c t (t.errReady && s.stderr) s3
        exact fin _ (out s3 _ e1 (fun _ => e2) b1 b2 b3 b4 b5 b6)
      | leave s3 => exact fin _ ho
      | exit1 s3 => exact fin _ ho
      | abort s3 => exact fin _ ho
    | leave s2 => exact ⟨a1, a2, a3, a4, fun h x y z => a5 h x y (DoneIn.less hl (hd1 x) z), a6⟩
    | exit1 s2 => exact ⟨a1, a2, a3, a4, fun h x y z => a5 h x y (DoneIn.less hl (hd1 x) z), a6⟩
    | abort s2 => exact ⟨a1, a2, a3, a4, fun h x y z => a5 h x y (DoneIn.less hl (hd1 x) z), a6⟩

theorem ioTick_in (c : IoCfg) (init : Str) (t : Tick) (s : IoSt) (hp : Prefixed c init s) (hk : Kept c init s) :
    TickIn c init t s (ioTick c t s) := by
  unfold ioTick
  dsimp only
  generalize hs1 : ({ s with inbox := s.inbox ++ t.arrive } : IoSt) = s1
  have e1 : s1.seen = s.seen := by rw [← hs1]
  have e2 : s1.inbox = s.inbox ++ t.arrive := by rw [← hs1]
  have e3 : s1.buf = s.buf := by rw [← hs1]
  have hp1 : Prefixed c init s1 := by rw [← hs1]; exact hp
  have hk1 : Kept c init s1 := by rw [← hs1]; exact hk
  have hd1 : DoneIn c init s → DoneIn c init s1 := by rw [← hs1]; exact fun h => h
  obtain ⟨l2, d2⟩ := ioReap_less c t s1
  generalize ioReap c t s1 = s2 at l2 d2 ⊢
  have fin : ∀ r : IoStep, LessIn s2 r.st → (c.exitOnStdoutEof = false → r.st.stdin = s2.stdin) →
      TickIn c init t s r := by
    intro r h1 h2
    have h3 := l2.trans h1
    refine ⟨?_, h3.pref hp1, fun _ => h3.kept hk1, ?_, fun _ hc he hd => ?_, ?_⟩
    · rw [h3.seen, h3.inbox, e1, e2, List.append_assoc]
    · rw [h3.buf, e3]; omega
    · exact DoneIn.less h3 ((h2 he).trans (d2 hc.1)) (hd1 hd)
    · rw [h3.seen, e1]; exact List.prefix_rfl
  cases hd : ioAllDone c t s2 with
  | some r =>
    obtain ⟨l3, d3⟩ := ioAllDone_less c t s2 r hd
    exact fin r l3 (fun _ => d3)
  | none =>
    dsimp only
    split_ifs
    · exact fin (.leave s2) (.refl s2) (fun _ => rfl)
    · obtain ⟨l3, d3⟩ := ioUsr1_less c t s2
      generalize ioUsr1 c t s2 = s3 at l3 d3 ⊢
      have h3 := l2.trans l3
      obtain ⟨a1, a2, a3, a4, a5, a6⟩ := ioPoll_in c init t s3 (h3.pref hp1) (h3.kept hk1)
      rw [h3.seen, e1] at a1 a6
      rw [h3.inbox, e2] at a1
      rw [h3.buf, e3] at a4
      refine ⟨by rw [a1, List.append_assoc], a2, a3, a4, fun x hc he hd => ?_, a6⟩
      exact a5 x hc he (DoneIn.less h3 ((d3 he).trans (d2 hc.1)) (hd1 hd))

/-- Invariants of a run. -/
structure RunIn (c : IoCfg) (init : Str) (ts : List Tick) (s : IoSt) (r : IoStep) : Prop where
  items : r.st.seen ++ r.st.inbox <+: s.seen ++ s.inbox ++ ts.flatMap Tick.arrive
  itemsAll : (∃ s', r = .next s') → r.st.seen ++ r.st.inbox = s.seen ++ s.inbox ++ ts.flatMap Tick.arrive
  pref : Prefixed c init r.st
  kept : r.alive → Kept c init r.st
  bound : r.st.buf.length ≤ max s.buf.length c.maxChunk
  done : r.alive → (∀ t ∈ ts, CleanTick t) → c.exitOnStdoutEof = false → DoneIn c init s → DoneIn c init r.st

theorem ioRun_in (c : IoCfg) (init : Str) (ts : List Tick) (s : IoSt) (hp : Prefixed c init s) (hk : Kept c init s) :
    RunIn c init ts s (ioRun c ts s) := by
  induction ts generalizing s with
  | nil =>
    exact ⟨by simp [ioRun, IoStep.st], by simp [ioRun, IoStep.st], hp, fun _ => hk,
      by simp only [ioRun, IoStep.st]; omega, fun _ _ _ h => h⟩
  | cons t ts ih =>
    have ht := ioTick_in c init t s hp hk
    rw [ioRun]
    generalize ioTick c t s = r at ht ⊢
    have fin : (¬ ∃ s', r = .next s') → RunIn c init (t :: ts) s r := by
      intro hn
      refine ⟨?_, fun h => absurd h hn, ht.pref, ht.kept, ht.bound,
        fun a b c d => ht.done a (b t (List.mem_cons_self ..)) c d⟩
      rw [ht.items, List.flatMap_cons, ← List.append_assoc]
      exact List.prefix_append _ _
    cases r with
    | next s1 =>
      have h := ih s1 ht.pref (ht.kept trivial)
      have hi := ht.items
      simp only [IoStep.st] at hi
      refine ⟨?_, fun hn => ?_, h.pref, h.kept, ?_, fun a b e d => ?_⟩
      · have := h.items
        rw [hi] at this
        simpa using this
      · have := h.itemsAll hn
        rw [hi] at this
        simpa using this
      · have h1 := h.bound
        have h2 := ht.bound
        simp only [IoStep.st] at h2
        dsimp only
        omega
      · exact h.done a (fun x hx => b x (List.mem_cons_of_mem _ hx)) e
          (ht.done trivial (b t (List.mem_cons_self ..)) e d)
    | leave s1 => exact fin (by rintro ⟨_, h⟩; cases h)
    | exit1 s1 => exact fin (by rintro ⟨_, h⟩; cases h)
    | abort s1 => exact fin (by rintro ⟨_, h⟩; cases h)

theorem start_in (c : IoCfg) (socket hasErr : Bool) (buf pfx : Str) :
    Prefixed c buf (ioStart c socket hasErr buf pfx) ∧ Kept c buf (ioStart c socket hasErr buf pfx) ∧
    DoneIn c buf (ioStart c socket hasErr buf pfx) := by
  refine ⟨?_, ?_, ?_⟩
  · exact ⟨buf ++ conv c.replaceOut [], rfl⟩
  · intro _
    refine ⟨?_, by simp [ioStart]⟩
    simp [ioStart, dataBefore, conv]
  · intro h; simp [ioStart] at h

/-- **C48.** At any point of any run - whatever arrives, however the kernel splits the writes, whenever the local
process exits - the items received and those still waiting are the items that arrived, in order; and what is written
to the local process is a prefix of the data that were buffered at the start followed by the data received for it, up
to the end of file. -/
theorem C48_prefix (c : IoCfg) (socket hasErr : Bool) (buf pfx : Str) (ts : List Tick) (r : IoStep)
    (hr : ioRun c ts (ioStart c socket hasErr buf pfx) = r) :
    r.st.seen ++ r.st.inbox <+: ts.flatMap Tick.arrive ∧
    r.st.written <+: buf ++ conv c.replaceOut (dataBefore c.maxChunk r.st.seen) := by
  obtain ⟨h1, h2, _⟩ := start_in c socket hasErr buf pfx
  have h := ioRun_in c buf ts _ h1 h2
  rw [hr] at h
  refine ⟨?_, h.pref⟩
  have := h.items
  simpa [ioStart] using this

/-- **C48, nothing is lost.** While the connection runs every item is received or waits; and as long as the
descriptor of the local process is open, the bytes not written to it yet are exactly the content of the buffer, which
never holds more than one message (or the data it held at the start). -/
theorem C48_kept (c : IoCfg) (socket hasErr : Bool) (buf pfx : Str) (ts : List Tick) (s : IoSt)
    (hr : ioRun c ts (ioStart c socket hasErr buf pfx) = .next s) :
    s.seen ++ s.inbox = ts.flatMap Tick.arrive ∧
    (s.stdin = true → s.written ++ s.buf = buf ++ conv c.replaceOut (dataBefore c.maxChunk s.seen) ∧ ¬ hasEof s.seen) ∧
    s.buf.length ≤ max buf.length c.maxChunk := by
  obtain ⟨h1, h2, _⟩ := start_in c socket hasErr buf pfx
  have h := ioRun_in c buf ts _ h1 h2
  rw [hr] at h
  refine ⟨?_, fun hs => ?_, h.bound⟩
  · have := h.itemsAll ⟨s, rfl⟩
    simpa [ioStart, IoStep.st] using this
  · obtain ⟨a, b⟩ := h.kept trivial hs
    refine ⟨a, ?_⟩
    rintro ⟨t, ht, hm⟩
    have := b _ hm
    simp [endsData, ht] at this

/-- **C48, the end of the data.** If the local process does not exit or close its end, and no write to it fails, then
its descriptor is closed only on an end of file from the other side, and only after all data before it are written. -/
theorem C48_eof (c : IoCfg) (socket hasErr : Bool) (buf pfx : Str) (ts : List Tick) (r : IoStep)
    (hr : ioRun c ts (ioStart c socket hasErr buf pfx) = r) (ha : r.alive)
    (hc : ∀ t ∈ ts, t.reaped = none ∧ t.stdinHup = false ∧ ∀ k ∈ t.writes, k = .eagain ∨ ∃ n, k = .part n)
    (he : c.exitOnStdoutEof = false) (hs : r.st.stdin = false) :
    hasEof r.st.seen ∧ r.st.written = buf ++ conv c.replaceOut (dataBefore c.maxChunk r.st.seen) := by
  obtain ⟨h1, h2, h3⟩ := start_in c socket hasErr buf pfx
  have h := ioRun_in c buf ts _ h1 h2
  rw [hr] at h
  exact (h.done ha hc he h3 hs).2

/-! ## Examples -/

/-- A client reads a long message with a slow reader, then the end of the file. -/
def demoTicks : List Tick :=
  [{ arrive := [.msg 0x191 c!"hello ", .msg 0x191 c!"world"], writes := [.part 2, .eagain] },
   { writes := [.part 9], arrive := [.msg 0x192 c!"warning", .msg 0x191 []] },
   { writes := [.part 9, .part 9, .part 9] },
   { writes := [.part 9, .part 9, .part 9] }]

example : (ioRun { isService := false, hasPid := false } (demoTicks.take 1)
    (ioStart { isService := false, hasPid := false } false false [] [])).st.buf = c!"lo " := by decide
example : (ioRun { isService := false, hasPid := false } demoTicks
    (ioStart { isService := false, hasPid := false } false false [] [])).st.written = c!"hello world" := by decide
example : (ioRun { isService := false, hasPid := false } demoTicks
    (ioStart { isService := false, hasPid := false } false false [] [])).st.stdin = false := by decide
example : ∀ t ∈ demoTicks, t.reaped = none ∧ t.stdinHup = false ∧ ∀ k ∈ t.writes, k = .eagain ∨ ∃ n, k = .part n := by
  intro t ht
  simp only [demoTicks, List.mem_cons, List.not_mem_nil, or_false] at ht
  rcases ht with rfl | rfl | rfl | rfl <;> simp

/-! ## The library functions by themselves -/

/-- **C48.** `write_stdin`, with anything in the buffer: unless it fails, what was written followed by what is in the buffer
is what was in the buffer followed by the data; it reports success only if nothing is left, and it writes nothing while older
data wait. -/
theorem C48_write_stdin (ks : List Sys) (data buf : Str) :
    (((writeStdin ks data buf).1 = .ok ∨ (writeStdin ks data buf).1 = .buffered) →
      (writeStdin ks data buf).2.2.1 ++ (writeStdin ks data buf).2.1 = buf ++ data) ∧
    ((writeStdin ks data buf).1 = .ok → (writeStdin ks data buf).2.1 = []) ∧
    (buf ≠ [] → (writeStdin ks data buf).2.2.1 = []) ∧ (writeStdin ks data buf).2.2.1 <+: buf ++ data := by
  have loop : ∀ (ks : List Sys) (d : Str),
      (((writeStdinLoop ks d).1 = .ok ∨ (writeStdinLoop ks d).1 = .buffered) →
        (writeStdinLoop ks d).2.2.1 ++ (writeStdinLoop ks d).2.1 = d) ∧
      ((writeStdinLoop ks d).1 = .ok → (writeStdinLoop ks d).2.1 = []) ∧ (writeStdinLoop ks d).2.2.1 <+: d := by
    intro ks
    induction ks with
    | nil => intro d; cases d <;> simp [writeStdinLoop]
    | cons k ks ih =>
      intro d
      cases d with
      | nil => cases k <;> simp [writeStdinLoop]
      | cons d ds =>
        cases k with
        | part n =>
          obtain ⟨h1, h2, h3⟩ := ih ((d :: ds).drop (n + 1))
          rw [writeStdinLoop]
          dsimp only
          refine ⟨fun h => ?_, h2, ?_⟩
          · rw [List.append_assoc, h1 h, List.take_append_drop]
          · obtain ⟨r, hr⟩ := h3
            exact ⟨r, by rw [List.append_assoc, hr, List.take_append_drop]⟩
        | zero => simp [writeStdinLoop]
        | eagain => simp [writeStdinLoop]
        | eintr => simp [writeStdinLoop]
        | error => simp [writeStdinLoop]
  unfold writeStdin
  by_cases hb : buf = []
  · subst hb
    obtain ⟨h1, h2, h3⟩ := loop ks data
    rw [if_neg (by simp)]
    exact ⟨h1, h2, fun h => absurd rfl h, h3⟩
  · have : (buf.length != 0) = true := by simpa using hb
    rw [if_pos this]
    exact ⟨fun _ => rfl, fun h => by simp at h, fun _ => rfl, List.nil_prefix⟩

/-- What a terminal may be sent. -/
def TerminalSafe (c : Char) : Prop := (32 ≤ c.toNat ∧ c.toNat ≤ 126) ∨ c.toNat ∈ [7, 8, 9, 10, 13]

/-- **C48.** If characters are to be replaced, whatever the other side sends: only printable ASCII characters, bell,
backspace, tab and line ends reach the local process, as many as were sent; and a text of such characters is not changed. -/
theorem C48_filter (s : Str) : (∀ c ∈ conv true s, TerminalSafe c) ∧ (conv true s).length = s.length ∧
    ((∀ c ∈ s, TerminalSafe c) → conv true s = s) := by
  have same : ∀ c, TerminalSafe c → replaceChar c = c := by
    intro c hc
    unfold replaceChar
    refine if_neg ?_
    intro h
    simp only [Bool.and_eq_true, Bool.or_eq_true, decide_eq_true_eq, bne_iff_ne, ne_eq] at h
    obtain ⟨⟨⟨⟨⟨h1, h2⟩, h3⟩, h4⟩, h5⟩, h6⟩ := h
    have inj : ∀ n : Nat, n < 128 → c.toNat = n → c = Char.ofNat n := by
      intro n _ h; rw [← h]; exact (Char.ofNat_toNat c).symm
    rcases hc with hc | hc
    · omega
    · simp only [List.mem_cons, List.not_mem_nil, or_false] at hc
      rcases hc with hc | hc | hc | hc | hc
      · exact h6 (inj _ (by decide) hc)
      · exact h5 (inj _ (by decide) hc)
      · exact h2 (inj _ (by decide) hc)
      · exact h3 (inj _ (by decide) hc)
      · exact h4 (inj _ (by decide) hc)
  have safe : ∀ c, TerminalSafe (replaceChar c) := by
    intro c
    by_cases hc : TerminalSafe c
    · rw [same c hc]; exact hc
    · unfold replaceChar
      rw [if_pos]
      · exact Or.inl ⟨by decide, by decide⟩
      · unfold TerminalSafe at hc
        rw [not_or] at hc
        have hh : ∀ d : Char, d.toNat ∈ [7, 8, 9, 10, 13] → c ≠ d := by
          rintro d hd rfl; exact hc.2 hd
        simp only [Bool.and_eq_true, Bool.or_eq_true, decide_eq_true_eq, bne_iff_ne, ne_eq]
        refine ⟨⟨⟨⟨⟨by omega, hh _ (by decide)⟩, hh _ (by decide)⟩, hh _ (by decide)⟩, hh _ (by decide)⟩, hh _ (by decide)⟩
  unfold conv
  rw [if_pos rfl]
  refine ⟨?_, by simp, ?_⟩
  · intro c hc
    obtain ⟨x, _, rfl⟩ := List.mem_map.1 hc
    exact safe x
  · intro h
    have : s.map replaceChar = s.map id := List.map_congr_left fun c hc => same c (h c hc)
    rw [this, List.map_id]

/-- A control sequence is made harmless. -/
example : conv true c!"ok\x1b[2J\x7f\n" = c!"ok_[2J_\n" := by decide

end Qrexec
