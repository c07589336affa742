import Verif.Props.DataIn
import Verif.Lemmas.DataOut
import Mathlib.Tactic.ByContra

/-!
# C49: framing of the data streams; C63: exit status
-/
namespace Qrexec

/-! ## Runs -/

theorem NoExitMsg.of_suffix {a b : List InItem} (h : NoExitMsg b) (hs : a <:+ b) : NoExitMsg a :=
  fun d hd => h d (hs.subset hd)

theorem NoExitMsg.append {a b : List InItem} (h : NoExitMsg (a ++ b)) : NoExitMsg a ∧ NoExitMsg b :=
  ⟨fun d hd => h d (List.mem_append_left _ hd), fun d hd => h d (List.mem_append_right _ hd)⟩

theorem NoExitMsg.app {a b : List InItem} (h : NoExitMsg a) (k : NoExitMsg b) : NoExitMsg (a ++ b) := by
  intro d hd
  rcases List.mem_append.1 hd with hd | hd
  · exact h d hd
  · exact k d hd

/-- What a run sends. -/
def RunOut (c : IoCfg) (strict : Prop) (pfx0 : Str) : IoStep → Prop
  | .next s => OutAll c strict pfx0 s
  | .leave s => OutAll c strict pfx0 s ∨
      ∃ s0 : IoSt, OutAll c strict pfx0 s0 ∧ c.isService = true ∧ s0.stdin = false ∧ s0.stdout = false ∧
        s0.stderr = false ∧ (c.hasPid = true → s0.localStatus.isSome = true) ∧
        s = { s0 with sent := s0.sent ++ [(msgExitCode,
          i32le (if c.hasPid then ((s0.localStatus.getD 0 : Nat) : Int) else 0))] }
  | .exit1 s => SentOk c s
  | .abort s => SentOk c s

theorem ioRun_out (c : IoCfg) (hc : 1 ≤ c.maxChunk) (strict : Prop) (pfx0 : Str) (ts : List Tick) (s : IoSt)
    (h : OutAll c strict pfx0 s)
    (hstrict : strict → c.isService = true ∨ ∀ t ∈ ts, ∀ o ∈ t.out, o.read ≠ .error)
    (hm : s.pfx = [] ∨ c.exitOnStdinEof = false ∧
      (c.isService = true ∨ NoExitMsg (s.inbox ++ ts.flatMap Tick.arrive)))
    (hu : s.single = true ∨ ∀ t ∈ ts, t.usr1 = false) :
    RunOut c strict pfx0 (ioRun c ts s) ∧
    ((ioRun c ts s).alive → ((ioRun c ts s).st.localStatus = s.localStatus ∨
      ∃ t ∈ ts, (ioRun c ts s).st.localStatus = t.reaped)) := by
  induction ts generalizing s with
  | nil => exact ⟨h, fun _ => .inl rfl⟩
  | cons t ts ih =>
    have ht := ioTick_out c hc strict pfx0 t s h
      (fun x => (hstrict x).imp id (fun y => y t (List.mem_cons_self ..)))
      (by
        rcases hm with hm | ⟨hm, hn | hn⟩
        · exact .inl hm
        · exact .inr ⟨hm, .inl hn⟩
        · refine .inr ⟨hm, .inr ?_⟩
          rw [List.flatMap_cons, ← List.append_assoc] at hn
          exact hn.append.1)
      (hu.elim .inr (fun x => .inl (x t (List.mem_cons_self ..))))
    rw [ioRun]
    generalize ioTick c t s = r at ht ⊢
    cases r with
    | next s1 =>
      obtain ⟨h1, h2, h3, h4, h5, h6⟩ := ht
      obtain ⟨k1, k2⟩ := ih s1 h1
        (fun x => (hstrict x).imp id (fun y t ht => y t (List.mem_cons_of_mem _ ht)))
        (by
          rcases hm with hm | ⟨hm, hn | hn⟩
          · exact .inl (h5 hm)
          · exact .inr ⟨hm, .inl hn⟩
          · refine .inr ⟨hm, .inr ?_⟩
            rw [List.flatMap_cons, ← List.append_assoc] at hn
            exact (hn.append.1.of_suffix h6).app hn.append.2)
        (hu.elim (fun x => .inl (h2.trans x)) (fun x => .inr (fun t ht => x t (List.mem_cons_of_mem _ ht))))
      refine ⟨k1, fun ha => ?_⟩
      dsimp only
      rcases k2 ha with k | ⟨t', ht', k⟩
      · rw [k]
        cases hl : s.localStatus with
        | none =>
          rcases h4 hl with e | e
          · exact .inl e
          · exact .inr ⟨t, List.mem_cons_self .., e⟩
        | some x => exact .inl ((h3 (by rw [hl]; rfl)).trans hl)
      · exact .inr ⟨t', List.mem_cons_of_mem _ ht', k⟩
    | leave s1 =>
      refine ⟨ht.1, fun _ => ?_⟩
      rcases ht.2 with e | e
      · exact .inl e
      · exact .inr ⟨t, List.mem_cons_self .., e⟩
    | exit1 s1 => exact ⟨ht, fun ha => absurd ha id⟩
    | abort s1 => exact ⟨ht, fun ha => absurd ha id⟩


theorem maxDataChunk_ge (v : Nat) : 4096 ≤ maxDataChunk v ∧ maxDataChunk v ≤ 65536 := by
  unfold maxDataChunk; split_ifs <;> omega

theorem start_out (c : IoCfg) (strict : Prop) (socket hasErr : Bool) (buf pfx : Str)
    (he : c.isService = false → hasErr = false) :
    OutAll c strict pfx (ioStart c socket hasErr buf pfx) := by
  have ho := outType_ne c
  refine ⟨fun _ => ⟨⟨[], by simp [ioStart], by simp [ioStart], ?_⟩, .inl rfl⟩, fun _ => ?_, ?_, he⟩
  · refine ⟨[], by simp, rfl, .inl ⟨?_, fun _ => rfl⟩⟩
    unfold ioStart outsOf
    dsimp only
    split_ifs
    · simp [ho.1.symm]
    · rfl
  · by_cases h : hasErr = true
    · subst h
      refine ⟨[], by simp, rfl, .inl ⟨?_, fun _ => rfl⟩⟩
      unfold ioStart outsOf
      simp
    · have h : hasErr = false := by simpa using h
      subst h
      cases hs : c.isService with
      | true =>
        refine ⟨[], by simp, rfl, .inr ⟨?_, rfl⟩⟩
        unfold ioStart outsOf
        simp [hs]
      | false =>
        refine ⟨[], by simp, rfl, .inl ⟨?_, fun h => by cases h⟩⟩
        unfold ioStart outsOf
        simp [hs]
  · intro m hm
    unfold ioStart at hm
    dsimp only at hm
    split_ifs at hm with h
    · rw [List.mem_singleton.1 hm]
      simp at h
      exact ⟨by simp, .inr ⟨rfl, h.1⟩⟩
    · simp at hm


/-- **C49, sending.** At any point of a connection on which no send has failed, the messages for the local stdout carry,
in non-empty pieces, exactly the prefix data and then the bytes read from the local descriptor, in order (`s.pfx` is what
is left of the prefix data). The end of file is never sent before the descriptor is closed, at most once, and nothing
follows it; when the descriptor is closed it has been sent - unless a read of it failed. The same holds for stderr.
(Assumed: the prefix data are gone before the exit message of the other side arrives, and no SIGUSR1.) -/
theorem C49_sent (c : IoCfg) (v : Nat) (socket hasErr : Bool) (buf pfx : Str) (ts : List Tick) (s : IoSt)
    (hv : c.maxChunk = maxDataChunk v) (he : c.isService = false → hasErr = false)
    (hr : ioRun c ts (ioStart c socket hasErr buf pfx) = .next s ∨
      ioRun c ts (ioStart c socket hasErr buf pfx) = .leave s)
    (hp : pfx = [] ∨ c.exitOnStdinEof = false ∧
      (c.isService = true ∨ ∀ t ∈ ts, ∀ d, InItem.msg 0x193 d ∉ t.arrive))
    (hu : socket = true ∨ ∀ t ∈ ts, t.usr1 = false) (hok : s.sendOk = true) :
    ∃ data, data ++ s.pfx = pfx ++ s.readOut ∧ (s.pfx ≠ [] → s.readOut = [] ∧ s.stdout = true) ∧
      Channel (c.isService = true ∨ ∀ t ∈ ts, ∀ o ∈ t.out, o.read ≠ .error)
        (if c.isService then 0x191 else 0x190) s.stdout data s.sent ∧
      Channel (c.isService = true) 0x192 s.stderr s.readErr s.sent := by
  have h := (ioRun_out c (by have := maxDataChunk_ge v; omega)
    (c.isService = true ∨ ∀ t ∈ ts, ∀ o ∈ t.out, o.read ≠ .error) pfx ts _ (start_out c _ socket hasErr buf pfx he)
    id (by
      rcases hp with hp | ⟨hp, hx | hx⟩
      · exact .inl hp
      · exact .inr ⟨hp, .inl hx⟩
      · refine .inr ⟨hp, .inr ?_⟩
        intro d hd
        have hd : InItem.msg msgExitCode d ∈ ts.flatMap Tick.arrive := by simpa [ioStart] using hd
        obtain ⟨t, ht, hd⟩ := List.mem_flatMap.1 hd
        exact hx t ht d hd) (hu.imp id id)).1
  have fin : ∀ s' : IoSt, OutAll c (c.isService = true ∨ ∀ t ∈ ts, ∀ o ∈ t.out, o.read ≠ .error) pfx s' →
      s'.sendOk = true → ∃ data, data ++ s'.pfx = pfx ++ s'.readOut ∧
      (s'.pfx ≠ [] → s'.readOut = [] ∧ s'.stdout = true) ∧
      Channel (c.isService = true ∨ ∀ t ∈ ts, ∀ o ∈ t.out, o.read ≠ .error)
        (if c.isService then 0x191 else 0x190) s'.stdout data s'.sent ∧
      Channel (c.isService = true) 0x192 s'.stderr s'.readErr s'.sent := by
    intro s' h hk
    obtain ⟨⟨data, a1, a2, a3⟩, a4⟩ := h.out hk
    exact ⟨data, a1, fun hx => ⟨a2 hx, a4.resolve_right hx⟩, a3, h.err hk⟩
  rcases hr with hr | hr
  · rw [hr] at h
    exact fin s h hok
  · rw [hr] at h
    rcases h with h | ⟨s0, h0, _, _, _, _, _, rfl⟩
    · exact fin s h hok
    · obtain ⟨data, a1, a2, a3, a4⟩ := fin s0 h0 hok
      refine ⟨data, a1, a2, a3.other _ ?_, a4.other _ (by simp [msgExitCode])⟩
      split_ifs <;> simp [msgExitCode]

/-- **C49, sizes.** No message is longer than the protocol version allows - not even on a connection that fails - and all
messages are data of the right direction, stderr or exit codes of a service. -/
theorem C49_sizes (c : IoCfg) (v : Nat) (socket hasErr : Bool) (buf : Str) (ts : List Tick)
    (hv : c.maxChunk = maxDataChunk v) (he : c.isService = false → hasErr = false)
    (hu : socket = true ∨ ∀ t ∈ ts, t.usr1 = false) :
    ∀ m ∈ (ioRun c ts (ioStart c socket hasErr buf [])).st.sent, m.2.length ≤ maxDataChunk v ∧
      (m.1 = (if c.isService then 0x191 else 0x190) ∨ c.isService = true ∧ (m.1 = 0x192 ∨ m.1 = 0x193)) := by
  have hge := maxDataChunk_ge v
  have h := (ioRun_out c (by omega) False [] ts _ (start_out c _ socket hasErr buf [] he) (fun h => absurd h id)
    (.inl rfl) (hu.imp id id)).1
  have fin : ∀ s : IoSt, SentOk c s → ∀ m ∈ s.sent, m.2.length ≤ maxDataChunk v ∧
      (m.1 = (if c.isService then 0x191 else 0x190) ∨ c.isService = true ∧ (m.1 = 0x192 ∨ m.1 = 0x193)) := by
    intro s hs m hm
    obtain ⟨a, b⟩ := hs m hm
    exact ⟨by omega, b.imp id (fun ⟨x, y⟩ => ⟨y, .inl x⟩)⟩
  generalize ioRun c ts (ioStart c socket hasErr buf []) = r at h ⊢
  cases r with
  | next s => exact fin s h.sent
  | exit1 s => exact fin s h
  | abort s => exact fin s h
  | leave s =>
    rcases h with h | ⟨s0, h0, hs, _, _, _, _, rfl⟩
    · exact fin s h.sent
    · intro m hm
      rcases List.mem_append.1 hm with hm | hm
      · exact fin s0 h0.sent m hm
      · rw [List.mem_singleton.1 hm]
        exact ⟨by simp [i32le, u32le]; omega, .inr ⟨hs, .inr rfl⟩⟩

/-! ## Framing -/

theorem toNat_ofNat_lt (k : Nat) (h : k < 256) : (Char.ofNat k).toNat = k := by
  have hv : k.isValidChar := .inl (by omega)
  unfold Char.ofNat
  rw [dif_pos hv]
  show (UInt32.ofNatLT k _).toNat = k
  simp

theorem u32of_u32le (n : Nat) (hn : n < 4294967296) (r : Str) : u32of (u32le n ++ r) = n := by
  unfold u32of u32le
  simp only [List.cons_append, List.nil_append, List.getD_cons_zero, List.getD_cons_succ]
  rw [toNat_ofNat_lt _ (Nat.mod_lt _ (by decide)), toNat_ofNat_lt _ (Nat.mod_lt _ (by decide)),
    toNat_ofNat_lt _ (Nat.mod_lt _ (by decide)), toNat_ofNat_lt _ (Nat.mod_lt _ (by decide))]
  omega

theorem u32le_length (n : Nat) : (u32le n).length = 4 := rfl

/-- **C49, framing.** The bytes of a message, followed by anything, are read back as the message. -/
theorem C49_frame (mx : Nat) (m : DMsg) (rest : Str) (hmx : mx < 4294967296) (ht : m.1 < 4294967296)
    (hm : m.2.length ≤ mx) : unframe mx (frame m ++ rest) = some (m, rest) := by
  obtain ⟨t, d⟩ := m
  simp only at ht hm
  have e0 : frame (t, d) ++ rest = u32le t ++ (u32le d.length ++ (d ++ rest)) := by simp [frame]
  have e1 : (frame (t, d) ++ rest).drop 4 = u32le d.length ++ (d ++ rest) := by rw [e0]; rfl
  have e2 : (frame (t, d) ++ rest).drop 8 = d ++ rest := by rw [e0]; rfl
  have e3 : u32of (frame (t, d) ++ rest) = t := by rw [e0]; exact u32of_u32le t ht _
  have e4 : (frame (t, d) ++ rest).drop (8 + d.length) = rest := by
    rw [← List.drop_drop, e2]; simp
  have e5 : 8 ≤ (frame (t, d) ++ rest).length := by
    rw [e0]; simp [u32le_length]; omega
  unfold unframe
  rw [if_neg (by omega)]
  dsimp only
  rw [e1, e2, e3, u32of_u32le _ (by omega), e4, if_neg (by omega), if_neg (by simp)]
  simp

theorem i32of_i32le (i : Int) (h1 : -2147483648 ≤ i) (h2 : i < 2147483648) (r : Str) : i32of (i32le i ++ r) = i := by
  unfold i32of i32le
  rw [u32of_u32le _ (by omega)]
  split_ifs <;> omega

/-- Reading a number of messages. -/
def readFrames (mx : Nat) : Nat → Str → Option (List DMsg × Str)
  | 0, s => some ([], s)
  | n + 1, s => match unframe mx s with
    | none => none
    | some (m, s) => match readFrames mx n s with
      | none => none
      | some (l, s) => some (m :: l, s)

/-- **C49, framing of a whole connection.** Any sequence of messages that keep to the limit is read back. -/
theorem C49_frames (mx : Nat) (l : List DMsg) (rest : Str) (hmx : mx < 4294967296)
    (hl : ∀ m ∈ l, m.1 < 4294967296 ∧ m.2.length ≤ mx) :
    readFrames mx l.length ((l.map frame).flatten ++ rest) = some (l, rest) := by
  induction l with
  | nil => rfl
  | cons m l ih =>
    obtain ⟨h1, h2⟩ := hl m (List.mem_cons_self ..)
    simp only [List.length_cons, List.map_cons, List.flatten_cons, List.append_assoc]
    rw [readFrames, C49_frame mx m _ hmx h1 h2]
    simp only
    rw [ih (fun m hm => hl m (List.mem_cons_of_mem _ hm))]


/-! ## From one end to the other -/

/-- A message as it arrives at the other end. -/
def toItem (m : DMsg) : InItem := .msg m.1 m.2

theorem dataBefore_items (mx T : Nat) (hT : isDataType T = true) (l : List DMsg)
    (hl : ∀ m ∈ l, m.2.length ≤ mx ∧ (m.1 = T ∨ isDataType m.1 = false)) :
    dataBefore mx (l.map toItem) = ((outsOf T l).takeWhile fun d => !d.isEmpty).flatten := by
  induction l with
  | nil => rfl
  | cons m l ih =>
    obtain ⟨h1, h2⟩ := hl m (List.mem_cons_self ..)
    have ih := ih (fun m hm => hl m (List.mem_cons_of_mem _ hm))
    obtain ⟨t, d⟩ := m
    simp only at h1 h2
    rw [List.map_cons, dataBefore_cons]
    have he : endsData mx (toItem (t, d)) = (isDataType t && d.isEmpty) := by
      simp only [toItem, endsData]; rw [decide_eq_false (by omega), Bool.false_or]
    rw [he]
    simp only [toItem]
    rcases h2 with rfl | h2
    · have e : outsOf t ((t, d) :: l) = d :: outsOf t l := by simp [outsOf]
      rw [e, hT]
      cases d with
      | nil => simp
      | cons a d => simp [ih]
    · have hne : t ≠ T := by rintro rfl; rw [hT] at h2; cases h2
      have e : outsOf T ((t, d) :: l) = outsOf T l := by simp [outsOf, hne]
      rw [e, h2, ← ih]; simp

theorem takeWhile_chunks (cs : List Str) (h : [] ∉ cs) :
    (cs.takeWhile fun d => !d.isEmpty) = cs ∧ ((cs ++ [[]]).takeWhile fun d => !d.isEmpty) = cs := by
  induction cs with
  | nil => exact ⟨rfl, rfl⟩
  | cons d cs ih =>
    simp only [List.mem_cons, not_or] at h
    obtain ⟨i1, i2⟩ := ih h.2
    cases d with
    | nil => exact absurd rfl h.1
    | cons a d => exact ⟨by simp [i1], by simp [i2]⟩

/-- **C49, from one end to the other.** One end runs with any schedule and no send of it has failed; the other end
receives (a prefix of) the messages it has sent, split over time in any way. Then what the other end has written to its
process is a prefix of what it held at the start, the prefix data of the sender and the bytes read by the sender. If the
other end has closed its process's stdin (and neither this process has gone away nor a write to it failed), everything
was written. (Assumptions on the sender as in `C49_sent`.) -/
theorem C49_end_to_end_partial (c : IoCfg) (v : Nat) (socket hasErr : Bool) (buf pfx : Str) (ts : List Tick) (s : IoSt)
    (hv : c.maxChunk = maxDataChunk v) (he : c.isService = false → hasErr = false)
    (hr : ioRun c ts (ioStart c socket hasErr buf pfx) = .next s ∨
      ioRun c ts (ioStart c socket hasErr buf pfx) = .leave s)
    (hp : pfx = [] ∨ c.exitOnStdinEof = false ∧
      (c.isService = true ∨ ∀ t ∈ ts, ∀ d, InItem.msg 0x193 d ∉ t.arrive))
    (hu : socket = true ∨ ∀ t ∈ ts, t.usr1 = false) (hok : s.sendOk = true)
    (c' : IoCfg) (hv' : c'.maxChunk = maxDataChunk v) (socket' hasErr' : Bool) (buf' pfx' : Str) (ts' : List Tick)
    (r : IoStep) (hr' : ioRun c' ts' (ioStart c' socket' hasErr' buf' pfx') = r)
    (harr : ts'.flatMap Tick.arrive <+: s.sent.map fun m => InItem.msg m.1 m.2) :
    r.st.written <+: buf' ++ conv c'.replaceOut (pfx ++ s.readOut) ∧
    (r.alive → (∀ t ∈ ts', t.reaped = none ∧ t.stdinHup = false ∧ ∀ k ∈ t.writes, k = .eagain ∨ ∃ n, k = .part n) →
      c'.exitOnStdoutEof = false → r.st.stdin = false →
      r.st.written = buf' ++ conv c'.replaceOut (pfx ++ s.readOut)) := by
  obtain ⟨data, h1, h2, h3, _⟩ := C49_sent c v socket hasErr buf pfx ts s hv he hr hp hu hok
  have hsz : ∀ m ∈ s.sent, m.2.length ≤ maxDataChunk v ∧
      (m.1 = (if c.isService then 0x191 else 0x190) ∨ isDataType m.1 = false) := by
    have hge := maxDataChunk_ge v
    have h := (ioRun_out c (by omega) False pfx ts _ (start_out c _ socket hasErr buf pfx he) (fun h => absurd h id)
      (by
        rcases hp with hp | ⟨hp, hx | hx⟩
        · exact .inl hp
        · exact .inr ⟨hp, .inl hx⟩
        · refine .inr ⟨hp, .inr ?_⟩
          intro d hd
          have hd : InItem.msg msgExitCode d ∈ ts.flatMap Tick.arrive := by simpa [ioStart] using hd
          obtain ⟨t, ht, hd⟩ := List.mem_flatMap.1 hd
          exact hx t ht d hd) (hu.imp id id)).1
    have fin : ∀ s : IoSt, SentOk c s → ∀ m ∈ s.sent, m.2.length ≤ maxDataChunk v ∧
        (m.1 = (if c.isService then 0x191 else 0x190) ∨ isDataType m.1 = false) := by
      intro s hs m hm
      obtain ⟨a, b⟩ := hs m hm
      refine ⟨by omega, b.imp id (fun x => ?_)⟩
      rw [x.1]; rfl
    rcases hr with hr | hr
    · rw [hr] at h; exact fin s h.sent
    · rw [hr] at h
      rcases h with h | ⟨s0, h0, hs, _, _, _, _, rfl⟩
      · exact fin s h.sent
      · intro m hm
        rcases List.mem_append.1 hm with hm | hm
        · exact fin s0 h0.sent m hm
        · rw [List.mem_singleton.1 hm]
          exact ⟨by simp [i32le, u32le]; omega, .inr rfl⟩
  have hT : isDataType (if c.isService then 0x191 else 0x190) = true := by split_ifs <;> rfl
  have hall : dataBefore (maxDataChunk v) (s.sent.map toItem) = data := by
    rw [dataBefore_items _ _ hT _ hsz]
    obtain ⟨cs, k1, k2, k3⟩ := h3
    obtain ⟨w1, w2⟩ := takeWhile_chunks cs k1
    rcases k3 with ⟨k3, _⟩ | ⟨k3, _⟩
    · rw [k3, w1, k2]
    · rw [k3, w2, k2]
  have hdp : data <+: pfx ++ s.readOut := ⟨s.pfx, h1⟩
  obtain ⟨p1, p2⟩ := C48_prefix c' socket' hasErr' buf' pfx' ts' r hr'
  have hseen : r.st.seen <+: s.sent.map toItem := ((List.prefix_append _ _).trans p1).trans harr
  obtain ⟨rest, hrest⟩ := hseen
  rw [hv'] at p2
  refine ⟨p2.trans ((List.prefix_append_right_inj _).2 (conv_prefix _ (List.IsPrefix.trans ?_ hdp))),
    fun ha hc hx hs => ?_⟩
  · rw [← hall, ← hrest]; exact dataBefore_prefix _ _ _
  · obtain ⟨q1, q2⟩ := C48_eof c' socket' hasErr' buf' pfx' ts' r hr' ha hc hx hs
    obtain ⟨t, ht, hm⟩ := q1
    have hd : dataBefore (maxDataChunk v) r.st.seen = data := by
      rw [← hall, ← hrest, dataBefore_ended]
      exact ⟨_, hm, by simp [endsData, ht]⟩
    rw [q2, hv', hd]
    have hpf : s.pfx = [] := by
      by_contra hne
      obtain ⟨_, ho⟩ := h2 hne
      rw [ho] at h3
      have hop := h3.open'.1
      have hin : InItem.msg t [] ∈ s.sent.map toItem := by rw [← hrest]; exact List.mem_append_left _ hm
      obtain ⟨m, hm1, hm2⟩ := List.mem_map.1 hin
      obtain ⟨mt, md⟩ := m
      simp only [toItem, InItem.msg.injEq] at hm2
      obtain ⟨e1, e2⟩ := hm2
      have := (hsz _ hm1).2
      simp only at this
      rcases this with e | e
      · apply hop
        unfold outsOf
        refine List.mem_map.2 ⟨(mt, md), List.mem_filter.2 ⟨hm1, ?_⟩, e2⟩
        simp [e]
      · rw [e1, ht] at e; cases e
    rw [hpf, List.append_nil] at h1
    rw [h1]

end Qrexec
