import Verif.Props.ServiceCmd
import Verif.Props.VmTrigger

/-! # C69: the answer goes to the client that asked -/
namespace Qrexec
open Spec

/-- The descriptor whose use an action changes. -/
def touch : VaOut → Option Int
  | .closed fd => some fd
  | .toClient fd _ _ => some fd
  | .forkServer fd _ _ _ _ _ _ => some fd
  | _ => none

theorem useOut_other {u : Int → Option FdUse} {y : VaOut} {g : Int} (h : touch y ≠ some g) : useOut u y g = u g := by
  cases y <;> first
    | rfl
    | exact if_neg fun he => h (by rw [he]; rfl)

theorem useOut_opened {u : Int → Option FdUse} {y : VaOut} {g : Int} (h : touch y = some g) (hc : ∀ f, y ≠ .closed f) :
    useOut u y g = some .connection := by
  cases y <;> first
    | (cases h; exact if_pos rfl)
    | cases h
  exact absurd rfl (hc _)

theorem fold_untouched {o : List VaOut} {g : Int} : ∀ (u : Int → Option FdUse), (∀ y ∈ o, touch y ≠ some g) →
    o.foldl useOut u g = u g := by
  induction o with
  | nil => intro u _; rfl
  | cons y o ih =>
    intro u h
    rw [List.foldl_cons, ih _ fun z hz => h z (List.mem_cons_of_mem _ hz), useOut_other (h y List.mem_cons_self)]

theorem fold_keep {o : List VaOut} {g : Int} (hc : ∀ y ∈ o, ∀ f, y ≠ VaOut.closed f) : ∀ (u : Int → Option FdUse),
    u g = some .connection → o.foldl useOut u g = some .connection := by
  induction o with
  | nil => intro u h; exact h
  | cons y o ih =>
    intro u h
    rw [List.foldl_cons]
    refine ih (fun z hz => hc z (List.mem_cons_of_mem _ hz)) _ ?_
    by_cases ht : touch y = some g
    · exact useOut_opened ht (hc y List.mem_cons_self)
    · rw [useOut_other ht]; exact h

theorem fold_opened {o : List VaOut} {g : Int} (hc : ∀ y ∈ o, ∀ f, y ≠ VaOut.closed f) : ∀ (u : Int → Option FdUse),
    (∃ y ∈ o, touch y = some g) → o.foldl useOut u g = some .connection := by
  induction o with
  | nil => rintro u ⟨y, hy, _⟩; cases hy
  | cons y o ih =>
    rintro u ⟨z, hz, ht⟩
    rw [List.foldl_cons]
    have hc' : ∀ y ∈ o, ∀ f, y ≠ VaOut.closed f := fun w hw => hc w (List.mem_cons_of_mem _ hw)
    rcases List.mem_cons.1 hz with rfl | hz
    · exact fold_keep hc' _ (useOut_opened ht (hc z List.mem_cons_self))
    · exact ih hc' _ ⟨z, hz, ht⟩

/-- A slot is as before, or free, or has no descriptor, or its descriptor has just been opened. -/
def SlotsFrom (s s' : VaState) (o : List VaOut) : Prop :=
  ∀ i, s'.conns i = s.conns i ∨ (s'.conns i).fd = -1 ∨ ∃ y ∈ o, touch y = some (s'.conns i).fd

/-- The action starts a process, or passes a request to the fork server. -/
def isStart : VaOut → Bool
  | .child _ _ => true
  | .forkServer _ _ _ _ _ _ _ => true
  | .session _ _ _ => true
  | _ => false

theorem vaDo_slots (s : VaState) (j : VaJob) (t : VaTry) (hj : j.type ≠ msgConnect) :
    SlotsFrom s (vaDo s j t).1 (vaDo s j t).2 ∧ ∀ y ∈ (vaDo s j t).2, isStart y = true := by
  unfold vaDo
  rw [if_neg hj]
  split
  · rename_i fd user text _
    refine ⟨fun i => ?_, fun y hy => by rw [List.mem_singleton] at hy; subst hy; rfl⟩
    rcases vaRegister_conns s (-1) fd j.domain j.port i with e | ⟨_, e, _⟩
    · exact Or.inl e
    · exact Or.inr (Or.inr ⟨_, List.mem_singleton.2 rfl, by dsimp only; rw [e]; rfl⟩)
  · refine ⟨fun i => ?_, fun y hy => by rw [List.mem_singleton] at hy; subst hy; rfl⟩
    rcases vaRegister_conns s _ (-1) j.domain j.port i with e | ⟨_, e, _⟩
    · exact Or.inl e
    · exact Or.inr (Or.inl (congrArg VaConn.fd e))

theorem SlotsFrom.trans {s s' s'' : VaState} {o o' : List VaOut} (h : SlotsFrom s s' o) (h' : SlotsFrom s' s'' o') :
    SlotsFrom s s'' (o ++ o') := by
  intro i
  rcases h' i with e | e | ⟨y, hy, e⟩
  · rw [e]
    rcases h i with e' | e' | ⟨y, hy, e'⟩
    · exact Or.inl e'
    · exact Or.inr (Or.inl e')
    · exact Or.inr (Or.inr ⟨y, List.mem_append_left _ hy, e'⟩)
  · exact Or.inr (Or.inl e)
  · exact Or.inr (Or.inr ⟨y, List.mem_append_right _ hy, e⟩)

theorem vaFlush_slots (tries : Nat → VaTry) : ∀ (is : List Nat) (s : VaState),
    (∀ i j, s.waiting i = some j → j.type ≠ msgConnect) →
    SlotsFrom s (vaFlush tries is s).1 (vaFlush tries is s).2 ∧ ∀ y ∈ (vaFlush tries is s).2, isStart y = true := by
  intro is
  induction is with
  | nil => intro s _; exact ⟨fun i => Or.inl rfl, fun y hy => by cases hy⟩
  | cons i is ih =>
    intro s hw
    unfold vaFlush
    split
    · exact ih s hw
    · rename_i j hj
      obtain ⟨a, b⟩ := vaDo_slots s j (tries i) (hw i j hj)
      have hwait : (vaDo s j (tries i)).1.waiting = s.waiting := by
        unfold vaDo
        rw [if_neg (hw i j hj)]
        split
        · exact (vaRegister_rest _ _ _ _ _).1
        · exact (vaRegister_rest _ _ _ _ _).1
      generalize vaDo s j (tries i) = r at a b hwait
      dsimp only
      obtain ⟨c, d⟩ := ih { r.1 with waiting := put r.1.waiting i none } (by
        intro k j' hk
        dsimp only at hk
        by_cases hki : k = i
        · rw [hki, put_same] at hk; cases hk
        · rw [put_other _ _ hki, hwait] at hk; exact hw k j' hk)
      generalize vaFlush tries is { r.1 with waiting := put r.1.waiting i none } = r' at c d
      refine ⟨?_, ?_⟩
      · exact SlotsFrom.trans (s' := { r.1 with waiting := put r.1.waiting i none }) a c
      · intro y hy
        rcases List.mem_append.1 hy with hy | hy
        · exact b y hy
        · exact d y hy

/-- What an event that is not an answer, nor a client, nor the end of a connection does to the descriptors. -/
theorem start_slots {load : RpcService → Option SvcConf} {s s' : VaState} {type d p : Nat} {body : Wire} {t : VaTry}
    {session : Option Nat} {o : List VaOut} (hne : type ≠ msgConnect)
    (hs : vaInit load s type d p body t session = (s', o)) :
    SlotsFrom s s' o ∧ ∀ y ∈ o, isStart y = true := by
  have key : ∀ (s1 : VaState) (o1 : List VaOut), s1.conns = s.conns → (∀ y ∈ o1, isStart y = true) →
      SlotsFrom s (vaDo s1 (vaJob load type d p body) t).1 (o1 ++ (vaDo s1 (vaJob load type d p body) t).2) ∧
      ∀ y ∈ o1 ++ (vaDo s1 (vaJob load type d p body) t).2, isStart y = true := by
    intro s1 o1 h1 h2
    obtain ⟨a, b⟩ := vaDo_slots s1 (vaJob load type d p body) t hne
    refine ⟨SlotsFrom.trans (s' := s1) (fun i => Or.inl (by rw [h1])) a, ?_⟩
    intro y hy
    rcases List.mem_append.1 hy with hy | hy
    · exact h2 y hy
    · exact b y hy
  unfold vaInit at hs
  dsimp only at hs
  split at hs
  · rcases hw : waitForSession s (vaJob load type d p body) session with ⟨b, s1, o1⟩
    have hws : s1.conns = s.conns ∧ ∀ y ∈ o1, isStart y = true := by
      unfold waitForSession at hw
      split at hw
      · cases hw; exact ⟨rfl, fun y hy => by cases hy⟩
      · split at hw
        · cases hw; exact ⟨rfl, fun y hy => by cases hy⟩
        · cases hw
          refine ⟨rfl, fun y hy => ?_⟩
          split at hy
          · rw [List.mem_singleton] at hy; subst hy; rfl
          · cases hy
    rw [hw] at hs
    cases b with
    | true =>
      dsimp only at hs
      split at hs
      · cases hs
        exact ⟨fun i => Or.inl (by dsimp only; rw [hws.1]), hws.2⟩
      · cases hs
        exact key s1 o1 hws.1 hws.2
    | false =>
      dsimp only at hs
      cases hs
      exact key s1 o1 hws.1 hws.2
  · have := key s [] rfl (fun y hy => by cases hy)
    rw [hs] at this
    exact this

theorem isStart_not_closed {y : VaOut} (h : isStart y = true) (f : Int) : y ≠ .closed f := by
  rintro rfl; cases h

theorem isStart_touch {y : VaOut} (h : isStart y = true) {g : Int} (ht : touch y = some g) :
    ∃ (fd : Nat) (u : Str) (ty d p : Nat) (t : Wire) (j : VaJob), y = .forkServer fd u ty d p t j ∧ g = (fd : Int) := by
  cases y <;> first
    | cases h; done
    | (cases ht; done)
    | skip
  cases ht
  exact ⟨_, _, _, _, _, _, _, rfl, rfl⟩

/-- What `vaPoll` closes. -/
theorem vaPoll_closed (ready : List Int) : ∀ (is : List Nat) (s : VaState), is.Nodup → ∀ y ∈ (vaPoll ready is s).2, ∀ g,
    touch y = some g → ∃ i ∈ is, (s.conns i).pid ≠ 0 ∧ (s.conns i).fd ≠ -1 ∧ (s.conns i).fd ∈ ready ∧ (s.conns i).fd = g := by
  intro is
  induction is with
  | nil => intro s _ y hy; cases hy
  | cons k is ih =>
    intro s hn y hy g ht
    obtain ⟨hk, hn'⟩ := List.nodup_cons.1 hn
    rw [vaPoll] at hy
    by_cases hc : (s.conns k).pid ≠ 0 ∧ (s.conns k).fd ≠ -1 ∧ (s.conns k).fd ∈ ready
    · rw [if_pos hc] at hy
      rcases List.mem_append.1 hy with hy | hy
      · rcases List.mem_cons.1 hy with rfl | hy
        · cases ht
          exact ⟨k, List.mem_cons_self, hc.1, hc.2.1, hc.2.2, rfl⟩
        · unfold vaRelease at hy
          rw [List.mem_singleton] at hy; subst hy; cases ht
      · obtain ⟨i, hi, h1⟩ := ih _ hn' y hy g ht
        have hik : i ≠ k := fun e => hk (e ▸ hi)
        have he : (vaRelease s k).1.conns i = s.conns i := put_other _ _ hik
        rw [he] at h1
        exact ⟨i, List.mem_cons_of_mem _ hi, h1⟩
    · rw [if_neg hc] at hy
      obtain ⟨i, hi, h1⟩ := ih _ hn' y hy g ht
      exact ⟨i, List.mem_cons_of_mem _ hi, h1⟩

/-! ## The identifier of a request -/

theorem forward_ident {fd : Nat} (hfd : fd < 2 ^ 31) {hdr : Option (Nat × Nat)} {body : Option Wire}
    (hl : ∀ t l b, hdr = some (t, l) → body = some b → b.length = l) {type len : Nat} {b : Wire}
    (h : vaTrigger fd hdr body = [.forward type len b]) :
    ∃ rest, (b.drop 128).take 32 = (c!"SOCKET" ++ printDec fd) ++ '\x00' :: rest := by
  cases hdr with
  | none => unfold vaTrigger at h; simp at h
  | some r =>
    obtain ⟨t, l⟩ := r
    by_cases hok : t = 0x213 ∧ 160 < l ∧ l ≤ 160 + 65000
    · cases body with
      | none => rw [(C69_forward hfd _ _).2 (Or.inr rfl)] at h; simp at h
      | some b0 =>
        obtain ⟨b', h1, h2, _, _, h5⟩ := (C69_forward hfd (some (t, l)) (some b0)).1 t l b0 rfl rfl (hl _ _ _ rfl rfl) hok.1 hok.2.1 hok.2.2
        rw [h1] at h
        simp only [List.cons.injEq, and_true, VaOut.forward.injEq] at h
        obtain ⟨rfl, rfl, rfl⟩ := h
        have hlen : ((b'.drop 128).take 32).length = 32 := by
          rw [List.length_take, List.length_drop]; omega
        have htx := (ident_text hfd).2
        generalize c!"SOCKET" ++ printDec fd = tx at h5 htx
        generalize (b'.drop 128).take 32 = w at h5 hlen
        have hsplit := List.takeWhile_append_dropWhile (p := (· != '\x00')) (l := w)
        have h5' : w.takeWhile (· != '\x00') = tx := h5
        rw [h5'] at hsplit
        cases hdw : w.dropWhile (· != '\x00') with
        | nil =>
          rw [hdw, List.append_nil] at hsplit
          rw [hsplit] at htx
          omega
        | cons c rest =>
          have hc0 : c = '\x00' := by
            have := List.head?_dropWhile_not (· != '\x00') w
            rw [hdw] at this
            simpa using this
          rw [hdw, hc0] at hsplit
          exact ⟨rest, hsplit.symm⟩
    · rw [(C69_forward hfd _ _).2 (Or.inl fun t' l' he => by cases he; exact hok)] at h
      simp at h

theorem cString_nul {tx rest : Wire} (h : '\x00' ∉ tx) : cString (tx ++ '\x00' :: rest) = tx := by
  unfold cString
  rw [List.takeWhile_append_of_pos (by
    intro c hc
    simp only [bne_iff_ne, ne_eq]
    rintro rfl
    exact h hc)]
  simp

/-- **C69.** A refusal closes exactly the descriptor that the identifier names. -/
theorem C69_refused {fd : Nat} (hfd : fd < 2 ^ 31) (rest : Wire) :
    vaRefused ((c!"SOCKET" ++ printDec fd) ++ '\x00' :: rest) = [.closed fd] := by
  unfold vaRefused
  rw [cString_nul (ident_text hfd).1, C69_roundtrip hfd]

/-- **C69.** The details of a connection are written to exactly the descriptor that the identifier names, and its end is seen
by that descriptor. -/
theorem C69_connect {load : RpcService → Option SvcConf} (s : VaState) {fd : Nat} (hfd : fd < 2 ^ 31) (rest : Wire)
    (d p : Nat) (t : VaTry) (session : Option Nat) (hb : t.badFd = false) :
    vaInit load s 0x202 d p ((c!"SOCKET" ++ printDec fd) ++ '\x00' :: rest) t session =
      (vaRegister s (-1) fd d p, [.toClient fd d p]) := by
  have hft : FieldText ((c!"SOCKET" ++ printDec fd) ++ '\x00' :: rest) (c!"SOCKET" ++ printDec fd) :=
    ⟨(ident_text hfd).1, Or.inl ⟨rest, rfl⟩⟩
  obtain ⟨r, hr⟩ := ensureNul_eq hft
  have hcl : (vaJob load 0x202 d p ((c!"SOCKET" ++ printDec fd) ++ '\x00' :: rest)).cmdline = c!"SOCKET" ++ printDec fd := by
    unfold vaJob
    dsimp only
    rw [hr, cString_nul (ident_text hfd).1]
  have hw : wantsSession (vaJob load 0x202 d p ((c!"SOCKET" ++ printDec fd) ++ '\x00' :: rest)) = false := rfl
  unfold vaInit
  dsimp only
  rw [hw, if_neg (by decide)]
  unfold vaDo
  rw [if_pos (show (vaJob load 0x202 d p _).type = msgConnect from rfl), hcl, C69_roundtrip hfd]
  dsimp only
  rw [hb, if_neg (by simp)]
  rfl

/-! ## The invariant -/

structure UseInv (H : VaHistory) (ans : Nat → Nat) (n : Nat) (s : VaState) : Prop where
  pend : ∀ (k : Nat) (fd : Nat) hdr body (ty l : Nat) (b : Wire), k < n → H[k]? = some (VaEv.trigger fd hdr body, [VaOut.forward ty l b]) →
    (∀ m e o, m < n → H[m]? = some (e, o) → answerOf e ≠ none → ans m ≠ k) → usesAt H n fd = some (.request k)
  conn : ∀ i, i < maxClients → (s.conns i).pid ≠ 0 → (s.conns i).fd ≠ -1 → usesAt H n (s.conns i).fd = some .connection

theorem prefix_get {H tr : VaHistory} {x : VaEv × List VaOut} (h : tr ++ [x] <+: H) : H[tr.length]? = some x := by
  obtain ⟨post, rfl⟩ := h
  simp

theorem usesAt_succ {H : VaHistory} {n : Nat} {x : VaEv × List VaOut} (h : H[n]? = some x) :
    usesAt H (n + 1) = useStep n (usesAt H n) x := by
  conv => lhs; unfold usesAt
  rw [h]

/-- The request that an answer is for: it was made, has not been answered, and its identifier is that of its client. -/
theorem answer_request {load : RpcService → Option SvcConf} {H : VaHistory} {S : VaState} (hr : VaRun load H S)
    {ans : Nat → Nat} (hk : KernelOk H) (hd : DaemonOk H ans) {n : Nat} {e : VaEv} {o : List VaOut} {ident : Wire} {s : VaState}
    (hi : UseInv H ans n s) (hn : H[n]? = some (e, o)) (ha : answerOf e = some ident) :
    ∃ (fd : Nat) (hdr : Option (Nat × Nat)) (body : Option Wire) (ty l : Nat) (b : Wire) (rest : Wire),
      H[ans n]? = some (VaEv.trigger fd hdr body, [VaOut.forward ty l b]) ∧ fd < 2 ^ 31 ∧
      ident = (c!"SOCKET" ++ printDec fd) ++ '\x00' :: rest ∧ usesAt H n fd = some (.request (ans n)) := by
  obtain ⟨hlt, fd, hdr, body, ty, l, b, h1, h2⟩ := hd.request n e o ident hn ha
  have hfd := (hk.accept _ _ _ _ _ h1).2
  obtain ⟨pre, post, he⟩ : ∃ pre post, H = pre ++ (VaEv.trigger fd hdr body, [VaOut.forward ty l b]) :: post :=
    List.append_of_mem (List.mem_of_getElem? h1)
  obtain ⟨s0, s1, _, _, h3⟩ := va_prefix hr _ _ _ _ he
  have h3 : vaTrigger fd hdr body = [.forward ty l b] := by
    simp only [vaStep, Option.some.injEq, Prod.mk.injEq] at h3
    exact h3.2
  obtain ⟨rest, hrest⟩ := forward_ident hfd (by
    rintro t' l' b' rfl rfl
    exact hk.read _ _ _ _ _ _ h1) h3
  refine ⟨fd, hdr, body, ty, l, b, rest, h1, hfd, by rw [h2]; exact hrest, ?_⟩
  refine hi.pend _ _ _ _ _ _ _ hlt h1 ?_
  intro m e' o' hm hm' ha' heq
  have := hd.once m n e' e o' o hm' hn ha' (by rw [ha]; simp) heq
  omega

theorem use_inv {load : RpcService → Option SvcConf} {H : VaHistory} {S : VaState} (hR : VaRun load H S)
    {ans : Nat → Nat} (hk : KernelOk H) (hd : DaemonOk H ans) {tr : VaHistory} {s : VaState} (hr : VaRun load tr s) :
    tr <+: H → UseInv H ans tr.length s := by
  induction hr with
  | start =>
    intro _
    exact ⟨fun k _ _ _ _ _ _ h => absurd h (Nat.not_lt_zero _), fun i _ h => absurd rfl h⟩
  | @step tr s s' e o hr hp hs ih =>
    intro hpre
    have hi := ih ((List.prefix_append _ _).trans hpre)
    have hget := prefix_get hpre
    have hva := va_inv hr
    rw [List.length_append, List.length_singleton]
    generalize hnn : tr.length = n at hi hget
    have hstep := usesAt_succ hget
    -- requests that were made before and are not answered by this event
    have hold : ∀ (k : Nat), (∀ m e o, m < n + 1 → H[m]? = some (e, o) → answerOf e ≠ none → ans m ≠ k) →
        (∀ m e o, m < n → H[m]? = some (e, o) → answerOf e ≠ none → ans m ≠ k) :=
      fun k h m e o hm => h m e o (by omega)
    -- events that only start something
    have starts : SlotsFrom s s' o → (∀ y ∈ o, isStart y = true) → (∀ fd hdr body, e ≠ .trigger fd hdr body) →
        UseInv H ans (n + 1) s' := by
      intro h1 h2 h3
      have hue : useEvent n (usesAt H n) e = usesAt H n := by
        cases e <;> first | rfl | exact absurd rfl (h3 _ _ _)
      have hnc : ∀ y ∈ o, ∀ f, y ≠ VaOut.closed f := fun y hy f => isStart_not_closed (h2 y hy) f
      have hun : ∀ g, usesAt H n g ≠ none → ∀ y ∈ o, touch y ≠ some g := by
        intro g hg y hy ht
        obtain ⟨fd, u, ty, d, p, t, j, rfl, rfl⟩ := isStart_touch (h2 y hy) ht
        exact hg (hk.connect _ _ _ hget _ _ _ _ _ _ _ hy)
      refine ⟨?_, ?_⟩
      · intro k fd hdr body ty l b hkn hkk hna
        by_cases hkn' : k = n
        · rw [hkn', hget] at hkk
          cases hkk
          exact absurd rfl (h3 _ _ _)
        · have := hi.pend k fd hdr body ty l b (by omega) hkk (hold k hna)
          rw [hstep]
          unfold useStep
          dsimp only
          rw [hue, fold_untouched _ (hun _ (by rw [this]; simp))]
          exact this
      · intro i hii hpid hfd
        rw [hstep]
        unfold useStep
        dsimp only
        rw [hue]
        rcases h1 i with e | e | e
        · rw [e] at hpid hfd ⊢
          exact fold_keep hnc _ (hi.conn i hii hpid hfd)
        · exact absurd e hfd
        · exact fold_opened hnc _ e
    -- an answer: only the descriptor of the request changes
    have answer : ∀ (fd : Nat) (ident : Wire), answerOf e = some ident → usesAt H n fd = some (.request (ans n)) →
        (o = [.closed fd] ∧ s' = s ∨ ∃ d p, o = [.toClient fd d p] ∧ s' = vaRegister s (-1) fd d p) → UseInv H ans (n + 1) s' := by
      intro fd ident ha hu ho
      have hue : useEvent n (usesAt H n) e = usesAt H n := by
        cases e <;> first | rfl | cases ha
      have hto : ∀ g : Int, g ≠ (fd : Int) → ∀ y ∈ o, touch y ≠ some g := by
        intro g hg y hy ht
        rcases ho with ⟨rfl, _⟩ | ⟨d, p, rfl, _⟩ <;> (rw [List.mem_singleton] at hy; subst hy; cases ht; exact hg rfl)
      refine ⟨?_, ?_⟩
      · intro k fd' hdr body ty l b hkn hkk hna
        by_cases hkn' : k = n
        · rw [hkn', hget] at hkk
          cases hkk
          cases ha
        · have h1 := hi.pend k fd' hdr body ty l b (by omega) hkk (hold k hna)
          have hne : (fd' : Int) ≠ fd := by
            intro he
            rw [he, hu] at h1
            cases h1
            exact hna n e o (by omega) hget (by rw [ha]; simp) rfl
          rw [hstep]
          unfold useStep
          dsimp only
          rw [hue, fold_untouched _ (hto _ hne)]
          exact h1
      · intro i hii hpid hfd
        rw [hstep]
        unfold useStep
        dsimp only
        rw [hue]
        have same : (s.conns i).pid ≠ 0 → (s.conns i).fd ≠ -1 → o.foldl useOut (usesAt H n) (s.conns i).fd = some .connection := by
          intro hp' hf'
          have h1 := hi.conn i hii hp' hf'
          rw [fold_untouched _ (hto _ (by intro he; rw [he, hu] at h1; cases h1))]
          exact h1
        rcases ho with ⟨_, rfl⟩ | ⟨d, p, rfl, rfl⟩
        · exact same hpid hfd
        · rcases vaRegister_conns s (-1) fd d p i with e | ⟨_, e, _⟩
          · rw [e] at hpid hfd ⊢
            exact same hpid hfd
          · rw [e]
            exact if_pos rfl
    cases e with
    | unknown => cases hs
    | refused ident =>
      cases hs
      obtain ⟨fd, hdr, body, ty, l, b, rest, h1, h2, h3, h4⟩ := answer_request hR hk hd hi hget rfl
      refine answer fd ident rfl h4 (Or.inl ⟨?_, rfl⟩)
      rw [h3]
      exact C69_refused h2 rest
    | exec type d p body t session =>
      simp only [vaStep] at hs
      split at hs
      · cases hs
      split at hs
      · cases hs
      simp only [Option.some.injEq] at hs
      by_cases hc : type = msgConnect
      · obtain ⟨fd, hdr, bd, ty, l, b, rest, h1, h2, h3, h4⟩ := answer_request hR hk hd hi hget (if_pos hc)
        have hbad : t.badFd = false := by
          cases hbb : t.badFd with
          | false => rfl
          | true =>
            have := hk.valid _ _ _ _ _ _ _ _ hget hbb fd (by
              rw [h3, cString_nul (ident_text h2).1, C69_roundtrip h2])
            rw [h4] at this
            cases this
        rw [hc, h3] at hs
        have := C69_connect (load := load) s h2 rest d p t session hbad
        have hs := this.symm.trans hs
        cases hs
        exact answer fd body (if_pos hc) h4 (Or.inr ⟨d, p, rfl, rfl⟩)
      · obtain ⟨h1, h2⟩ := start_slots hc hs
        exact starts h1 h2 (fun _ _ _ => by simp)
    | childExit pid tries =>
      simp only [vaStep, Option.some.injEq] at hs
      unfold vaReap at hs
      split at hs
      · obtain ⟨h1, h2⟩ := vaFlush_slots tries (List.range maxClients) s (by
          intro i j hj
          rw [hva.wait i] at hj
          exact hva.kind j (List.mem_of_getElem? hj))
        generalize vaFlush tries (List.range maxClients) s = r at hs h1 h2
        cases hs
        exact starts h1 h2 (fun _ _ _ => by simp)
      · split at hs
        · cases hs
          exact starts (fun i => Or.inl rfl) (fun y hy => by cases hy) (fun _ _ _ => by simp)
        · rename_i k _
          unfold vaRelease at hs
          cases hs
          have hfold : ∀ g, usesAt H (n + 1) g = usesAt H n g := by
            intro g; rw [hstep]; rfl
          refine ⟨?_, ?_⟩
          · intro k' fd hdr body ty l b hkn hkk hna
            by_cases hkn' : k' = n
            · rw [hkn', hget] at hkk; cases hkk
            · rw [hfold]
              exact hi.pend k' fd hdr body ty l b (by omega) hkk (hold k' hna)
          · intro i hii hpid hfd
            rw [hfold]
            by_cases hik : i = k
            · exfalso
              apply hpid
              dsimp only
              rw [hik, put_same]
            · dsimp only at hpid hfd ⊢
              rw [put_other _ _ hik] at hpid hfd ⊢
              exact hi.conn i hii hpid hfd
    | poll ready =>
      simp only [vaStep, Option.some.injEq] at hs
      have hcl := vaPoll_closed ready (List.range maxClients) s List.nodup_range
      have hcn := vaPoll_conns ready (List.range maxClients) s List.nodup_range
      generalize vaPoll ready (List.range maxClients) s = r at hs hcl hcn
      cases hs
      refine ⟨?_, ?_⟩
      · intro k fd hdr body ty l b hkn hkk hna
        by_cases hkn' : k = n
        · rw [hkn', hget] at hkk; cases hkk
        · have h1 := hi.pend k fd hdr body ty l b (by omega) hkk (hold k hna)
          rw [hstep]
          refine (fold_untouched _ ?_).trans h1
          intro y hy ht
          obtain ⟨i, him, hp1, hp2, _, hp4⟩ := hcl y hy _ ht
          have := hi.conn i (List.mem_range.1 him) hp1 hp2
          rw [hp4, h1] at this
          cases this
      · intro i hii hpid hfd
        have hci := hcn i
        by_cases hc : i ∈ List.range maxClients ∧ (s.conns i).pid ≠ 0 ∧ (s.conns i).fd ≠ -1 ∧ (s.conns i).fd ∈ ready
        · rw [if_pos hc] at hci
          rw [hci] at hpid
          exact absurd rfl hpid
        · rw [if_neg hc] at hci
          rw [hci] at hpid hfd ⊢
          have h1 := hi.conn i hii hpid hfd
          rw [hstep]
          refine (fold_untouched _ ?_).trans h1
          intro y hy ht
          obtain ⟨i', _, _, _, hp3, hp4⟩ := hcl y hy _ ht
          rw [hp4] at hp3
          exact hc ⟨List.mem_range.2 hii, hpid, hfd, hp3⟩
    | trigger fd hdr body =>
      simp only [vaStep, Option.some.injEq, Prod.mk.injEq] at hs
      obtain ⟨rfl, ho⟩ := hs
      have hfree := (hk.accept _ _ _ _ _ hget).1
      have hoc : o = [.closed fd] ∨ ∃ t l b, o = [.forward t l b] := by
        rw [← ho]
        unfold vaTrigger
        split
        · exact Or.inl rfl
        · split
          · exact Or.inl rfl
          · split
            · exact Or.inl rfl
            · exact Or.inr ⟨_, _, _, rfl⟩
      have hother : ∀ g : Int, g ≠ (fd : Int) → usesAt H (n + 1) g = usesAt H n g := by
        intro g hg
        rw [hstep]
        rcases hoc with rfl | ⟨t, l, b, rfl⟩
        · exact (if_neg hg).trans (if_neg hg)
        · exact if_neg hg
      refine ⟨?_, ?_⟩
      · intro k fd' hdr' body' ty l b hkn hkk hna
        by_cases hkn' : k = n
        · rw [hkn', hget] at hkk
          cases hkk
          rw [hstep, hkn']
          exact if_pos rfl
        · have h1 := hi.pend k fd' hdr' body' ty l b (by omega) hkk (hold k hna)
          rw [hother _ (by intro he; rw [he, hfree] at h1; cases h1)]
          exact h1
      · intro i hii hpid hfd
        have h1 := hi.conn i hii hpid hfd
        rw [hother _ (by intro he; rw [he, hfree] at h1; cases h1)]
        exact h1

/-- **C69.** Whatever the order of events: the answer of the daemon to a request reaches the client that made it.  When the
answer comes, the descriptor named in it has not been closed and reused for anything else; a refusal closes it, and the
details of a connection are written to it. -/
theorem C69_right_client {load : RpcService → Option SvcConf} {h : VaHistory} {s : VaState} (hr : VaRun load h s)
    {ans : Nat → Nat} (hk : KernelOk h) (hd : DaemonOk h ans) {n : Nat} {e : VaEv} {o : List VaOut}
    (hn : h[n]? = some (e, o)) (ha : answerOf e ≠ none) :
    ∃ (fd : Nat) (hdr : Option (Nat × Nat)) (body : Option Wire) (ty l : Nat) (b : Wire),
      h[ans n]? = some (VaEv.trigger fd hdr body, [VaOut.forward ty l b]) ∧ usesAt h n fd = some (.request (ans n)) ∧
      ((∃ ident, e = .refused ident) → o = [.closed fd]) ∧
      (∀ type d p body t ses, e = .exec type d p body t ses → o = [.toClient fd d p]) := by
  obtain ⟨ident, ha⟩ := Option.ne_none_iff_exists'.1 ha
  obtain ⟨hlt, hx⟩ := List.getElem?_eq_some_iff.1 hn
  have hsplit : h = h.take n ++ (e, o) :: h.drop (n + 1) := by
    rw [← hx, List.getElem_cons_drop, List.take_append_drop]
  obtain ⟨s0, s1, h1, h2, h3⟩ := va_prefix hr _ _ _ _ hsplit
  have hlen : (h.take n).length = n := by rw [List.length_take]; omega
  have hi := use_inv hr hk hd h1 (List.take_prefix _ _)
  rw [hlen] at hi
  obtain ⟨fd, hdr, body, ty, l, b, rest, g1, g2, g3, g4⟩ := answer_request hr hk hd hi hn ha
  refine ⟨fd, hdr, body, ty, l, b, g1, g4, ?_, ?_⟩
  · rintro ⟨id', rfl⟩
    cases h3
    cases ha
    rw [g3]
    exact C69_refused g2 rest
  · rintro type d p bd t ses rfl
    have hc : type = msgConnect := by
      by_contra hc
      have : answerOf (.exec type d p bd t ses) = none := if_neg hc
      rw [this] at ha; cases ha
    have hbd : bd = ident := by
      have : answerOf (.exec type d p bd t ses) = some bd := if_pos hc
      rw [this] at ha; cases ha; rfl
    have hbad : t.badFd = false := by
      cases hbb : t.badFd with
      | false => rfl
      | true =>
        have := hk.valid _ _ _ _ _ _ _ _ hn hbb fd (by
          rw [hbd, g3, cString_nul (ident_text g2).1, C69_roundtrip g2])
        rw [g4] at this
        cases this
    simp only [vaStep] at h3
    split at h3
    · cases h3
    split at h3
    · cases h3
    simp only [Option.some.injEq] at h3
    rw [hc, hbd, g3] at h3
    have := C69_connect (load := load) s0 g2 rest d p t ses hbad
    have h3 := this.symm.trans h3
    cases h3
    rfl

/-- The request of a client. -/
def exampleBody : Wire := List.replicate 160 '\x00' ++ c!"a.B\x00"

/-- Two clients ask, the second is refused, the first is connected; then a third gets the descriptor of the second. -/
def exampleClients : VaHistory :=
  [(.trigger 7 (some (0x213, 164)) (some exampleBody), [.forward 0x213 164 (putIdent 7 exampleBody)]),
   (.trigger 8 (some (0x213, 164)) (some exampleBody), [.forward 0x213 164 (putIdent 8 exampleBody)]),
   (.refused (((putIdent 8 exampleBody).drop 128).take 32), [.closed 8]),
   (.exec 0x202 5 513 (((putIdent 7 exampleBody).drop 128).take 32) {} none, [.toClient 7 5 513]),
   (.trigger 8 (some (0x213, 164)) (some exampleBody), [.forward 0x213 164 (putIdent 8 exampleBody)])]

/-- Event 2 answers request 1 and event 3 answers request 0. -/
def exampleAns : Nat → Nat := fun n => 3 - n

set_option maxRecDepth 20000 in
/-- The hypotheses of `C69_right_client` are met. -/
example : (∃ s, VaRun exampleLoad exampleClients s) ∧ KernelOk exampleClients ∧ DaemonOk exampleClients exampleAns := by
  have idx : ∀ n x, exampleClients[n]? = some x → n = 0 ∨ n = 1 ∨ n = 2 ∨ n = 3 ∨ n = 4 := by
    intro n x h
    have := (List.getElem?_eq_some_iff.1 h).1
    have hl : exampleClients.length = 5 := rfl
    omega
  refine ⟨⟨_, VaRun.step (tr := [_, _, _, _]) (VaRun.step (tr := [_, _, _]) (VaRun.step (tr := [_, _])
    (VaRun.step (tr := [_]) (VaRun.step (tr := []) VaRun.start trivial rfl) trivial rfl) trivial rfl)
      ⟨fresh_none _, fresh_none _, fun p h => by cases h⟩ rfl) trivial rfl⟩, ⟨?_, ?_, ?_, ?_⟩, ⟨?_, ?_⟩⟩
  · intro n fd hdr body o h
    rcases idx n _ h with rfl | rfl | rfl | rfl | rfl <;> cases h <;> exact ⟨rfl, by decide⟩
  · intro n fd t l b o h
    rcases idx n _ h with rfl | rfl | rfl | rfl | rfl <;> cases h <;> rfl
  · intro n e o h fd u ty d p t j hm
    rcases idx n _ h with rfl | rfl | rfl | rfl | rfl <;> cases h <;> simp at hm
  · intro n ty d p body t ses o h hb
    rcases idx n _ h with rfl | rfl | rfl | rfl | rfl <;> cases h <;> cases hb
  · intro n e o ident h ha
    rcases idx n _ h with rfl | rfl | rfl | rfl | rfl <;> cases h <;> cases ha
    · exact ⟨by decide, 8, _, _, _, _, _, rfl, rfl⟩
    · exact ⟨by decide, 7, _, _, _, _, _, rfl, rfl⟩
  · intro n m e e' o o' h h' ha ha' heq
    rcases idx n _ h with rfl | rfl | rfl | rfl | rfl <;> rcases idx m _ h' with rfl | rfl | rfl | rfl | rfl <;>
      first
      | rfl
      | (exfalso; revert heq; decide)
      | (cases h; exact absurd rfl ha)
      | (cases h'; exact absurd rfl ha')

/-- **C69, a finding.** A refusal with an identifier that ends early (the daemon never sends one) makes the agent close the
descriptor that an uninitialised variable happens to contain: `sscanf` returns -1, which is not 0. -/
theorem C69_early_end : vaRefused (List.replicate 32 '\x00') = [.closedGarbage] ∧
    vaRefused (c!"SOCK" ++ List.replicate 28 '\x00') = [.closedGarbage] := by decide

/-! ## What is run (C68) -/

/-- **C68, the command.** A request carries its own type, domain and port. Its text is a command for a user: a service is run
as the user its configuration forces, otherwise as the user of the text, with the options of the configuration; a service
whose configuration cannot be read is not run at all. -/
theorem C68_command (load : RpcService → Option SvcConf) (type d p : Nat) (line : Str) (hn : '\x00' ∉ line) (ht : type ≠ 0x202)
    (c : RpcCmd) (conf : SvcConf) :
    (vaJob load type d p (line ++ ['\x00'])).type = type ∧ (vaJob load type d p (line ++ ['\x00'])).domain = d ∧
    (vaJob load type d p (line ++ ['\x00'])).port = p ∧ (vaJob load type d p (line ++ ['\x00'])).cmdline = line ∧
    ((vaJob load type d p (line ++ ['\x00'])).cmd = some (c, conf) ↔
      ∃ c0, CommandText true line c0 ∧
        (c0.service = none ∧ c = c0 ∧ conf = {} ∨
         ∃ sv, c0.service = some sv ∧ load sv = some conf ∧ c.service = some sv ∧ c.command = c0.command ∧ c.nogui = c0.nogui ∧
           c.username = conf.user.or c0.username)) := by
  have hl : cString (ensureNul (line ++ ['\x00'])) = line := by
    unfold ensureNul
    rw [List.length_append, List.length_singleton, Nat.add_sub_cancel, List.take_left]
    exact cString_nul (rest := []) hn
  unfold vaJob
  dsimp only
  rw [hl, if_neg (show ¬ type = msgConnect from ht)]
  refine ⟨rfl, rfl, rfl, rfl, ?_⟩
  unfold vaParse
  cases hp : parseRpcCommand true line with
  | none =>
    refine iff_of_false (by simp) ?_
    rintro ⟨c0, h, _⟩
    rw [(C50_parse true line c0).2 h] at hp
    cases hp
  | some c1 =>
    have huniq : ∀ c0, CommandText true line c0 → c0 = c1 := by
      intro c0 h
      have := (C50_parse true line c0).2 h
      rw [hp] at this
      cases this; rfl
    have h1 := (C50_parse true line c1).1 hp
    dsimp only
    cases hs : c1.service with
    | none =>
      dsimp only
      constructor
      · intro h; cases h; exact ⟨_, h1, .inl ⟨hs, rfl, rfl⟩⟩
      · rintro ⟨c0, h0, ⟨_, rfl, rfl⟩ | ⟨sv, e, _⟩⟩
        · rw [huniq _ h0]
        · rw [huniq _ h0, hs] at e; cases e
    | some sv =>
      dsimp only
      cases hload : load sv with
      | none =>
        refine iff_of_false (by simp) ?_
        rintro ⟨c0, h0, ⟨e, _⟩ | ⟨sv', e, e2, _⟩⟩
        · rw [huniq _ h0, hs] at e; cases e
        · rw [huniq _ h0, hs] at e; cases e; rw [hload] at e2; cases e2
      | some cf =>
        have hu : (match cf.user with | some u => some u | none => c1.username) = cf.user.or c1.username := by
          cases cf.user <;> rfl
        constructor
        · intro h
          cases h
          exact ⟨c1, h1, .inr ⟨sv, hs, hload, rfl, rfl, rfl, hu⟩⟩
        · rintro ⟨c0, h0, ⟨e, _⟩ | ⟨sv', e, e2, e3, e4, e5, e6⟩⟩
          · rw [huniq _ h0, hs] at e; cases e
          · have := huniq _ h0
            subst this
            rw [hs] at e
            cases e
            rw [hload] at e2
            cases e2
            obtain ⟨cu, cn, cc, cs⟩ := c
            dsimp only at e3 e4 e5 e6
            subst e3 e4 e5 e6
            dsimp only
            cases conf.user <;> rfl

example : (vaJob (fun _ => some { user := some c!"root" }) 0x200 1 513 (c!"user:QUBESRPC my.Svc+a work" ++ ['\x00'])).cmd =
    some (⟨some c!"root", false, c!"my.Svc+a work", some ⟨c!"my.Svc+a", c!"my.Svc", some c!"a", c!"work"⟩⟩, { user := some c!"root" }) := by
  decide

end Qrexec
