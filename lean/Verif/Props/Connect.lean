import Verif.Spec.Connect
import Verif.Props.ServiceFind
import Verif.Props.SockDir

/-!
# C97: calls of socket services connect to the socket of the service, and leave nothing behind
-/
namespace Qrexec
open Spec

theorem connectLoop_true (cs : List ConnCall) (n : Nat) : connectLoop cs = (n, some true) ↔ ∃ k, n = k + 1 ∧ Attempts cs k .ok := by
  induction cs generalizing n with
  | nil => simp [connectLoop, Attempts]
  | cons c cs ih =>
    cases c with
    | ok =>
      simp only [connectLoop, Attempts]
      constructor
      · intro h; cases h; exact ⟨0, rfl, by simp, cs, rfl⟩
      · rintro ⟨k, rfl, _, rest, e⟩
        cases k with
        | zero => rfl
        | succ k => rw [List.replicate_succ] at e; cases e
    | failed =>
      simp only [connectLoop, Attempts]
      constructor
      · intro h; cases h
      · rintro ⟨k, rfl, _, rest, e⟩
        cases k with
        | zero => cases e
        | succ k => rw [List.replicate_succ] at e; cases e
    | again =>
      rw [connectLoop]
      constructor
      · intro h
        obtain ⟨h1, h2⟩ := Prod.mk.inj h
        obtain ⟨k, e, a, rest, b⟩ := (ih (connectLoop cs).1).1 (by rw [← h2])
        exact ⟨k + 1, by omega, a, rest, by rw [List.replicate_succ, b]; rfl⟩
      · rintro ⟨k, rfl, a, rest, e⟩
        cases k with
        | zero => cases e
        | succ k =>
          rw [List.replicate_succ] at e
          have e' : cs = List.replicate k .again ++ .ok :: rest := (List.cons.inj e).2
          rw [(ih (k + 1)).2 ⟨k, rfl, a, rest, e'⟩]

theorem connectLoop_false (cs : List ConnCall) (n : Nat) :
    connectLoop cs = (n, some false) ↔ ∃ k, n = k + 1 ∧ Attempts cs k .failed := by
  induction cs generalizing n with
  | nil => simp [connectLoop, Attempts]
  | cons c cs ih =>
    cases c with
    | failed =>
      simp only [connectLoop, Attempts]
      constructor
      · intro h; cases h; exact ⟨0, rfl, by simp, cs, rfl⟩
      · rintro ⟨k, rfl, _, rest, e⟩
        cases k with
        | zero => rfl
        | succ k => rw [List.replicate_succ] at e; cases e
    | ok =>
      simp only [connectLoop, Attempts]
      constructor
      · intro h; cases h
      · rintro ⟨k, rfl, _, rest, e⟩
        cases k with
        | zero => cases e
        | succ k => rw [List.replicate_succ] at e; cases e
    | again =>
      rw [connectLoop]
      constructor
      · intro h
        obtain ⟨h1, h2⟩ := Prod.mk.inj h
        obtain ⟨k, e, a, rest, b⟩ := (ih (connectLoop cs).1).1 (by rw [← h2])
        exact ⟨k + 1, by omega, a, rest, by rw [List.replicate_succ, b]; rfl⟩
      · rintro ⟨k, rfl, a, rest, e⟩
        cases k with
        | zero => cases e
        | succ k =>
          rw [List.replicate_succ] at e
          have e' : cs = List.replicate k .again ++ .failed :: rest := (List.cons.inj e).2
          rw [(ih (k + 1)).2 ⟨k, rfl, a, rest, e'⟩]

theorem tmpLink_ne_dir (x : Str) : tmpLink x ≠ tmpDir x := by
  intro h
  have := congrArg List.length h
  simp [tmpLink] at this

theorem tmpClean_back (x : Str) (fs fs2 : TmpFs) (h : FreshTmp fs x)
    (hs : ∀ p, p ≠ tmpLink x → p ≠ tmpDir x → fs2 p = fs p) : tmpClean x fs2 = fs := by
  funext p
  unfold tmpClean
  by_cases h1 : p = tmpDir x
  · subst h1
    rw [upd_same]
    exact (h.2 _ (List.prefix_refl _)).symm
  · rw [upd_other h1]
    by_cases h2 : p = tmpLink x
    · subst h2
      rw [upd_same]
      exact (h.2 _ (List.prefix_append _ _)).symm
    · rw [upd_other h2]
      exact hs p h2 h1

/-- **C97, where it connects to.** Whatever the path of the socket (from the root) and whatever fails: each call of `connect` gets
an address that fits into the structure with its terminating zero and leads to exactly this path, and afterwards the file system
is as before: nothing is left in `/tmp`, nothing else has been removed or changed. -/
theorem C97_leads (e : ConnEnv) (fs : TmpFs) (path : Str) (hp : Absolute path) (hx : ∀ x, e.tmp = some x → FreshTmp fs x) :
    (∀ a ∈ (qubesConnect e fs path).tried, a.1.length < 108 ∧ LeadsTo a.2 a.1 path) ∧ (qubesConnect e fs path).fs = fs := by
  unfold qubesConnect
  by_cases hl : sunPathSize ≤ path.length
  · rw [if_pos hl]
    cases hx' : e.tmp with
    | none => exact ⟨fun a ha => (by cases ha), rfl⟩
    | some x =>
      have hf := hx x hx'
      dsimp only
      by_cases ho : (!e.linkOk) = true
      · rw [if_pos ho]
        exact ⟨fun a ha => (by cases ha), tmpClean_back x fs _ hf (fun p _ h2 => upd_other h2)⟩
      · rw [if_neg ho]
        refine ⟨fun a ha => ?_, tmpClean_back x fs _ hf (fun p h1 h2 => ?_)⟩
        · rw [List.eq_of_mem_replicate ha]
          refine ⟨?_, .inr ⟨upd_same _ _ _, hp⟩⟩
          have := hf.1
          simp only [tmpLink, tmpDir, List.length_append]
          have e1 : (c!"/tmp/qrexec-" : Str).length = 12 := by decide
          have e2 : (c!"/qrexec-socket" : Str).length = 14 := by decide
          omega
        · rw [upd_other h1, upd_other h2]
  · rw [if_neg hl]
    refine ⟨fun a ha => ?_, rfl⟩
    rw [List.eq_of_mem_replicate ha]
    exact ⟨by unfold sunPathSize at hl; simpa using hl, .inl rfl⟩

/-- **C97, the result.** It reports success exactly if a call of `connect` succeeded, after any number that were interrupted or
would have blocked; it reports a failure exactly if the temporary directory or link cannot be made (paths of 108 bytes and more
only) or a call of `connect` failed otherwise. -/
theorem C97_result (e : ConnEnv) (fs : TmpFs) (path : Str) :
    ((qubesConnect e fs path).res = some true ↔
      (path.length < 108 ∨ e.tmp ≠ none ∧ e.linkOk = true) ∧ ∃ n, Attempts e.calls n .ok) ∧
    ((qubesConnect e fs path).res = some false ↔
      108 ≤ path.length ∧ (e.tmp = none ∨ e.linkOk = false) ∨
      (path.length < 108 ∨ e.tmp ≠ none ∧ e.linkOk = true) ∧ ∃ n, Attempts e.calls n .failed) := by
  have ht : (connectLoop e.calls).2 = some true ↔ ∃ n, Attempts e.calls n .ok := by
    constructor
    · intro h
      obtain ⟨k, _, a⟩ := (connectLoop_true e.calls (connectLoop e.calls).1).1 (by rw [← h])
      exact ⟨k, a⟩
    · rintro ⟨k, a⟩
      rw [(connectLoop_true e.calls (k + 1)).2 ⟨k, rfl, a⟩]
  have hf : (connectLoop e.calls).2 = some false ↔ ∃ n, Attempts e.calls n .failed := by
    constructor
    · intro h
      obtain ⟨k, _, a⟩ := (connectLoop_false e.calls (connectLoop e.calls).1).1 (by rw [← h])
      exact ⟨k, a⟩
    · rintro ⟨k, a⟩
      rw [(connectLoop_false e.calls (k + 1)).2 ⟨k, rfl, a⟩]
  unfold qubesConnect sunPathSize
  by_cases hl : 108 ≤ path.length
  · have hl' : ¬ path.length < 108 := by omega
    rw [if_pos hl]
    cases hx : e.tmp with
    | none => simp [hl]
    | some x =>
      dsimp only
      cases ho : e.linkOk with
      | false => simp [hl]
      | true => simp [ht, hf, hl]
  · have hl' : path.length < 108 := by omega
    rw [if_neg hl]
    simp [ht, hf, hl']

/-- **C97, the descriptor.** When it is over, the socket is open exactly if it is handed to the caller, and that is exactly if it
is connected. -/
theorem C97_descriptor (sock : Option Nat) (e : ConnEnv) (fs : TmpFs) (path : Str)
    (hd : (unixService sock e fs path).2.2.res ≠ none) :
    openFds (unixService sock e fs path).2.1 = (unixService sock e fs path).1.toList ∧
    ((unixService sock e fs path).1 ≠ none ↔ sock ≠ none ∧ (qubesConnect e fs path).res = some true) := by
  have conn : ∀ (fd : Nat) (l : List (Str × TmpFs)) (s : List Nat),
      (l.map (fun t => NetEv.connect fd t.1)).foldl fdStep s = s := by
    intro fd l s
    induction l with
    | nil => rfl
    | cons a l ih => exact ih
  unfold unixService at hd ⊢
  cases sock with
  | none => exact ⟨rfl, by simp⟩
  | some fd =>
    dsimp only at hd ⊢
    cases hr : (qubesConnect e fs path).res with
    | none => rw [hr] at hd; exact absurd hr hd
    | some b =>
      cases b with
      | true =>
        refine ⟨?_, by simp⟩
        show openFds (_ :: _) = [fd]
        unfold openFds
        rw [List.foldl_cons, conn]
        rfl
      | false =>
        refine ⟨?_, by simp⟩
        show openFds (_ :: _ ++ _) = []
        unfold openFds
        rw [List.cons_append, List.foldl_cons, List.foldl_append, conn]
        simp [fdStep]

/-- **C97, TCP services.** No name is ever looked up: host and port are taken as numbers, and a host with a colon or a percent
sign as an IPv6 address; the only connection made is to the address they denote, with a port from 1 to 65535; and the socket is
open afterwards exactly if it is handed to the caller, connected. -/
theorem C97_tcp (e : TcpEnv) (host port : Str) :
    (∀ h p v n s, .lookup h p v n s ∈ (tcpConnect e host port).2 →
      h = host ∧ p = port ∧ n = true ∧ s = true ∧ (v = true ↔ ':' ∈ host ∨ '%' ∈ host)) ∧
    (∀ fd a, .connect fd a ∈ (tcpConnect e host port).2 →
      IsPort port ∧ ∃ v, e.lookup host port v = some a ∧ (v = true ↔ ':' ∈ host ∨ '%' ∈ host)) ∧
    openFds (tcpConnect e host port).2 = (tcpConnect e host port).1.toList ∧
    ((tcpConnect e host port).1 ≠ none ↔ e.connects = true ∧ ∃ fd a, .connect fd a ∈ (tcpConnect e host port).2) := by
  have hv : (host.contains ':' || host.contains '%') = true ↔ ':' ∈ host ∨ '%' ∈ host := by simp
  unfold tcpConnect
  by_cases h1 : validatePort port = true
  · have hp := (C65_port port).1 h1
    rw [if_neg (by rw [h1]; decide)]
    dsimp only
    generalize (host.contains ':' || host.contains '%') = v at hv ⊢
    have lk : ∀ (l : List NetEv), (∀ h p v n s, NetEv.lookup h p v n s ∉ l) → ∀ h p v' n s,
        .lookup h p v' n s ∈ NetEv.lookup host port v true true :: l →
        h = host ∧ p = port ∧ n = true ∧ s = true ∧ (v' = true ↔ ':' ∈ host ∨ '%' ∈ host) := by
      intro l hl h p v' n s hm
      rcases List.mem_cons.1 hm with hm | hm
      · cases hm; exact ⟨rfl, rfl, rfl, rfl, hv⟩
      · exact absurd hm (hl _ _ _ _ _)
    cases h2 : e.lookup host port v with
    | none => exact ⟨lk [] (by simp), by simp, rfl, by simp⟩
    | some addr =>
      dsimp only
      cases h3 : e.sock with
      | none => exact ⟨lk [] (by simp), by simp, rfl, by simp⟩
      | some fd =>
        dsimp only
        cases h4 : e.connects with
        | true =>
          refine ⟨lk _ (by simp), ?_, rfl, ?_⟩
          · intro fd' a hm
            simp at hm
            exact ⟨hp, v, by rw [h2, hm.2], hv⟩
          · exact ⟨fun _ => ⟨rfl, fd, addr, by simp⟩, by simp⟩
        | false =>
          refine ⟨lk _ (by simp), ?_, ?_, ?_⟩
          · intro fd' a hm
            simp at hm
            exact ⟨hp, v, by rw [h2, hm.2], hv⟩
          · simp [openFds, fdStep]
          · simp
  · have h1' : validatePort port = false := by simpa using h1
    rw [h1']
    exact ⟨by simp, by simp, rfl, by simp⟩

/-! ## A relative path, and examples -/

/-- **A relative path of a socket does not work through the link**: with `QREXEC_SERVICE_PATH` naming a relative directory and a
long service name, the address is a link that does not lead to the socket. -/
theorem C97_relative_gap (e : ConnEnv) (fs : TmpFs) (path x : Str) (hl : 108 ≤ path.length) (hp : ¬ Absolute path) (hx : e.tmp = some x)
    (ho : e.linkOk = true) (h : tmpLink x ≠ path) : ∀ a ∈ (qubesConnect e fs path).tried, ¬ LeadsTo a.2 a.1 path := by
  intro a ha
  unfold qubesConnect sunPathSize at ha
  rw [if_pos hl, hx] at ha
  dsimp only at ha
  rw [ho, if_neg (by decide)] at ha
  rw [List.eq_of_mem_replicate ha]
  rintro (h1 | ⟨_, h1⟩)
  · exact h h1
  · exact hp h1

/-- An empty `/tmp`, a path of 120 bytes; interrupted once. -/
def exLongPath : Str := c!"/etc/qubes-rpc/" ++ List.replicate 105 'a'
def exConnEnv : ConnEnv := { tmp := some c!"Ab12Cd", calls := [.again, .ok] }

example : Absolute exLongPath ∧ exLongPath.length = 120 ∧ FreshTmp (fun _ => none) c!"Ab12Cd" ∧
    (qubesConnect exConnEnv (fun _ => none) exLongPath).res = some true ∧
    (qubesConnect exConnEnv (fun _ => none) exLongPath).tried.map Prod.fst =
      [c!"/tmp/qrexec-Ab12Cd/qrexec-socket", c!"/tmp/qrexec-Ab12Cd/qrexec-socket"] := by
  refine ⟨⟨_, rfl⟩, by decide, ⟨by decide, fun _ _ => rfl⟩, by decide, by decide⟩

example : Attempts exConnEnv.calls 1 .ok := ⟨by decide, [], rfl⟩

example : tcpConnect { lookup := fun _ _ _ => some c!"ADDR", sock := some 5, connects := false } c!"::1" c!"80" =
    (none, [.lookup c!"::1" c!"80" true true true, .opened 5, .connect 5 c!"ADDR", .closed 5]) := by decide

end Qrexec
