import Verif.Model.ExecVm
import Verif.Props.Forward

/-! # C54, C61: starting a service in a qube -/
namespace Qrexec
open Spec

/-- qubesd reports success: a new disposable with this name. -/
def Created (uuid : Bool) (w : ExWorld) (name : Str) : Prop :=
  w.create = some (c!"0\x00" ++ name) ∧ name.length < 65533 ∧ '\x00' ∉ name ∧
    (uuid = true → name.length = 41 ∧ c!"uuid:" <+: name)

/-- qubesd reports that the qube runs. -/
def Started (w : ExWorld) : Prop :=
  ∃ rest, (w.start = some (c!"0\x00" ++ rest) ∨
      w.start = some (c!"2\x00QubesVMNotHaltedError\x00" ++ rest)) ∧ rest.length < 65000

/-- The same, of what the program checks. -/
def Started' (w : ExWorld) : Prop := ∃ b, qubesdReply w.start = some b ∧ startOk b = true

/-- Is it the end of a qube? -/
def isKill : ExAct → Bool
  | .kill _ => true
  | _ => false

theorem reply_started {w : ExWorld} (h : Started w) : Started' w := by
  unfold Started'
  obtain ⟨rest, h | h, hl⟩ := h
  · refine ⟨c!"0\x00" ++ rest, ?_, ?_⟩
    · rw [h]; unfold qubesdReply
      simp only
      rw [if_neg]
      simp only [Bool.or_eq_true, decide_eq_true_eq, Bool.not_eq_true', not_or, List.length_append,
        List.length_cons, List.length_nil]
      refine ⟨⟨by omega, by omega⟩, by simp⟩
    · unfold startOk replyOk
      rw [(startsWith_prefix _ _).2 ⟨rest, rfl⟩]; rfl
  · refine ⟨c!"2\x00QubesVMNotHaltedError\x00" ++ rest, ?_, ?_⟩
    · rw [h]; unfold qubesdReply
      simp only
      rw [if_neg]
      simp only [Bool.or_eq_true, decide_eq_true_eq, Bool.not_eq_true', not_or, List.length_append,
        List.length_cons, List.length_nil]
      refine ⟨⟨by omega, by omega⟩, by simp⟩
    · unfold startOk
      rw [(startsWith_prefix _ _).2 ⟨rest, rfl⟩]
      simp

theorem reply_created {uuid : Bool} {w : ExWorld} {name : Str} (h : Created uuid w name) :
    qubesdReply w.create = some (c!"0\x00" ++ name) ∧
      disposableName uuid (c!"0\x00" ++ name) = some name := by
  obtain ⟨h1, h2, h3, h4⟩ := h
  refine ⟨?_, ?_⟩
  · rw [h1]; unfold qubesdReply
    simp only
    rw [if_neg]
    simp only [Bool.or_eq_true, decide_eq_true_eq, Bool.not_eq_true', not_or, List.length_append,
      List.length_cons, List.length_nil]
    refine ⟨⟨by omega, by omega⟩, by simp⟩
  · unfold disposableName
    have hok : replyOk (c!"0\x00" ++ name) = true := (startsWith_prefix _ _).2 ⟨name, rfl⟩
    have hdrop : (c!"0\x00" ++ name).drop 2 = name := rfl
    have hnul : name.contains '\x00' = false := by simpa using h3
    have hlen : (c!"0\x00" ++ name).length = name.length + 2 := by simp
    rw [if_pos hok, hdrop, hnul, hlen]
    cases uuid with
    | false => rfl
    | true =>
      obtain ⟨h5, h6⟩ := h4 rfl
      rw [h5, (startsWith_prefix _ _).2 h6]
      rfl

/-- What a response that is accepted looks like. -/
theorem created_of_reply {uuid : Bool} {w : ExWorld} {b : Wire} {name : Str}
    (h : qubesdReply w.create = some b) (hn : disposableName uuid b = some name) :
    Created uuid w name := by
  unfold qubesdReply at h
  split at h
  · cases h
  · rename_i b' hb
    split at h
    · cases h
    · rename_i hc
      cases h
      simp only [Bool.or_eq_true, decide_eq_true_eq, not_or, Bool.not_eq_true'] at hc
      unfold disposableName at hn
      split_ifs at hn with h1 h2 h3 h4
      cases hn
      obtain ⟨rest, hr⟩ := (startsWith_prefix _ _).1 h1
      have hd : b.drop 2 = rest := by rw [← hr]; rfl
      have hl : b.length = rest.length + 2 := by rw [← hr]; simp
      rw [hd] at h2 h4 ⊢
      refine ⟨by rw [hb, ← hr], by omega, by simpa using h2, ?_⟩
      rintro rfl
      simp only [Bool.true_and, bne_iff_ne, ne_eq, Decidable.not_not, Bool.not_eq_true',
        Bool.not_eq_false] at h3 h4
      exact ⟨by omega, (startsWith_prefix _ _).1 h4⟩

theorem exKill_kills (d : Bool) (t : Str) (rc : Bool) :
    (exKill d t rc).1 = if d then [.kill t] else [] := rfl

/-- The end of a call for a disposable. -/
theorem exTalk_disposable (name : Str) (remote : Nat) (cmd : Wire) (ident : Str) (just : Bool)
    (w : ExWorld) (conn : Conn) :
    ∃ a, (exTalk true name remote cmd ident just true w conn).1 = a ++ [.kill name] ∧
      (∀ x ∈ a, isKill x = false) ∧
      (w.negotiate ≠ none → conn = .ok → ∃ a', a = a' ++ [.waitEnd]) := by
  unfold exTalk
  split
  · rename_i h
    refine ⟨[], rfl, by simp, fun _ hc => ?_⟩
    rw [hc] at h; simp at h
  · simp only
    cases hn : w.negotiate with
    | none => exact ⟨[_], rfl, by simp [isKill], fun h => absurd rfl h⟩
    | some p =>
      obtain ⟨dom, port⟩ := p
      simp only [if_true, exKill_kills]
      refine ⟨_, List.append_cons _ _ _, ?_, fun _ _ => ⟨_, rfl⟩⟩
      intro x hx
      simp only [List.mem_append, List.mem_cons, List.not_mem_nil, or_false] at hx
      rcases hx with ((rfl | rfl) | hx) | rfl
      · rfl
      · rfl
      · split at hx
        · simp only [List.mem_singleton] at hx; rw [hx]; rfl
        · simp at hx
      · rfl

theorem exTalk_mem {d : Bool} {t : Str} {remote : Nat} {cmd : Wire} {ident : Str} {just wait : Bool}
    {w : ExWorld} {conn : Conn} {x : ExAct} (h : x ∈ (exTalk d t remote cmd ident just wait w conn).1) :
    (d = true ∧ x = .kill t) ∨
    conn = .ok ∧ (x = .command (if just then msgJustExec else msgExec) remote cmd ∨
      ∃ dom port, w.negotiate = some (dom, port) ∧
        (x = .connectSource remote ∨ (w.source = true ∧ x = .serviceConnect dom port (identField ident)) ∨
          wait = true ∧ x = .waitEnd)) := by
  have hk : ∀ rc, x ∈ (exKill d t rc).1 → d = true ∧ x = .kill t := by
    intro rc hx
    rw [exKill_kills] at hx
    split at hx
    · rename_i hd; exact ⟨hd, by simpa using hx⟩
    · simp at hx
  unfold exTalk at h
  by_cases hconn : conn = .ok
  · simp only [hconn, bne_self_eq_false, Bool.false_eq_true, if_false] at h
    cases hn : w.negotiate with
    | none =>
      rw [hn] at h
      simp only [List.mem_cons] at h
      rcases h with h | h
      · exact Or.inr ⟨hconn, Or.inl h⟩
      · exact Or.inl (hk _ h)
    | some p =>
      obtain ⟨dom, port⟩ := p
      rw [hn] at h
      simp only at h
      have hb : ∀ y, y ∈ ([.command (if just then msgJustExec else msgExec) remote cmd, .connectSource remote] ++
          (if w.source then [ExAct.serviceConnect dom port (identField ident)] else [])) →
          y = .command (if just then msgJustExec else msgExec) remote cmd ∨ y = .connectSource remote ∨
            (w.source = true ∧ y = .serviceConnect dom port (identField ident)) := by
        intro y hy
        simp only [List.mem_append, List.mem_cons, List.not_mem_nil, or_false] at hy
        rcases hy with (rfl | rfl) | hy
        · exact Or.inl rfl
        · exact Or.inr (Or.inl rfl)
        · split at hy
          · rename_i hs; exact Or.inr (Or.inr ⟨hs, by simpa using hy⟩)
          · simp at hy
      split at h
      · rename_i hw
        simp only [List.mem_append, List.mem_cons (a := x) (b := ExAct.waitEnd)] at h
        rcases h with h | h | h
        · rcases hb x (by simpa [or_assoc] using h) with h | h | h
          · exact Or.inr ⟨hconn, Or.inl h⟩
          · exact Or.inr ⟨hconn, Or.inr ⟨dom, port, rfl, Or.inl h⟩⟩
          · exact Or.inr ⟨hconn, Or.inr ⟨dom, port, rfl, Or.inr (Or.inl h)⟩⟩
        · exact Or.inr ⟨hconn, Or.inr ⟨dom, port, rfl, Or.inr (Or.inr ⟨hw, h⟩)⟩⟩
        · exact Or.inl (hk _ h)
      · rcases hb x h with h | h | h
        · exact Or.inr ⟨hconn, Or.inl h⟩
        · exact Or.inr ⟨hconn, Or.inr ⟨dom, port, rfl, Or.inl h⟩⟩
        · exact Or.inr ⟨hconn, Or.inr ⟨dom, port, rfl, Or.inr (Or.inl h)⟩⟩
  · have : (conn != .ok) = true := by simpa using hconn
    rw [if_pos this] at h
    exact Or.inl (hk _ h)

/-- The ways through the middle part. -/
theorem exRun_cases (d : Bool) (t : Str) (autostart : Bool) (remote : Nat) (cmd : Wire) (ident : Str)
    (just wait : Bool) (w : ExWorld) :
    let first : List ExAct := if d then [] else [.connect t]
    ((d = true ∨ w.connect1 = .notRunning) ∧ autostart = true ∧
      (¬ Started' w ∧ exRun d t autostart remote cmd ident just wait w = (first ++ [.start t], false) ∨
       Started' w ∧ exRun d t autostart remote cmd ident just wait w =
        (first ++ [.start t, .connect t] ++ (exTalk d t remote cmd ident just wait w w.connect2).1,
          (exTalk d t remote cmd ident just wait w w.connect2).2))) ∨
    (¬ ((d = true ∨ w.connect1 = .notRunning) ∧ autostart = true) ∧
      exRun d t autostart remote cmd ident just wait w =
        (first ++ (exTalk d t remote cmd ident just wait w (if d then .notRunning else w.connect1)).1,
          (exTalk d t remote cmd ident just wait w (if d then .notRunning else w.connect1)).2)) := by
  intro first
  unfold exRun
  by_cases h : (d = true ∨ w.connect1 = .notRunning) ∧ autostart = true
  · left
    have hc : ((if d then Conn.notRunning else w.connect1) == .notRunning && autostart) = true := by
      obtain ⟨h1, h2⟩ := h
      rw [h2]
      cases d with
      | true => rfl
      | false =>
        rcases h1 with h1 | h1
        · cases h1
        · simp [h1]
    refine ⟨h.1, h.2, ?_⟩
    simp only [hc, if_true]
    unfold Started'
    cases hr : qubesdReply w.start with
    | none => left; exact ⟨by simp, rfl⟩
    | some b =>
      cases hb : startOk b with
      | true => right; refine ⟨⟨b, rfl, hb⟩, ?_⟩; simp only [hb, if_true]; rfl
      | false =>
        left
        refine ⟨?_, by simp only [hb, Bool.false_eq_true, if_false]; rfl⟩
        rintro ⟨b', h1, h2⟩; cases h1; rw [hb] at h2; cases h2
  · right
    refine ⟨h, ?_⟩
    have hc : ((if d then Conn.notRunning else w.connect1) == .notRunning && autostart) = false := by
      rw [Bool.eq_false_iff]
      intro hcon
      apply h
      simp only [Bool.and_eq_true, beq_iff_eq] at hcon
      cases d with
      | true => exact ⟨Or.inl rfl, hcon.2⟩
      | false => exact ⟨Or.inr hcon.1, hcon.2⟩
    simp only [hc, Bool.false_eq_true, if_false]
    rfl

theorem executeVm_cases (target : Str) (autostart : Bool) (remote : Nat) (cmd : Wire) (ident : Str)
    (just wait uuid : Bool) (w : ExWorld) :
    ((¬ (2 ≤ cmd.length ∧ cmd.length ≤ 65535) ∨ c!"@dispvm:" <+: target ∧ (autostart = false ∨ just = true)) ∧
      executeVm target autostart remote cmd ident just wait uuid w = ([], false)) ∨
    ((2 ≤ cmd.length ∧ cmd.length ≤ 65535) ∧ c!"@dispvm:" <+: target ∧ autostart = true ∧ just = false ∧
      ((¬ (∃ name, Created uuid w name) ∧
        executeVm target autostart remote cmd ident just wait uuid w =
          ([.create (target.drop 8) uuid], false)) ∨
       ∃ name, Created uuid w name ∧ executeVm target autostart remote cmd ident just wait uuid w =
          (.create (target.drop 8) uuid :: (exRun true name true remote cmd ident false true w).1,
            (exRun true name true remote cmd ident false true w).2))) ∨
    ((2 ≤ cmd.length ∧ cmd.length ≤ 65535) ∧ ¬ c!"@dispvm:" <+: target ∧
      executeVm target autostart remote cmd ident just wait uuid w =
        exRun false target autostart remote cmd ident just wait w) := by
  unfold executeVm
  by_cases h1 : 2 ≤ cmd.length ∧ cmd.length ≤ 65535
  · rw [if_neg (by simp only [Bool.or_eq_true, decide_eq_true_eq]; omega)]
    by_cases h2 : c!"@dispvm:" <+: target
    · rw [if_pos ((startsWith_prefix _ _).2 h2)]
      cases autostart with
      | false => left; exact ⟨Or.inr ⟨h2, Or.inl rfl⟩, rfl⟩
      | true =>
        cases just with
        | true => left; exact ⟨Or.inr ⟨h2, Or.inr rfl⟩, rfl⟩
        | false =>
          right; left
          refine ⟨h1, h2, rfl, rfl, ?_⟩
          simp only [Bool.not_true, Bool.false_eq_true, if_false]
          have hno : ∀ b, qubesdReply w.create = some b → disposableName uuid b = none →
              ¬ ∃ name, Created uuid w name := by
            rintro b hb hd ⟨name, hn⟩
            obtain ⟨n1, n2⟩ := reply_created hn
            rw [hb] at n1
            cases n1
            rw [hd] at n2; cases n2
          cases hr : qubesdReply w.create with
          | none =>
            left
            refine ⟨?_, rfl⟩
            rintro ⟨name, hn⟩
            rw [(reply_created hn).1] at hr; cases hr
          | some b =>
            cases hd : disposableName uuid b with
            | none => left; simp only [hd]; exact ⟨hno b hr hd, trivial⟩
            | some name => right; simp only [hd]; exact ⟨name, created_of_reply hr hd, rfl⟩
    · right; right
      refine ⟨h1, h2, ?_⟩
      rw [if_neg (fun h => h2 ((startsWith_prefix _ _).1 h))]
  · left
    refine ⟨Or.inl h1, ?_⟩
    rw [if_pos]
    simp only [Bool.or_eq_true, decide_eq_true_eq]; omega

/-- Every action of the middle part. -/
theorem exRun_mem {d : Bool} {t : Str} {autostart : Bool} {remote : Nat} {cmd : Wire} {ident : Str}
    {just wait : Bool} {w : ExWorld} {x : ExAct} (h : x ∈ (exRun d t autostart remote cmd ident just wait w).1) :
    x = .connect t ∨
    (x = .start t ∧ autostart = true ∧ (d = true ∨ w.connect1 = .notRunning)) ∨
    ∃ conn, x ∈ (exTalk d t remote cmd ident just wait w conn).1 := by
  have hf : ∀ y, y ∈ (if d then [] else [ExAct.connect t]) → y = .connect t := by
    intro y hy; split at hy <;> simp at hy; exact hy
  rcases exRun_cases d t autostart remote cmd ident just wait w with ⟨h1, h2, ⟨_, h3⟩ | ⟨_, h3⟩⟩ | ⟨_, h3⟩
  · rw [h3] at h
    simp only [List.mem_append, List.mem_singleton] at h
    rcases h with h | h
    · exact Or.inl (hf _ h)
    · exact Or.inr (Or.inl ⟨h, h2, h1⟩)
  · rw [h3] at h
    simp only [List.mem_append, List.mem_cons, List.not_mem_nil, or_false] at h
    rcases h with (h | h | h) | h
    · exact Or.inl (hf _ h)
    · exact Or.inr (Or.inl ⟨h, h2, h1⟩)
    · exact Or.inl h
    · exact Or.inr (Or.inr ⟨_, h⟩)
  · rw [h3] at h
    simp only [List.mem_append] at h
    rcases h with h | h
    · exact Or.inl (hf _ h)
    · exact Or.inr (Or.inr ⟨_, h⟩)

theorem exRun_noCreate {d : Bool} {t : Str} {autostart : Bool} {remote : Nat} {cmd : Wire} {ident : Str}
    {just wait : Bool} {w : ExWorld} {tm : Str} {u : Bool} :
    ExAct.create tm u ∉ (exRun d t autostart remote cmd ident just wait w).1 := by
  intro h
  rcases exRun_mem h with h | ⟨h, _⟩ | ⟨conn, h⟩
  · cases h
  · cases h
  · rcases exTalk_mem h with ⟨_, h⟩ | ⟨_, h | ⟨_, _, _, h | ⟨_, h⟩ | ⟨_, h⟩⟩⟩ <;> cases h

/-! ## C54 -/

/-- **C54 (part).** When a disposable was created for the call, and qubesd reports that it was started,
it is killed as the last action, and nothing is killed besides: whatever else fails.  If the command
was accepted, it is not killed before the connection has ended. -/
theorem C54_cleanup_partial (target : Str) (autostart : Bool) (remote : Nat) (cmd : Wire) (ident : Str)
    (just wait uuid : Bool) (w : ExWorld) (template name : Str)
    (hc : ExAct.create template uuid ∈ (executeVm target autostart remote cmd ident just wait uuid w).1)
    (hn : Created uuid w name) (hs : Started w) :
    ∃ a, (executeVm target autostart remote cmd ident just wait uuid w).1 = a ++ [.kill name] ∧
      (∀ x ∈ a, isKill x = false) ∧
      (w.connect2 = .ok → w.negotiate ≠ none → ∃ b, a = b ++ [.waitEnd]) := by
  rcases executeVm_cases target autostart remote cmd ident just wait uuid w with
    ⟨_, h⟩ | ⟨_, _, _, _, ⟨hno, _⟩ | ⟨name', hn', h⟩⟩ | ⟨_, _, h⟩
  · rw [h] at hc; simp at hc
  · exact absurd ⟨name, hn⟩ hno
  · have : name' = name := by
      have := hn'.1.symm.trans hn.1
      simpa using this
    subst this
    obtain ⟨a, a1, a2, a3⟩ := exTalk_disposable name' remote cmd ident false w w.connect2
    rcases exRun_cases true name' true remote cmd ident false true w with
      ⟨_, _, ⟨hst, _⟩ | ⟨_, h3⟩⟩ | ⟨hx, _⟩
    · exact absurd (reply_started hs) hst
    · rw [h, h3, a1]
      refine ⟨.create (target.drop 8) uuid :: .start name' :: .connect name' :: a, by simp, ?_, ?_⟩
      · intro x hx
        simp only [List.mem_cons] at hx
        rcases hx with rfl | rfl | rfl | hx
        · rfl
        · rfl
        · rfl
        · exact a2 x hx
      · intro h4 h5
        obtain ⟨a', rfl⟩ := a3 h5 h4
        exact ⟨.create (target.drop 8) uuid :: .start name' :: .connect name' :: a', by simp⟩
    · exact absurd ⟨Or.inl rfl, rfl⟩ hx
  · rw [h] at hc; exact absurd hc exRun_noCreate

/-- **C54.** Only a disposable created for this very call is ever killed. -/
theorem C54_kills_only_own (target : Str) (autostart : Bool) (remote : Nat) (cmd : Wire) (ident : Str)
    (just wait uuid : Bool) (w : ExWorld) (t : Str)
    (h : ExAct.kill t ∈ (executeVm target autostart remote cmd ident just wait uuid w).1) :
    c!"@dispvm:" <+: target ∧ Created uuid w t ∧
      (executeVm target autostart remote cmd ident just wait uuid w).1.head? =
        some (.create (target.drop 8) uuid) := by
  have hrun : ∀ d t' a j wt, ExAct.kill t ∈ (exRun d t' a remote cmd ident j wt w).1 → d = true ∧ t = t' := by
    intro d t' a j wt hx
    rcases exRun_mem hx with h | ⟨h, _⟩ | ⟨conn, h⟩
    · cases h
    · cases h
    · rcases exTalk_mem h with ⟨hd, h⟩ | ⟨_, h | ⟨_, _, _, h | ⟨_, h⟩ | ⟨_, h⟩⟩⟩
      · cases h; exact ⟨hd, rfl⟩
      all_goals cases h
  rcases executeVm_cases target autostart remote cmd ident just wait uuid w with
    ⟨_, h1⟩ | ⟨_, hd, _, _, ⟨hno, h1⟩ | ⟨name', hn', h1⟩⟩ | ⟨_, _, h1⟩
  · rw [h1] at h; simp at h
  · rw [h1] at h; simp at h
  · rw [h1] at h ⊢
    simp only [List.mem_cons, reduceCtorEq, false_or] at h
    obtain ⟨_, rfl⟩ := hrun _ _ _ _ _ h
    exact ⟨hd, hn', rfl⟩
  · rw [h1] at h
    have := (hrun _ _ _ _ _ h).1
    cases this

/-- **C54, the limit.** If qubesd does not report the start of the new disposable, it is not killed. -/
theorem C54_leak_start (target : Str) (remote : Nat) (cmd : Wire) (ident : Str) (wait uuid : Bool)
    (w : ExWorld) (name : Str) (hl : 2 ≤ cmd.length ∧ cmd.length ≤ 65535) (hd : c!"@dispvm:" <+: target)
    (hn : Created uuid w name) (hs : w.start = none) :
    executeVm target true remote cmd ident false wait uuid w =
      ([.create (target.drop 8) uuid, .start name], false) := by
  rcases executeVm_cases target true remote cmd ident false wait uuid w with
    ⟨h1, _⟩ | ⟨_, _, _, _, ⟨hno, _⟩ | ⟨name', hn', h⟩⟩ | ⟨_, h1, _⟩
  · rcases h1 with h1 | ⟨_, h1 | h1⟩
    · exact absurd hl h1
    · cases h1
    · cases h1
  · exact absurd ⟨name, hn⟩ hno
  · have : name' = name := by
      have := hn'.1.symm.trans hn.1
      simpa using this
    subst this
    rw [h]
    unfold exRun
    simp only [hs, qubesdReply]
    rfl
  · exact absurd hd h1

/-- **C54, the limit.** If qubesd creates a disposable but names it with a NUL byte, or when a uuid was
asked for, not with one, it is neither used nor killed. -/
theorem C54_leak_name (target : Str) (remote : Nat) (cmd : Wire) (ident : Str) (wait uuid : Bool)
    (w : ExWorld) (hl : 2 ≤ cmd.length ∧ cmd.length ≤ 65535) (hd : c!"@dispvm:" <+: target)
    (hn : ¬ ∃ name, Created uuid w name) :
    executeVm target true remote cmd ident false wait uuid w =
      ([.create (target.drop 8) uuid], false) := by
  rcases executeVm_cases target true remote cmd ident false wait uuid w with
    ⟨h1, _⟩ | ⟨_, _, _, _, ⟨_, h⟩ | ⟨name', hn', _⟩⟩ | ⟨_, h1, _⟩
  · rcases h1 with h1 | ⟨_, h1 | h1⟩
    · exact absurd hl h1
    · cases h1
    · cases h1
  · exact h
  · exact absurd ⟨name', hn'⟩ hn
  · exact absurd hd h1

/-! ## C61 -/

/-- **C61.** Without autostart, no qube is created or started; and if the daemon of the target does not
run, nothing is done but finding this out. -/
theorem C61_no_autostart (target : Str) (remote : Nat) (cmd : Wire) (ident : Str)
    (just wait uuid : Bool) (w : ExWorld) :
    (∀ x ∈ (executeVm target false remote cmd ident just wait uuid w).1,
      (∀ t, x ≠ .start t) ∧ (∀ t u, x ≠ .create t u) ∧ ∀ t, x ≠ .kill t) ∧
    (w.connect1 = .notRunning → (executeVm target false remote cmd ident just wait uuid w).1 ⊆ [.connect target] ∧
      (executeVm target false remote cmd ident just wait uuid w).2 = false) := by
  rcases executeVm_cases target false remote cmd ident just wait uuid w with
    ⟨_, h⟩ | ⟨_, _, h, _⟩ | ⟨_, _, h⟩
  · rw [h]; exact ⟨by simp, by simp⟩
  · cases h
  · rw [h]
    refine ⟨fun x hx => ?_, fun hc => ?_⟩
    · rcases exRun_mem hx with h | ⟨_, h, _⟩ | ⟨conn, h⟩
      · subst h; exact ⟨by simp, by simp, by simp⟩
      · cases h
      · rcases exTalk_mem h with ⟨h, _⟩ | ⟨_, h | ⟨_, _, _, h | ⟨_, h⟩ | ⟨_, h⟩⟩⟩
        · cases h
        all_goals · rw [h]; exact ⟨by simp, by simp, by simp⟩
    · unfold exRun
      simp only [Bool.false_eq_true, if_false, hc, Bool.and_false, exTalk]
      exact ⟨by simp [exKill], rfl⟩

/-- **C61.** Only the target itself (or the disposable created for the call) is started, and only when
autostart is permitted and its daemon does not run. -/
theorem C61_starts (target : Str) (autostart : Bool) (remote : Nat) (cmd : Wire) (ident : Str)
    (just wait uuid : Bool) (w : ExWorld) (t : Str)
    (h : ExAct.start t ∈ (executeVm target autostart remote cmd ident just wait uuid w).1) :
    autostart = true ∧ (t = target ∧ w.connect1 = .notRunning ∨ c!"@dispvm:" <+: target ∧ Created uuid w t) := by
  have hrun : ∀ d t' a j wt, ExAct.start t ∈ (exRun d t' a remote cmd ident j wt w).1 →
      t = t' ∧ a = true ∧ (d = true ∨ w.connect1 = .notRunning) := by
    intro d t' a j wt hx
    rcases exRun_mem hx with h | ⟨h, h1, h2⟩ | ⟨conn, h⟩
    · cases h
    · cases h; exact ⟨rfl, h1, h2⟩
    · rcases exTalk_mem h with ⟨hd, h⟩ | ⟨_, h | ⟨_, _, _, h | ⟨_, h⟩ | ⟨_, h⟩⟩⟩
      all_goals cases h
  rcases executeVm_cases target autostart remote cmd ident just wait uuid w with
    ⟨_, h1⟩ | ⟨_, hd, ha, _, ⟨hno, h1⟩ | ⟨name', hn', h1⟩⟩ | ⟨_, _, h1⟩
  · rw [h1] at h; simp at h
  · rw [h1] at h; simp at h
  · rw [h1] at h
    simp only [List.mem_cons, reduceCtorEq, false_or] at h
    obtain ⟨rfl, _, _⟩ := hrun _ _ _ _ _ h
    exact ⟨ha, Or.inr ⟨hd, hn'⟩⟩
  · rw [h1] at h
    obtain ⟨rfl, h2, h3⟩ := hrun _ _ _ _ _ h
    refine ⟨h2, Or.inl ⟨rfl, ?_⟩⟩
    rcases h3 with h3 | h3
    · cases h3
    · exact h3

/-- The shape of the communication with the daemons. -/
theorem exTalk_shape (d : Bool) (t : Str) (remote : Nat) (cmd : Wire) (ident : Str) (just wait : Bool)
    (w : ExWorld) (conn : Conn) :
    let r := exTalk d t remote cmd ident just wait w conn
    (r.2 = false ∧ ∀ x ∈ r.1, (∀ a b c, x ≠ .serviceConnect a b c)) ∨
    conn = .ok ∧ w.source = true ∧ r.2 = w.send ∧ ∃ dom port rest, w.negotiate = some (dom, port) ∧
      r.1 = .command (if just then msgJustExec else msgExec) remote cmd :: .connectSource remote ::
        .serviceConnect dom port (identField ident) :: rest ∧ ∀ x ∈ rest, x = .waitEnd ∨ x = .kill t := by
  intro r
  by_cases hc : conn = .ok
  rotate_left
  · left
    have : (conn != .ok) = true := by simpa using hc
    have hr : r = exKill d t false := by show exTalk _ _ _ _ _ _ _ _ _ = _; unfold exTalk; rw [if_pos this]
    rw [hr]
    refine ⟨rfl, fun x hx a b c => ?_⟩
    rw [exKill_kills] at hx
    split at hx <;> simp at hx; rw [hx]; simp
  cases hn : w.negotiate with
  | none =>
    left
    have hr : r = (.command (if just then msgJustExec else msgExec) remote cmd :: (exKill d t false).1, false) := by
      show exTalk _ _ _ _ _ _ _ _ _ = _; unfold exTalk; rw [hc, hn]; rfl
    rw [hr]
    refine ⟨rfl, fun x hx a b c => ?_⟩
    rw [exKill_kills] at hx
    simp only [List.mem_cons] at hx
    rcases hx with rfl | hx
    · simp
    · split at hx <;> simp at hx; rw [hx]; simp
  | some p =>
    obtain ⟨dom, port⟩ := p
    cases hs : w.source with
    | false =>
      left
      have hr : r = ([.command (if just then msgJustExec else msgExec) remote cmd, .connectSource remote] ++
          (if wait then .waitEnd :: (exKill d t false).1 else []), false) := by
        show exTalk _ _ _ _ _ _ _ _ _ = _
        unfold exTalk; rw [hc, hn, hs]
        cases wait <;> simp [exKill]
      rw [hr]
      refine ⟨rfl, fun x hx a b c => ?_⟩
      rw [exKill_kills] at hx
      simp only [List.mem_append, List.mem_cons, List.not_mem_nil, or_false] at hx
      rcases hx with (rfl | rfl) | hx
      · simp
      · simp
      · cases wait <;> cases d <;> simp at hx
        · rw [hx]; simp
        · rcases hx with rfl | rfl <;> simp
    | true =>
      right
      have hr : r = ([.command (if just then msgJustExec else msgExec) remote cmd, .connectSource remote,
          .serviceConnect dom port (identField ident)] ++
          (if wait then .waitEnd :: (exKill d t false).1 else []), w.send) := by
        show exTalk _ _ _ _ _ _ _ _ _ = _
        unfold exTalk; rw [hc, hn, hs]
        cases wait <;> simp [exKill]
      rw [hr]
      refine ⟨hc, rfl, rfl, dom, port, _, rfl, rfl, fun x hx => ?_⟩
      rw [exKill_kills] at hx
      cases wait <;> cases d <;> simp at hx
      · exact Or.inl hx
      · exact hx

/-- **C61.** The result is success exactly if the source's daemon was told to connect; it is told domain
and port of the target's daemon's reply to the command, and the identifier of the request; and the
command was sent, once, to the daemon of the target (or of the disposable created for the call). -/
theorem C61_told (target : Str) (autostart : Bool) (remote : Nat) (cmd : Wire) (ident : Str)
    (just wait uuid : Bool) (w : ExWorld) :
    let r := executeVm target autostart remote cmd ident just wait uuid w
    (r.2 = false ∧ ∀ x ∈ r.1, ∀ a b c, x ≠ .serviceConnect a b c) ∨
    w.source = true ∧ r.2 = w.send ∧ ∃ qube dom port pre rest,
      (qube = target ∨ c!"@dispvm:" <+: target ∧ Created uuid w qube) ∧
      w.negotiate = some (dom, port) ∧
      r.1 = pre ++ .connect qube :: .command (if just then 0x201 else 0x200) remote cmd ::
        .connectSource remote :: .serviceConnect dom port (identField ident) :: rest ∧
      (∀ x ∈ pre, (∃ t u, x = .create t u) ∨ x = .start qube ∨ x = .connect qube) ∧
      ∀ x ∈ rest, x = .waitEnd ∨ x = .kill qube := by
  intro r
  have key : ∀ d t a j wt,
      let q := exRun d t a remote cmd ident j wt w
      (q.2 = false ∧ ∀ x ∈ q.1, ∀ a b c, x ≠ .serviceConnect a b c) ∨
      w.source = true ∧ q.2 = w.send ∧ ∃ dom port pre rest, w.negotiate = some (dom, port) ∧
        q.1 = pre ++ .connect t :: .command (if j then 0x201 else 0x200) remote cmd ::
          .connectSource remote :: .serviceConnect dom port (identField ident) :: rest ∧
        (∀ x ∈ pre, x = .start t ∨ x = .connect t) ∧ ∀ x ∈ rest, x = .waitEnd ∨ x = .kill t := by
    intro d t a j wt q
    have hf : ∀ y, y ∈ (if d then [] else [ExAct.connect t]) → y = .connect t := by
      intro y hy; split at hy <;> simp at hy; exact hy
    rcases exRun_cases d t a remote cmd ident j wt w with ⟨h1, h2, ⟨_, h3⟩ | ⟨_, h3⟩⟩ | ⟨_, h3⟩
    · left
      have : q = _ := h3
      rw [this]
      refine ⟨rfl, fun x hx a b c => ?_⟩
      simp only [List.mem_append, List.mem_singleton] at hx
      rcases hx with hx | hx
      · rw [hf x hx]; simp
      · rw [hx]; simp
    · have : q = _ := h3
      rw [this]
      rcases exTalk_shape d t remote cmd ident j wt w w.connect2 with ⟨s1, s2⟩ | ⟨_, s1, s2, dom, port, rest, s3, s4, s5⟩
      · left
        refine ⟨s1, fun x hx a b c => ?_⟩
        simp only [List.mem_append, List.mem_cons, List.not_mem_nil, or_false] at hx
        rcases hx with (hx | hx | hx) | hx
        · rw [hf x hx]; simp
        · rw [hx]; simp
        · rw [hx]; simp
        · exact s2 x hx a b c
      · right
        refine ⟨s1, s2, dom, port, (if d then [] else [ExAct.connect t]) ++ [.start t], rest, s3, ?_, ?_, s5⟩
        · rw [s4]
          simp only [List.append_assoc, List.cons_append, List.nil_append]
          rfl
        · intro x hx
          simp only [List.mem_append, List.mem_singleton] at hx
          rcases hx with hx | hx
          · exact Or.inr (hf x hx)
          · exact Or.inl hx
    · have : q = _ := h3
      rw [this]
      rcases exTalk_shape d t remote cmd ident j wt w (if d then .notRunning else w.connect1) with
        ⟨s1, s2⟩ | ⟨hok, s1, s2, dom, port, rest, s3, s4, s5⟩
      · left
        refine ⟨s1, fun x hx a b c => ?_⟩
        simp only [List.mem_append] at hx
        rcases hx with hx | hx
        · rw [hf x hx]; simp
        · exact s2 x hx a b c
      · right
        cases d with
        | true => cases hok
        | false =>
          refine ⟨s1, s2, dom, port, [], rest, s3, ?_, by simp, s5⟩
          rw [s4]; rfl
  rcases executeVm_cases target autostart remote cmd ident just wait uuid w with
    ⟨_, h1⟩ | ⟨_, hd, ha, hj, ⟨hno, h1⟩ | ⟨name', hn', h1⟩⟩ | ⟨_, _, h1⟩
  · left; have : r = _ := h1; rw [this]; exact ⟨rfl, by simp⟩
  · left; have : r = _ := h1; rw [this]; exact ⟨rfl, by simp⟩
  · have : r = _ := h1
    rw [this]
    rcases key true name' true false true with ⟨s1, s2⟩ | ⟨s1, s2, dom, port, pre, rest, s3, s4, s5, s6⟩
    · left
      refine ⟨s1, fun x hx a b c => ?_⟩
      simp only [List.mem_cons] at hx
      rcases hx with rfl | hx
      · simp
      · exact s2 x hx a b c
    · right
      refine ⟨s1, s2, name', dom, port, .create (target.drop 8) uuid :: pre, rest, Or.inr ⟨hd, hn'⟩, s3, ?_, ?_, s6⟩
      · rw [s4, hj]; rfl
      · intro x hx
        simp only [List.mem_cons] at hx
        rcases hx with rfl | hx
        · exact Or.inl ⟨_, _, rfl⟩
        · exact Or.inr (s5 x hx)
  · have : r = _ := h1
    rw [this]
    rcases key false target autostart just wait with ⟨s1, s2⟩ | ⟨s1, s2, dom, port, pre, rest, s3, s4, s5, s6⟩
    · left; exact ⟨s1, s2⟩
    · right
      exact ⟨s1, s2, target, dom, port, pre, rest, Or.inl rfl, s3, s4, fun x hx => Or.inr (s5 x hx), s6⟩

theorem takeWhile_ident (ident rest : Str) (h : '\x00' ∉ ident) (hr : rest.head? = some '\x00') :
    (ident ++ rest).takeWhile (· != '\x00') = ident := by
  induction ident with
  | nil =>
    cases rest with
    | nil => simp at hr
    | cons a as => simp at hr; subst hr; rfl
  | cons a as ih =>
    have h1 : a ≠ '\x00' := fun e => h (by simp [e])
    have h2 : '\x00' ∉ as := fun e => h (by simp [e])
    have h3 : (a != '\x00') = true := by simpa using h1
    rw [List.cons_append, List.takeWhile_cons, h3, if_pos rfl, ih h2]

/-- **C61.** The message that tells the source's daemon to connect is read there as the answer to the
request with this identifier (`C52`), for every identifier that fits. -/
theorem C61_understood (ident : Str) (hl : ident.length ≤ 31) (hz : '\x00' ∉ ident)
    (fd domain port : Nat) (w : Bool) : Connects ident (.clientMsg fd 0x202 domain port (identField ident) w) := by
  have ht : ident.take 31 = ident := List.take_of_length_le (by omega)
  have hlen : (identField ident).length = 32 := by
    unfold identField; rw [ht]; simp; omega
  refine ⟨fd, domain, port, identField ident, w, rfl, ?_, by omega, ?_, ?_⟩
  · intro h; rw [h] at hlen; simp at hlen
  · unfold identField
    rw [ht]
    have : 32 - ident.length = (31 - ident.length) + 1 := by omega
    rw [this, List.replicate_succ', ← List.append_assoc, List.getLast?_concat]
  · unfold identField
    rw [ht]
    refine takeWhile_ident ident _ hz ?_
    have : 32 - ident.length = (31 - ident.length) + 1 := by omega
    rw [this, List.replicate_succ]; rfl

/-! Examples -/

/-- A call to a new disposable. -/
def exWorld : ExWorld where
  create := some c!"0\x00disp1"
  connect1 := .failed
  start := some c!"0\x00"
  connect2 := .ok
  negotiate := some (12, 514)
  source := true
  send := true

example : executeVm c!"@dispvm:tmpl" true 3 c!"u:QUBESRPC s+ work\x00" c!"SOCKET7" false false false exWorld =
    ([.create c!"tmpl" false, .start c!"disp1", .connect c!"disp1",
      .command 0x200 3 c!"u:QUBESRPC s+ work\x00", .connectSource 3,
      .serviceConnect 12 514 (identField c!"SOCKET7"), .waitEnd, .kill c!"disp1"], true) := by decide

example : Created false exWorld c!"disp1" := ⟨rfl, by decide, by decide, by decide⟩
example : Started exWorld := ⟨[], Or.inl rfl, by decide⟩

end Qrexec
