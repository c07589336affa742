import Verif.Model.WaitSession
import Mathlib.Tactic.SplitIfs

/-!
# C112: waiting for the session
-/
namespace Qrexec

theorem wsRun_append (env : WsEnv) (a b : List WsNow) (p : WsPos) : wsRun env (a ++ b) p = wsRun env b (wsRun env a p) := by
  induction a generalizing p with
  | nil => rfl
  | cons n a ih => exact ih _

theorem wsRun_ended (env : WsEnv) (ns : List WsNow) (st : Nat) : wsRun env ns (.ended st) = .ended st := by
  induction ns with
  | nil => rfl
  | cons n ns ih => exact ih

/-- From the position at which the system is asked: success only if the system has reported that it runs. -/
theorem wsRun_asks (env : WsEnv) (ns : List WsNow) (h : wsRun env ns .asks = .ended 0) :
    ∃ pre n post, ns = pre ++ n :: post ∧ n.running (wsBus env n) = some 0 ∧ ∀ m ∈ pre, m.running (wsBus env m) = none := by
  induction ns with
  | nil => cases h
  | cons n ns ih =>
    rw [wsRun, wsStep] at h
    cases hr : n.running (wsBus env n) with
    | none =>
      rw [hr] at h
      obtain ⟨pre, m, post, e, h1, h2⟩ := ih h
      exact ⟨n :: pre, m, post, by rw [e]; rfl, h1, by simpa [hr] using h2⟩
    | some rc =>
      rw [hr] at h
      dsimp only at h
      by_cases h0 : rc > 0
      · rw [if_pos h0] at h
        cases ns with
        | nil => cases h
        | cons m ns =>
          rw [wsRun, wsStep] at h
          split_ifs at h with h1
          · rw [wsRun_ended] at h
            injection h with h
            rw [h] at h1
            exact absurd h1 (by decide)
          · rw [wsRun_ended] at h
            injection h with h
            omega
      · rw [if_neg h0] at h
        exact ⟨[], n, ns, rfl, by rw [hr]; congr 1; omega, by simp⟩

theorem wsRun_looks (env : WsEnv) (u : Str) (ns : List WsNow) (st : Nat) (h : wsRun env ns (.looks u) = .ended st) :
    ∃ pre n post, ns = pre ++ n :: post ∧ n.isThere (wsSocket u) = true ∧ (∀ m ∈ pre, m.isThere (wsSocket u) = false) ∧
      wsRun env post .asks = .ended st := by
  induction ns with
  | nil => cases h
  | cons n ns ih =>
    rw [wsRun, wsStep] at h
    by_cases h0 : n.isThere (wsSocket u) = true
    · rw [if_pos h0] at h
      exact ⟨[], n, ns, rfl, h0, by simp, h⟩
    · rw [if_neg h0] at h
      obtain ⟨pre, m, post, e, h1, h2, h3⟩ := ih h
      exact ⟨n :: pre, m, post, by rw [e]; rfl, h1, by simpa [h0] using h2, h3⟩

theorem wsRun_still_looks (env : WsEnv) (u : Str) (a : List WsNow) (h : ∀ x ∈ a, x.isThere (wsSocket u) = false) :
    wsRun env a (.looks u) = .looks u := by
  induction a with
  | nil => rfl
  | cons x a ih =>
    rw [wsRun, wsStep, h x (by simp), if_neg (by decide)]
    exact ih (fun y hy => h y (List.mem_cons_of_mem _ hy))

theorem wsRun_still_asks (env : WsEnv) (b : List WsNow) (h : ∀ x ∈ b, x.running (wsBus env x) = none) : wsRun env b .asks = .asks := by
  induction b with
  | nil => rfl
  | cons x b ih =>
    rw [wsRun, wsStep, h x (by simp)]
    exact ih (fun y hy => h y (List.mem_cons_of_mem _ hy))

/-- The session to wait for is a graphical one in a qube. -/
def Graphical (n : WsNow) : Prop := n.hasClient = false ∧ n.gui = c!"True"

/-- The default user of the qube. -/
def defaultUserOf (n : WsNow) : Str := n.defaultUser.getD c!"user"

/-- The address of the session's bus: the one in the environment; else the socket "bus" in the user's runtime directory, which is the one in the
environment, else that of the user number. An empty value counts as none. -/
def BusAddress (env : WsEnv) (n : WsNow) (addr : Str) : Prop :=
  (env.bus = some addr ∧ addr ≠ []) ∨
  ((env.bus = none ∨ env.bus = some []) ∧ ∃ dir, addr = c!"unix:path=" ++ dir ++ c!"/bus" ∧
    ((env.runtimeDir = some dir ∧ dir ≠ []) ∨
      ((env.runtimeDir = none ∨ env.runtimeDir = some []) ∧ dir = c!"/run/user/" ++ n.uid)))

theorem wsBus_iff (env : WsEnv) (n : WsNow) (addr : Str) : wsBus env n = addr ↔ BusAddress env n addr := by
  obtain ⟨a, r, b⟩ := env
  unfold wsBus BusAddress
  rcases b with _ | _ | ⟨x, b⟩ <;> rcases r with _ | _ | ⟨y, r⟩ <;> constructor <;> intro h
  all_goals first
    | (simp at h ⊢; exact h.symm)
    | (simp at h ⊢; exact h)
    | (simp at h ⊢; exact h.1.symm)
    | (simp at h ⊢; exact h.1)
    | (simp at h ⊢; exact h.2.symm)
    | (simp at h ⊢; exact ⟨h, h ▸ List.cons_ne_nil _ _⟩)
    | (simp at h ⊢; exact ⟨h, by intro h'; rw [h'] at h; cases h⟩)
    | (simp at h ⊢; exact ⟨_, h.symm, rfl, List.cons_ne_nil _ _⟩)
    | (simp at h ⊢; obtain ⟨d, h1, h2, _⟩ := h; rw [h1, ← h2]; rfl)

/-- **C112.** Without an argument, the program succeeds only if the system of the user reported that it runs; and for a graphical session in a qube
not before the socket of the fork server of the default user has been there. -/
theorem C112_ready (env : WsEnv) (m : WsNow) (ms : List WsNow) (ha : env.argument = none ∨ env.argument = some [])
    (h : wsRun env (m :: ms) .begins = .ended 0) :
    ∃ pre n post addr, ms = pre ++ n :: post ∧ BusAddress env n addr ∧ n.running addr = some 0 ∧
      (Graphical m → ∃ r rest a k b, pre = r :: rest ∧ rest = a ++ k :: b ∧
        k.isThere (c!"/var/run/qubes/qrexec-server." ++ defaultUserOf r ++ c!".sock") = true) := by
  rw [wsRun, wsStep] at h
  have harg : (env.argument.getD [] != []) = false := by rcases ha with ha | ha <;> rw [ha] <;> rfl
  rw [harg, if_neg (by decide)] at h
  by_cases hg : (!m.hasClient && m.gui == c!"True") = true
  · rw [if_pos hg] at h
    cases ms with
    | nil => cases h
    | cons r ms =>
      rw [wsRun, wsStep] at h
      obtain ⟨a, k, b, rfl, h1, _, h2⟩ := wsRun_looks env _ ms 0 h
      obtain ⟨pre, n, post, rfl, h3, _⟩ := wsRun_asks env b h2
      exact ⟨r :: (a ++ k :: pre), n, post, _, by simp, (wsBus_iff ..).1 rfl, h3, fun _ => ⟨r, _, a, k, pre, rfl, rfl, h1⟩⟩
  · rw [if_neg hg] at h
    obtain ⟨pre, n, post, rfl, h1, _⟩ := wsRun_asks env ms h
    refine ⟨pre, n, post, _, rfl, (wsBus_iff ..).1 rfl, h1, fun hc => absurd ?_ hg⟩
    rw [hc.1, hc.2]
    decide

/-- **C112, it waits.** For a graphical session the program does not end, in whatever way, before that socket has been there: -/
theorem C112_waits (env : WsEnv) (m r : WsNow) (ms : List WsNow) (ha : env.argument = none ∨ env.argument = some []) (hg : Graphical m)
    (hn : ∀ n ∈ ms, n.isThere (c!"/var/run/qubes/qrexec-server." ++ defaultUserOf r ++ c!".sock") = false) :
    ∀ st, wsRun env (m :: r :: ms) .begins ≠ .ended st := by
  intro st h
  have harg : (env.argument.getD [] != []) = false := by rcases ha with ha | ha <;> rw [ha] <;> rfl
  rw [wsRun, wsStep, harg, if_neg (by decide), hg.1, hg.2, if_pos (by decide), wsRun, wsStep] at h
  obtain ⟨a, k, b, rfl, h1, _⟩ := wsRun_looks env _ ms st h
  have := hn k (by simp)
  unfold defaultUserOf at this
  unfold wsSocket at h1
  rw [h1] at this
  cases this

/-- **C112, it ends.** When that socket is there and the system has started, the program ends at its next commands, with the result of the system (or
that of listing what failed). -/
theorem C112_ends (env : WsEnv) (m r k n l : WsNow) (a b : List WsNow) (rc : Nat) (ha : env.argument = none ∨ env.argument = some [])
    (hg : Graphical m) (ha' : ∀ x ∈ a, x.isThere (wsSocket (defaultUserOf r)) = false)
    (hk : k.isThere (c!"/var/run/qubes/qrexec-server." ++ defaultUserOf r ++ c!".sock") = true)
    (hb : ∀ x ∈ b, x.running (wsBus env x) = none) (hn : n.running (wsBus env n) = some rc) :
    wsRun env (m :: r :: (a ++ k :: (b ++ [n, l]))) .begins = .ended (if rc > 0 ∧ l.listing ≠ 0 then l.listing else rc) := by
  have harg : (env.argument.getD [] != []) = false := by rcases ha with ha | ha <;> rw [ha] <;> rfl
  rw [wsRun, wsStep, harg, if_neg (by decide), hg.1, hg.2, if_pos (by decide), wsRun, wsStep]
  have e1 := wsRun_still_looks env _ a ha'
  have e2 := wsRun_still_asks env b hb
  have e0 : n.running (wsBus env n) = some rc := hn
  rw [wsRun_append, show (WsPos.looks (r.defaultUser.getD c!"user")) = .looks (defaultUserOf r) from rfl, e1, wsRun, wsStep]
  rw [if_pos (show k.isThere (wsSocket (defaultUserOf r)) = true from hk), wsRun_append, e2, wsRun, wsStep, e0]
  dsimp only
  by_cases h0 : rc > 0
  · rw [if_pos h0, wsRun, wsStep]
    by_cases hl : l.listing = 0
    · rw [if_neg (by simp [hl]), if_neg (by simp [hl])]; rfl
    · rw [if_pos (by simp [hl]), if_pos ⟨h0, hl⟩]; rfl
  · rw [if_neg h0, if_neg (fun h => h0 h.1), wsRun, wsStep]; rfl

/-- **C112, dom0 and qubes without a screen.** There the socket is not looked at. -/
theorem C112_elsewhere (env : WsEnv) (m : WsNow) (ha : env.argument = none ∨ env.argument = some []) (hg : ¬ Graphical m) :
    wsStep env m .begins = .asks := by
  have harg : (env.argument.getD [] != []) = false := by rcases ha with ha | ha <;> rw [ha] <;> rfl
  rw [wsStep, harg, if_neg (by decide), if_neg]
  intro h
  rw [Bool.and_eq_true, Bool.not_eq_true', beq_iff_eq] at h
  exact hg h

/-- **C112 is violated** by an argument: the program says that none is allowed, and succeeds without waiting. -/
theorem C112_argument_violated (env : WsEnv) (c : Char) (arg : Str) (m : WsNow) (h : env.argument = some (c :: arg)) :
    wsRun env [m] .begins = .ended 0 := by
  simp [wsRun, wsStep, h]

/-- The process that starts it for another service leaves the argument in the environment it has itself: if that has one, nothing is waited for. -/
theorem C112_inherited (parent : Str → Option Str) (source : Str) (c : Char) (arg : Str) (m : WsNow)
    (h : parent c!"QREXEC_SERVICE_ARGUMENT" = some (c :: arg)) : wsRun (wsEnv (waiterEnv parent source)) [m] .begins = .ended 0 :=
  C112_argument_violated _ c arg m (by simpa [wsEnv, waiterEnv] using h)

/-- … and if it has none, the program waits as above. -/
theorem C112_started (parent : Str → Option Str) (source : Str) (h : parent c!"QREXEC_SERVICE_ARGUMENT" = none) :
    (wsEnv (waiterEnv parent source)).argument = none := by
  simpa [wsEnv, waiterEnv] using h

/-- A moment in a qube where the session of `user` is up, and that of nobody else. -/
def exWsNow : WsNow where
  hasClient := false
  gui := c!"True"
  defaultUser := some c!"user"
  isThere p := p == c!"/var/run/qubes/qrexec-server.user.sock"
  running _ := some 0
  listing := 0
  uid := c!"0"

def exWsEnv : WsEnv := ⟨none, none, none⟩

/-- **C112 is violated** for the users of services: whichever user a service is to be run as, the program waits for the session of the default user. -/
theorem C112_user_violated : wsRun exWsEnv [exWsNow, exWsNow, exWsNow, exWsNow] .begins = .ended 0 ∧
    ∀ u, u ≠ c!"user" → exWsNow.isThere (wsSocket u) = false := by
  refine ⟨by decide, fun u hu => ?_⟩
  show (wsSocket u == wsSocket c!"user") = false
  rw [beq_eq_false_iff_ne]
  unfold wsSocket
  intro h
  exact hu (List.append_cancel_left (List.append_cancel_right h))

/-- The bus of the user whom the program runs as. -/
example : wsBus exWsEnv exWsNow = c!"unix:path=/run/user/0/bus" := by decide
example : Graphical exWsNow := ⟨rfl, rfl⟩
/-- A failed unit: status 1. -/
example : wsRun exWsEnv [exWsNow, exWsNow, { exWsNow with isThere := fun _ => false }, exWsNow, { exWsNow with running := fun _ => none },
    { exWsNow with running := fun _ => some 1 }, exWsNow] .begins = .ended 1 := by decide

end Qrexec
