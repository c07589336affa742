import Verif.Model.Signals

/-!
# C100: with which signals programs are started
-/
namespace Qrexec

/-! ## Specification -/

/-- A signal acts on the program as on any program that is newly started: it is not blocked and not ignored. -/
def Normal (st : SigState) (s : Sig) : Prop := st.blocked s = false ∧ st.disp s = .dfl

/-! ## Theorems -/

/-- **C100, agent.** Whatever the signals of the agent itself were when it was started, each program it starts for a request
has no blocked signal, and SIGCHLD and SIGPIPE do what they do by default. -/
theorem C100_agent (init : SigState) (l : Launch) (h : l = .agentService ∨ l = .agentJust) :
    (∀ s, (l.signals init).blocked s = false) ∧ Normal (l.signals init) .chld ∧ Normal (l.signals init) .pipe := by
  rcases h with rfl | rfl <;> exact ⟨fun _ => rfl, ⟨rfl, rfl⟩, ⟨rfl, rfl⟩⟩

/-- **C100, other starters.** The same holds for a fork server and for the local program of qrexec-client, if these were
themselves started without the two signals blocked. -/
theorem C100_others_partial (init : SigState) (h1 : init.blocked .chld = false) (h2 : init.blocked .pipe = false) (l : Launch)
    (h : l = .forkService ∨ l = .forkJust ∨ l = .clientLocal) :
    Normal (l.signals init) .chld ∧ Normal (l.signals init) .pipe := by
  rcases h with rfl | rfl | rfl <;>
    exact ⟨⟨h1, rfl⟩, ⟨h2, rfl⟩⟩

/-- **C100, all other signals** (SIGTERM and SIGUSR1 too) are never ignored by a program unless they were by the process that
was started first, and never blocked unless they were there. -/
theorem C100_frame (init : SigState) (l : Launch) (s : Sig) (hs : s ≠ .chld ∧ s ≠ .pipe) :
    ((l.signals init).disp s = .ign → init.disp s = .ign) ∧
    ((l.signals init).blocked s = true → init.blocked s = true) ∧ (l.signals init).disp s ≠ .handler := by
  have key : ∀ (ops : List SigOp) (st : SigState),
      (∀ op ∈ ops, op ≠ .set s .ign ∧ op ≠ .block s) →
      ((ops.foldl sigDo st).disp s = .ign → st.disp s = .ign) ∧
      ((ops.foldl sigDo st).blocked s = true → st.blocked s = true) := by
    intro ops
    induction ops with
    | nil => intro st _; exact ⟨id, id⟩
    | cons op ops ih =>
      intro st h
      obtain ⟨i1, i2⟩ := ih (sigDo st op) (fun o ho => h o (List.mem_cons_of_mem _ ho))
      obtain ⟨g1, g2⟩ := h op (List.mem_cons_self ..)
      refine ⟨fun k => ?_, fun k => ?_⟩
      · have k := i1 k
        cases op with
        | block x => exact k
        | clear => exact k
        | set x d =>
          by_cases e : s = x
          · subst e
            have k : (if s = s then d else st.disp s) = .ign := k
            rw [if_pos rfl] at k
            subst k
            exact absurd rfl g1
          · have k : (if s = x then d else st.disp s) = .ign := k
            rwa [if_neg e] at k
      · have k := i2 k
        cases op with
        | block x =>
          by_cases e : s = x
          · subst e; exact absurd rfl g2
          · have k : (if s = x then true else st.blocked s) = true := k
            rwa [if_neg e] at k
        | clear => cases (k : false = true)
        | set x d => exact k
  have hops : ∀ op ∈ l.ops, op ≠ .set s .ign ∧ op ≠ .block s := by
    intro op hop
    have : ∀ l : Launch, ∀ op ∈ l.ops, ∀ x, (op = .set x .ign ∨ op = .block x) → x = .chld ∨ x = .pipe := by
      intro l
      cases l <;>
      · intro op hop x hx
        simp only [Launch.ops, sigAgent, sigData, sigForkExec, sigAgentDoExec, sigForkServer, sigForkDoExec, sigDaemonChild,
          sigPrepareLocal, sigClient, List.cons_append, List.nil_append, List.mem_cons, List.not_mem_nil, or_false] at hop
        rcases hx with rfl | rfl <;> simp at hop <;> simp [hop]
    refine ⟨fun e => ?_, fun e => ?_⟩
    · rcases this l op hop s (.inl e) with h | h
      · exact hs.1 h
      · exact hs.2 h
    · rcases this l op hop s (.inr e) with h | h
      · exact hs.1 h
      · exact hs.2 h
  obtain ⟨k1, k2⟩ := key l.ops init hops
  unfold Launch.signals sigExec
  refine ⟨fun h => k1 ?_, k2, ?_⟩
  · dsimp only at h
    split at h
    · cases h
    · exact h
  · dsimp only
    split
    · intro h; cases h
    · assumption

/-- Finding: every service in dom0 that a qube calls runs with SIGCHLD blocked, and so does qubes.WaitForSession there. -/
theorem C100_daemon_violated (init : SigState) :
    (Launch.daemonService.signals init).blocked .chld = true ∧ (Launch.daemonSession.signals init).blocked .chld = true :=
  ⟨rfl, rfl⟩

/-- Finding: the local program of qrexec-client-vm, services in dom0 called from dom0, and every qubes.WaitForSession run with
SIGPIPE ignored. -/
theorem C100_pipe_violated (init : SigState) (l : Launch)
    (h : l = .clientVmLocal ∨ l = .clientDom0 ∨ l = .agentSession ∨ l = .clientSession ∨ l = .daemonSession) :
    (l.signals init).disp .pipe = .ign := by
  rcases h with rfl | rfl | rfl | rfl | rfl <;> rfl

/-! ## Cases -/

/-- A process as it is started by systemd. -/
def exSig : SigState := ⟨fun _ => false, fun _ => .dfl⟩

example : exSig.blocked .chld = false ∧ exSig.blocked .pipe = false := ⟨rfl, rfl⟩
example : (Launch.daemonService.signals exSig).disp .term = .dfl ∧ (Launch.agentService.signals exSig).disp .usr1 = .dfl :=
  ⟨rfl, rfl⟩

end Qrexec
