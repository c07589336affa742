import Verif.Model.DoExec
import Verif.Props.ServiceEnv
import Verif.Props.ServiceFind

/-!
# C84: commands run as the user they are meant for
-/
namespace Qrexec

/-! ## Specification -/

/-- Everything the system has to do for a program to be run for `user`, and what it answered: the entry of the user and the
groups. -/
structure LoginOk (w : DeWorld) (user : Str) (pw : Passwd) (gs : List Nat) : Prop where
  entry : w.getpwnam user = some pw
  name : pw.name ≠ []
  home : pw.dir ≠ []
  start : w.pamStart user = true
  auth : w.pamAuth user = true
  groups : w.initgroups pw.name pw.gid = some gs
  cred : w.pamCred user = true
  session : w.pamSession user = true
  /-- each variable fits into 63 bytes and is accepted -/
  vars : ∀ v ∈ [c!"QREXEC_AGENT_PID=" ++ printDec w.ppid, c!"HOME=" ++ pw.dir, c!"SHELL=" ++ pw.shell,
    c!"USER=" ++ pw.name, c!"LOGNAME=" ++ pw.name], v.length < 64 ∧ w.putenv v = true
  fork : w.fork = true
  setgid : w.setgid pw.gid = true
  setuid : w.setuid pw.uid = true

/-- The environment of a login session: five variables of the user, the others as PAM has set them up. -/
def LoginEnv (w : DeWorld) (pw : Passwd) (v : Str) : Option Str :=
  if v = c!"QREXEC_AGENT_PID" then some (printDec w.ppid)
  else if v = c!"HOME" then some pw.dir
  else if v = c!"SHELL" then some pw.shell
  else if v = c!"USER" then some pw.name
  else if v = c!"LOGNAME" then some pw.name
  else getenv w.pamEnv v

/-- What is executed in a login session with the environment `env`: a service as `exec_qubes_rpc2` says, anything else as
one argument of the user's shell, started as a login shell. -/
def IsLoginCall (pw : Passwd) (env : List Str) (prog : Option Str) (cmd : Str) (call : ExecCall) : Prop :=
  match prog with
  | some p => execQubesRpc2 p cmd env true = some call
  | none => call = ⟨pw.shell, [c!"-" ++ baseName pw.shell, c!"-c", cmd], env⟩

/-- The exit status for a way to end. -/
def endCode : WaitStatus → Nat
  | .exited n => n
  | .signaled n => 128 + n

/-! ## Environment -/

theorem getenv_pamPut (env : List Str) (n x v : Str) (hn : '=' ∉ n) (hv : '=' ∉ v) :
    getenv (pamPut env (n ++ c!"=" ++ x)) v = if v = n then some x else getenv env v := by
  have htw : (n ++ c!"=" ++ x).takeWhile (· != '=') = n := by
    rw [List.append_assoc, List.takeWhile_append_of_pos]
    · show n ++ List.takeWhile (· != '=') ('=' :: x) = n
      rw [List.takeWhile_cons]
      simp
    · intro c hc
      simp only [bne_iff_ne, ne_eq]
      rintro rfl
      exact hn hc
  have eqpos : ∀ (a b : Str) (e : Str), '=' ∉ a → '=' ∉ b → a ++ c!"=" <+: e → b ++ c!"=" <+: e → a = b := by
    intro a b e ha hb ⟨t, ht⟩ ⟨u, hu⟩
    have e1 : splitOnce '=' (a ++ '=' :: t) = some (a, t) := splitOnce_eq_some.2 ⟨rfl, ha⟩
    have e2 : splitOnce '=' (b ++ '=' :: u) = some (b, u) := splitOnce_eq_some.2 ⟨rfl, hb⟩
    have h1 : a ++ '=' :: t = e := by simpa using ht
    have h2 : b ++ '=' :: u = e := by simpa using hu
    rw [h1] at e1
    rw [h2, e1] at e2
    cases e2; rfl
  unfold pamPut
  rw [htw, getenv_append]
  by_cases hvn : v = n
  · subst hvn
    rw [if_pos rfl, getenv_none]
    · exact getenv_cons_eq v x []
    · intro e he hp
      obtain ⟨_, h2⟩ := List.mem_filter.1 he
      rw [List.isPrefixOf_iff_prefix.2 hp] at h2
      cases h2
  · rw [if_neg hvn, getenv_filter]
    · have : getenv [n ++ c!"=" ++ x] v = none := by
        apply getenv_none
        intro e he hp
        rw [List.mem_singleton.1 he] at hp
        exact hvn (eqpos v n _ hv hn hp (List.prefix_append _ _))
      rw [this]
      cases getenv env v <;> rfl
    · intro e he
      simp only [Bool.not_eq_true', Bool.eq_false_iff]
      intro h
      exact hvn (eqpos v n e hv hn he (List.isPrefixOf_iff_prefix.1 h))

theorem pamPutAll_some (w : DeWorld) : ∀ (l env r : List Str), pamPutAll w env l = some r ↔
    (∀ v ∈ l, v.length < 64 ∧ w.putenv v = true) ∧ r = l.foldl pamPut env := by
  intro l
  induction l with
  | nil =>
    intro env r
    show some env = some r ↔ _
    constructor
    · intro h; cases h; exact ⟨by simp, rfl⟩
    · rintro ⟨_, rfl⟩; rfl
  | cons s l ih =>
    intro env r
    unfold pamPutAll
    by_cases h1 : s.length ≥ 64
    · rw [if_pos h1]
      constructor
      · intro h; cases h
      · rintro ⟨h, _⟩
        have := (h s (List.mem_cons_self ..)).1
        omega
    rw [if_neg h1]
    by_cases h2 : (!w.putenv s) = true
    · rw [if_pos h2]
      constructor
      · intro h; cases h
      · rintro ⟨h, _⟩
        rw [(h s (List.mem_cons_self ..)).2] at h2
        cases h2
    rw [if_neg h2, ih]
    constructor
    · rintro ⟨h, rfl⟩
      refine ⟨?_, rfl⟩
      intro v hv
      rcases List.mem_cons.1 hv with rfl | hv
      · exact ⟨by omega, by simpa using h2⟩
      · exact h v hv
    · rintro ⟨h, rfl⟩
      exact ⟨fun v hv => h v (List.mem_cons_of_mem _ hv), rfl⟩

/-- The environment of the session. -/
theorem loginVars_env (w : DeWorld) (pw : Passwd) (v : Str) (hv : '=' ∉ v) :
    getenv ((loginVars w pw).foldl pamPut w.pamEnv) v = LoginEnv w pw v := by
  have e : (loginVars w pw).foldl pamPut w.pamEnv =
      pamPut (pamPut (pamPut (pamPut (pamPut w.pamEnv (c!"QREXEC_AGENT_PID" ++ c!"=" ++ printDec w.ppid))
        (c!"HOME" ++ c!"=" ++ pw.dir)) (c!"SHELL" ++ c!"=" ++ pw.shell)) (c!"USER" ++ c!"=" ++ pw.name))
        (c!"LOGNAME" ++ c!"=" ++ pw.name) := rfl
  rw [e, getenv_pamPut _ _ _ _ (by decide) hv, getenv_pamPut _ _ _ _ (by decide) hv, getenv_pamPut _ _ _ _ (by decide) hv,
    getenv_pamPut _ _ _ _ (by decide) hv, getenv_pamPut _ _ _ _ (by decide) hv]
  unfold LoginEnv
  by_cases k1 : v = c!"QREXEC_AGENT_PID"
  · subst k1; rfl
  by_cases k2 : v = c!"HOME"
  · subst k2; rfl
  by_cases k3 : v = c!"SHELL"
  · subst k3; rfl
  by_cases k4 : v = c!"USER"
  · subst k4; rfl
  by_cases k5 : v = c!"LOGNAME"
  · subst k5; rfl
  simp only [if_neg k1, if_neg k2, if_neg k3, if_neg k4, if_neg k5]

/-! ## Root -/

/-- The environment the session gives to the program. -/
def sessionEnv (w : DeWorld) (pw : Passwd) : List Str := (loginVars w pw).foldl pamPut w.pamEnv

/-- The call of the program. -/
def loginCall (pw : Passwd) (env : List Str) (prog : Option Str) (cmd : Str) : Option ExecCall :=
  match prog with
  | some p => execQubesRpc2 p cmd env true
  | none => some ⟨pw.shell, [c!"-" ++ baseName pw.shell, c!"-c", cmd], env⟩

theorem deChild_ok (w : DeWorld) (pw : Passwd) (gs : List Nat) (env : List Str) (prog : Option Str) (cmd : Str)
    (root : w.creds.uid = 0) :
    deChild w pw { w.creds with groups := gs } env prog cmd =
      if w.setgid pw.gid = true ∧ w.setuid pw.uid = true then
        match loginCall pw env prog cmd with
        | none => .exits 125
        | some call => match w.exec call with
          | .ok => .becomes ⟨call, ⟨pw.uid, pw.gid, gs⟩, if w.chdir pw.dir then some pw.dir else none⟩
          | _ => .exits 125
      else .exits 125 := by
  unfold deChild doSetgid
  by_cases h1 : w.setgid pw.gid = true
  · rw [if_pos ⟨root, h1⟩]
    dsimp only
    unfold doSetuid
    by_cases h2 : w.setuid pw.uid = true
    · have e1 : (({ w.creds with groups := gs, gid := pw.gid } : Creds).uid = 0 ∧ w.setuid pw.uid = true) := ⟨root, h2⟩
      rw [if_pos e1, if_pos (c := w.setgid pw.gid = true ∧ w.setuid pw.uid = true) ⟨h1, h2⟩]
      dsimp only
      cases prog with
      | none =>
        unfold loginCall execOr
        dsimp only
        cases w.exec _ <;> rfl
      | some p =>
        unfold loginCall rpcExec
        dsimp only
        cases execQubesRpc2 p cmd env true with
        | none => rfl
        | some call =>
          dsimp only
          rw [if_pos rfl]
          unfold execOr
          cases w.exec call <;> rfl
    · rw [if_neg (fun h => h2 h.2), if_neg (c := w.setgid pw.gid = true ∧ w.setuid pw.uid = true) (fun h => h2 h.2)]
  · rw [if_neg (fun h => h1 h.2), if_neg (c := w.setgid pw.gid = true ∧ w.setuid pw.uid = true) (fun h => h1 h.1)]

/-- The process either ends with 125 before it forks, without having started anything, or every step up to the fork has
succeeded. -/
theorem agentDoExec_root (w : DeWorld) (prog : Option Str) (cmd user : Str) (root : w.creds.uid = 0) :
    (((agentDoExec w prog cmd user).2 = .exits 125 ∧ ∀ s, .started s ∉ (agentDoExec w prog cmd user).1) ∧
      ¬ ∃ pw gs, LoginOk w user pw gs) ∨
    ∃ pw gs, (w.setgid pw.gid = true → w.setuid pw.uid = true → LoginOk w user pw gs) ∧
      (∀ pw' gs', LoginOk w user pw' gs' → pw' = pw ∧ gs' = gs) ∧
      agentDoExec w prog cmd user =
        ([.authenticated user, .established, .opened] ++
          (deParent w (deChild w pw { w.creds with groups := gs } (sessionEnv w pw) prog cmd)).1,
         (deParent w (deChild w pw { w.creds with groups := gs } (sessionEnv w pw) prog cmd)).2) := by
  unfold agentDoExec
  rw [if_neg (by simpa using root)]
  cases he : w.getpwnam user with
  | none =>
    left
    refine ⟨⟨rfl, fun s h => by cases h⟩, ?_⟩
    rintro ⟨pw, gs, h⟩
    have := h.entry
    rw [he] at this; cases this
  | some pw =>
    dsimp only
    by_cases h0 : pw.name = [] ∨ pw.dir = []
    · rw [if_pos h0]
      left
      refine ⟨⟨rfl, fun s h => by cases h⟩, ?_⟩
      rintro ⟨pw', gs, h⟩
      have := h.entry
      rw [he] at this; cases this
      exact h0.elim h.name h.home
    rw [if_neg h0]
    obtain ⟨hn, hd⟩ := not_or.1 h0
    unfold dePam
    by_cases h1 : (!w.pamStart user) = true
    · rw [if_pos h1]
      left
      refine ⟨⟨rfl, fun s h => by cases h⟩, ?_⟩
      rintro ⟨pw', gs, h⟩
      rw [h.start] at h1; cases h1
    rw [if_neg h1]
    by_cases h2 : (!w.pamAuth user) = true
    · rw [if_pos h2]
      left
      refine ⟨⟨rfl, fun s h => by cases h⟩, ?_⟩
      rintro ⟨pw', gs, h⟩
      rw [h.auth] at h2; cases h2
    rw [if_neg h2]
    cases hg : w.initgroups pw.name pw.gid with
    | none =>
      left
      refine ⟨⟨rfl, fun s h => by simp at h⟩, ?_⟩
      rintro ⟨pw', gs, h⟩
      have := h.entry
      rw [he] at this; cases this
      have := h.groups
      rw [hg] at this; cases this
    | some gs =>
      dsimp only
      by_cases h3 : (!w.pamCred user) = true
      · rw [if_pos h3]
        left
        refine ⟨⟨rfl, fun s h => by simp at h⟩, ?_⟩
        rintro ⟨pw', gs, h⟩
        rw [h.cred] at h3; cases h3
      rw [if_neg h3]
      by_cases h4 : (!w.pamSession user) = true
      · rw [if_pos h4]
        left
        refine ⟨⟨rfl, fun s h => by simp at h⟩, ?_⟩
        rintro ⟨pw', gs, h⟩
        rw [h.session] at h4; cases h4
      rw [if_neg h4]
      cases hp : pamPutAll w w.pamEnv (loginVars w pw) with
      | none =>
        left
        refine ⟨⟨rfl, fun s h => by simp at h⟩, ?_⟩
        rintro ⟨pw', gs, h⟩
        have h' := h.entry
        rw [he] at h'; cases h'
        have := (pamPutAll_some w (loginVars w pw) w.pamEnv _).2 ⟨h.vars, rfl⟩
        rw [hp] at this; cases this
      | some env =>
        dsimp only
        obtain ⟨hv, henv⟩ := (pamPutAll_some w _ _ _).1 hp
        by_cases h5 : (!w.fork) = true
        · rw [if_pos h5]
          left
          refine ⟨⟨rfl, fun s h => by simp at h⟩, ?_⟩
          rintro ⟨pw', gs, h⟩
          rw [h.fork] at h5; cases h5
        rw [if_neg h5]
        right
        refine ⟨pw, gs, ?_, ?_, ?_⟩
        · intro k1 k2
          exact ⟨he, hn, hd, by simpa using h1, by simpa using h2, hg, by simpa using h3, by simpa using h4, hv,
            by simpa using h5, k1, k2⟩
        · intro pw' gs' h
          have h' := h.entry
          rw [he] at h'; cases h'
          have h' := h.groups
          rw [hg] at h'; cases h'
          exact ⟨rfl, rfl⟩
        · rw [henv]; rfl

/-- **C84, whom a program acts for.** If the agent (as root) starts a program for a user, then the user exists and has been
authenticated and given a session before; the program has the user id, the group id and exactly the supplementary groups of
that user; it is the only program that is started, and when it has ended, the session is closed. Meanwhile the agent's
process does not keep the streams open. -/
theorem C84_creds (w : DeWorld) (prog : Option Str) (cmd user : Str) (root : w.creds.uid = 0) (s : RunProg)
    (h : .started s ∈ (agentDoExec w prog cmd user).1) :
    ∃ pw gs, LoginOk w user pw gs ∧ s.creds = ⟨pw.uid, pw.gid, gs⟩ ∧
      s.dir = (if w.chdir pw.dir then some pw.dir else none) ∧
      (agentDoExec w prog cmd user).1 =
        [.authenticated user, .established, .opened, .started s, .closedStd, .waited, .ended] := by
  rcases agentDoExec_root w prog cmd user root with ⟨⟨_, hno⟩, _⟩ | ⟨pw, gs, hok, _, heq⟩
  · exact absurd h (hno s)
  rw [heq] at h ⊢
  rw [deChild_ok w pw gs _ prog cmd root] at h ⊢
  by_cases hs : w.setgid pw.gid = true ∧ w.setuid pw.uid = true
  · rw [if_pos hs] at h ⊢
    refine ⟨pw, gs, hok hs.1 hs.2, ?_⟩
    cases hc : loginCall pw (sessionEnv w pw) prog cmd with
    | none => rw [hc] at h; simp [deParent] at h
    | some call =>
      rw [hc] at h
      dsimp only at h ⊢
      cases hx : w.exec call with
      | ok =>
        rw [hx] at h
        dsimp only at h ⊢
        have : s = ⟨call, ⟨pw.uid, pw.gid, gs⟩, if w.chdir pw.dir then some pw.dir else none⟩ := by
          simpa [deParent] using h
        subst this
        exact ⟨rfl, rfl, rfl⟩
      | enoent => rw [hx] at h; simp [deParent] at h
      | otherError => rw [hx] at h; simp [deParent] at h
  · rw [if_neg hs] at h
    simp [deParent] at h

/-- **C84, what is started, and when.** The agent starts a program exactly if every step for the user succeeds and the
program can be executed. A service is executed by `exec_qubes_rpc2` (its words are never a command of a shell); anything
else is one argument of the login shell of the user. -/
theorem C84_started (w : DeWorld) (prog : Option Str) (cmd user : Str) (root : w.creds.uid = 0) (call : ExecCall) :
    (∃ s, .started s ∈ (agentDoExec w prog cmd user).1 ∧ s.call = call) ↔
      ∃ pw gs, LoginOk w user pw gs ∧ w.exec call = .ok ∧ ∃ env, (∀ v, '=' ∉ v → getenv env v = LoginEnv w pw v) ∧
        env = sessionEnv w pw ∧ IsLoginCall pw env prog cmd call := by
  rcases agentDoExec_root w prog cmd user root with ⟨⟨_, hno⟩, hnot⟩ | ⟨pw, gs, hok, huniq, heq⟩
  · constructor
    · rintro ⟨s, hs, _⟩; exact absurd hs (hno s)
    · rintro ⟨pw, gs, h, _⟩; exact absurd ⟨pw, gs, h⟩ hnot
  rw [heq, deChild_ok w pw gs _ prog cmd root]
  have hcall : ∀ (env : List Str) (c : ExecCall), loginCall pw env prog cmd = some c ↔
      IsLoginCall pw env prog cmd c := by
    intro env c
    cases prog with
    | none => exact ⟨fun h => (Option.some.inj h).symm, fun h => by rw [h]; rfl⟩
    | some p => exact Iff.rfl
  constructor
  · rintro ⟨s, hs, rfl⟩
    by_cases hg : w.setgid pw.gid = true ∧ w.setuid pw.uid = true
    · rw [if_pos hg] at hs
      cases hc : loginCall pw (sessionEnv w pw) prog cmd with
      | none => rw [hc] at hs; simp [deParent] at hs
      | some call =>
        rw [hc] at hs
        dsimp only at hs
        cases hx : w.exec call with
        | ok =>
          rw [hx] at hs
          dsimp only at hs
          have : s = ⟨call, ⟨pw.uid, pw.gid, gs⟩, if w.chdir pw.dir then some pw.dir else none⟩ := by
            simpa [deParent] using hs
          subst this
          exact ⟨pw, gs, hok hg.1 hg.2, hx, _, fun v hv => loginVars_env w pw v hv, rfl, (hcall _ _).1 hc⟩
        | enoent => rw [hx] at hs; simp [deParent] at hs
        | otherError => rw [hx] at hs; simp [deParent] at hs
    · rw [if_neg hg] at hs
      simp [deParent] at hs
  · rintro ⟨pw', gs', hl, hx, env, _, rfl, hm⟩
    obtain ⟨rfl, rfl⟩ := huniq pw' gs' hl
    rw [if_pos ⟨hl.setgid, hl.setuid⟩, (hcall _ _).2 hm]
    dsimp only
    rw [hx]
    exact ⟨⟨call, ⟨pw'.uid, pw'.gid, gs'⟩, if w.chdir pw'.dir then some pw'.dir else none⟩, by simp [deParent], rfl⟩

/-- **C84, environment.** The program has HOME, SHELL, USER and LOGNAME of the user, and the number of the agent's process;
every other variable - except, for a service, those that describe calls - is as PAM has set it up, and nothing comes from
the environment of the agent. -/
theorem C84_env (w : DeWorld) (prog : Option Str) (cmd user : Str) (root : w.creds.uid = 0) (s : RunProg)
    (h : .started s ∈ (agentDoExec w prog cmd user).1) :
    ∃ pw, w.getpwnam user = some pw ∧ ∀ v, '=' ∉ v →
      (prog = none ∨ ¬ c!"QREXEC" <+: v ∨ v = c!"QREXEC_AGENT_PID") → getenv s.call.env v = LoginEnv w pw v := by
  obtain ⟨pw, gs, hl, hx, env, henv, _, hm⟩ := (C84_started w prog cmd user root s.call).1 ⟨s, h, rfl⟩
  refine ⟨pw, hl.entry, ?_⟩
  intro v hv hc
  cases prog with
  | none =>
    unfold IsLoginCall at hm
    dsimp only at hm
    rw [hm]
    exact henv v hv
  | some p =>
    unfold IsLoginCall at hm
    dsimp only at hm
    obtain ⟨full, remote, target, _, _, he⟩ := exec_words p cmd env true s.call hm
    rw [if_pos rfl] at he
    rw [he]
    dsimp only
    rw [getenv_filter, henv v hv]
    intro e hp
    unfold shouldStripEnv
    rcases hc with hc | hc | hc
    · cases hc
    · have : startsWith c!"QREXEC" e = false := by
        rw [startsWith_false]
        rintro ⟨t, rfl⟩
        rcases List.prefix_or_prefix_of_prefix hp (List.prefix_append c!"QREXEC" t) with k | k
        · have : '=' ∈ c!"QREXEC" := k.subset (by simp)
          exact absurd this (by decide)
        · rcases (List.prefix_concat_iff.1 k) with k | k
          · exact absurd (congrArg List.getLast? k) (by simp)
          · exact hc k
      rw [this]; rfl
    · subst hc
      obtain ⟨t, rfl⟩ := hp
      rfl

/-- **C84, exit status.** When a program has been started, the process ends with the program's exit status (128 plus the
number of the signal that killed it), unless `waitpid` or `pam_end` fails. -/
theorem C84_status (w : DeWorld) (prog : Option Str) (cmd user : Str) (root : w.creds.uid = 0) (s : RunProg)
    (h : .started s ∈ (agentDoExec w prog cmd user).1) :
    (agentDoExec w prog cmd user).2 =
      .exits (if w.pamEnd = true then (if w.wait = true then endCode (w.runs s) else 1) else 125) := by
  rcases agentDoExec_root w prog cmd user root with ⟨⟨_, hno⟩, _⟩ | ⟨pw, gs, hok, _, heq⟩
  · exact absurd h (hno s)
  rw [heq] at h ⊢
  generalize deChild w pw { w.creds with groups := gs } (sessionEnv w pw) prog cmd = c at h ⊢
  cases c with
  | exits n => simp [deParent] at h
  | becomes s' =>
    have : s = s' := by simpa [deParent] using h
    subst this
    unfold deParent
    dsimp only
    cases w.pamEnd with
    | false => rfl
    | true =>
      cases w.wait with
      | false => rfl
      | true =>
        cases w.runs s with
        | exited n => rfl
        | signaled n =>
          show DeEnd.exits (n + 128) = .exits (128 + n)
          rw [Nat.add_comm]

/-- **C84, failures.** When nothing has been started, the process ends with 125 (or 1, if it cannot wait for its child). -/
theorem C84_nothing (w : DeWorld) (prog : Option Str) (cmd user : Str) (root : w.creds.uid = 0)
    (h : ∀ s, .started s ∉ (agentDoExec w prog cmd user).1) :
    (agentDoExec w prog cmd user).2 = .exits 125 ∨ (w.wait = false ∧ (agentDoExec w prog cmd user).2 = .exits 1) := by
  rcases agentDoExec_root w prog cmd user root with ⟨⟨h1, _⟩, _⟩ | ⟨pw, gs, hok, _, heq⟩
  · exact .inl h1
  rw [heq] at h ⊢
  rw [deChild_ok w pw gs _ prog cmd root] at h ⊢
  have key : ∀ c, c = DeEnd.exits 125 → (deParent w c).2 = .exits 125 ∨ (w.wait = false ∧ (deParent w c).2 = .exits 1) := by
    rintro c rfl
    unfold deParent
    dsimp only
    cases w.pamEnd with
    | false => exact .inl rfl
    | true => cases w.wait with
      | false => exact .inr ⟨rfl, rfl⟩
      | true => exact .inl rfl
  refine key _ ?_
  by_cases hg : w.setgid pw.gid = true ∧ w.setuid pw.uid = true
  · rw [if_pos hg] at h ⊢
    cases hc : loginCall pw (sessionEnv w pw) prog cmd with
    | none => rfl
    | some call =>
      rw [hc] at h
      dsimp only at h ⊢
      cases hx : w.exec call with
      | ok =>
        rw [hx] at h
        exact absurd (by simp [deParent]) (h ⟨call, ⟨pw.uid, pw.gid, gs⟩, if w.chdir pw.dir then some pw.dir else none⟩)
      | enoent => rfl
      | otherError => rfl
  · rw [if_neg hg]

/-- As root the agent's process itself never becomes a program. -/
theorem C84_root_waits (w : DeWorld) (prog : Option Str) (cmd user : Str) (root : w.creds.uid = 0) (s : RunProg) :
    (agentDoExec w prog cmd user).2 ≠ .becomes s := by
  rcases agentDoExec_root w prog cmd user root with ⟨⟨h1, _⟩, _⟩ | ⟨pw, gs, hok, _, heq⟩
  · rw [h1]; simp
  · rw [heq]; simp [deParent]

/-- A service is executed as `exec_qubes_rpc2` says or not at all. -/
theorem rpcExec_becomes (w : DeWorld) (creds : Creds) (dir : Option Str) (prog cmd : Str) (env : List Str) (sh : Bool)
    (s : RunProg) : rpcExec w creds dir prog cmd env sh = .becomes s ↔
      s.creds = creds ∧ s.dir = dir ∧ execQubesRpc2 prog cmd env sh = some s.call ∧ w.exec s.call = .ok := by
  unfold rpcExec
  cases he : execQubesRpc2 prog cmd env sh with
  | none => simp
  | some call =>
    have : (if sh = true then execOr w creds dir call 125 125 else execOr w creds dir call 127 125) = .becomes s ↔
        w.exec call = .ok ∧ s = ⟨call, creds, dir⟩ := by
      cases sh
      · rw [if_neg (by simp)]
        unfold execOr
        cases w.exec call <;> simp [eq_comm]
      · rw [if_pos rfl]
        unfold execOr
        cases w.exec call <;> simp [eq_comm]
    rw [this]
    constructor
    · rintro ⟨h, rfl⟩; exact ⟨rfl, rfl, rfl, h⟩
    · rintro ⟨rfl, rfl, h, hx⟩; cases h; exact ⟨hx, rfl⟩

/-- A program with the credentials and the environment of the process. -/
theorem execOr_becomes (w : DeWorld) (creds : Creds) (dir : Option Str) (call : ExecCall) (a b : Nat) (s : RunProg) :
    execOr w creds dir call a b = .becomes s ↔ s = ⟨call, creds, dir⟩ ∧ w.exec call = .ok := by
  unfold execOr
  cases w.exec call <;> simp [eq_comm]

/-- **C84, agent without privileges.** It runs programs only for its own user, as itself and with its own environment. -/
theorem C84_unprivileged (w : DeWorld) (prog : Option Str) (cmd user : Str) (hr : w.creds.uid ≠ 0) (s : RunProg) :
    (agentDoExec w prog cmd user).1 = [] ∧
    ((agentDoExec w prog cmd user).2 = .becomes s ↔
      (∃ pw, w.getpwuid w.creds.uid = some pw ∧ pw.name = user) ∧ s.creds = w.creds ∧ s.dir = none ∧ w.exec s.call = .ok ∧
      match prog with
      | some p => execQubesRpc2 p cmd w.environ false = some s.call
      | none => s.call = ⟨c!"/bin/sh", [c!"sh", c!"-c", cmd], w.environ⟩) := by
  unfold agentDoExec
  rw [if_pos hr]
  cases hp : w.getpwuid w.creds.uid with
  | none => exact ⟨rfl, by simp⟩
  | some pw =>
    dsimp only
    by_cases hn : pw.name ≠ user
    · rw [if_pos hn]
      refine ⟨rfl, ?_⟩
      constructor
      · intro h; cases h
      · rintro ⟨⟨pw', h1, h2⟩, _⟩
        cases h1
        exact absurd h2 hn
    · rw [if_neg hn]
      have hn : pw.name = user := by simpa using hn
      cases prog with
      | none =>
        refine ⟨rfl, ?_⟩
        dsimp only
        rw [execOr_becomes]
        constructor
        · rintro ⟨rfl, h⟩; exact ⟨⟨pw, rfl, hn⟩, rfl, rfl, h, rfl⟩
        · rintro ⟨_, h1, h2, h3, h4⟩
          obtain ⟨call, creds, dir⟩ := s
          dsimp only at h1 h2 h3 h4
          subst h1 h2 h4
          exact ⟨rfl, h3⟩
      | some p =>
        refine ⟨rfl, ?_⟩
        dsimp only
        rw [rpcExec_becomes]
        constructor
        · rintro ⟨h1, h2, h3, h4⟩; exact ⟨⟨pw, rfl, hn⟩, h1, h2, h4, h3⟩
        · rintro ⟨_, h1, h2, h3, h4⟩; exact ⟨h1, h2, h4, h3⟩

/-- **C84, fork server.** Programs run as the user whose fork server it is, with its environment; a command goes to the
shell of the session. -/
theorem C84_fork_server (w : DeWorld) (prog : Option Str) (cmd : Str) (s : RunProg) :
    forkDoExec w prog cmd = .becomes s ↔
      s.creds = w.creds ∧ s.dir = none ∧ w.exec s.call = .ok ∧
      match prog with
      | some p => execQubesRpc2 p cmd w.environ false = some s.call
      | none => ∃ shell, shell = (getenv w.environ c!"SHELL").getD c!"/bin/sh" ∧
          s.call = ⟨shell, [baseName shell, c!"-c", cmd], w.environ⟩ := by
  have hg : ∀ env : List Str, ((env.find? fun e => (c!"SHELL=").isPrefixOf e).map fun e => e.drop 6) = getenv env c!"SHELL" := by
    intro env
    induction env with
    | nil => rfl
    | cons e env ih =>
      rw [getenv, List.find?_cons]
      show Option.map _ (match (c!"SHELL=").isPrefixOf e with | true => _ | false => _) =
        if (c!"SHELL=").isPrefixOf e = true then _ else _
      cases (c!"SHELL=").isPrefixOf e with
      | true => rfl
      | false => exact ih
  unfold forkDoExec
  cases prog with
  | none =>
    dsimp only
    rw [hg, execOr_becomes]
    constructor
    · rintro ⟨rfl, h⟩; exact ⟨rfl, rfl, h, _, rfl, rfl⟩
    · rintro ⟨h1, h2, h3, sh, hsh, h4⟩
      obtain ⟨call, creds, dir⟩ := s
      dsimp only at h1 h2 h3 h4
      subst h1 h2 h4 hsh
      exact ⟨rfl, h3⟩
  | some p =>
    dsimp only
    rw [rpcExec_becomes]
    tauto

/-- **C84, dom0.** The user of a call is not looked at: programs run as the process that has received it. -/
theorem C84_dom0 (w : DeWorld) (failure : Nat) (prog : Option Str) (cmd : Str) (s : RunProg) :
    dom0DoExec w failure prog cmd = .becomes s ↔
      s.creds = w.creds ∧ s.dir = none ∧ w.exec s.call = .ok ∧
      match prog with
      | some p => execQubesRpc2 p cmd w.environ false = some s.call
      | none => s.call = ⟨c!"/bin/bash", [c!"bash", c!"-c", cmd], w.environ⟩ := by
  unfold dom0DoExec
  cases prog with
  | none =>
    dsimp only
    rw [execOr_becomes]
    constructor
    · rintro ⟨rfl, h⟩; exact ⟨rfl, rfl, h, rfl⟩
    · rintro ⟨h1, h2, h3, h4⟩
      obtain ⟨call, creds, dir⟩ := s
      dsimp only at h1 h2 h3 h4
      subst h1 h2 h4
      exact ⟨rfl, h3⟩
  | some p =>
    dsimp only
    rw [rpcExec_becomes]
    tauto

/-- **C84, from the text of a request.** A program that the agent (as root) starts for a line acts for the user in front of
the first colon. If the rest is a service call, the program is the file found for that service, given to `/bin/sh` as an
argument; otherwise the rest is given to the user's login shell as it is. -/
theorem C84_request (w : DeWorld) (sw : StartWorld) (sendDesc : Bool) (line : Str) (root : w.creds.uid = 0)
    (r : List DeEvent × DeEnd) (hr : agentProcess w sw sendDesc line = some r) (s : RunProg) (hs : .started s ∈ r.1) :
    ∃ c user pw gs, CommandText true line c ∧ c.username = some user ∧ ':' ∉ user ∧ LoginOk w user pw gs ∧
      s.creds = ⟨pw.uid, pw.gid, gs⟩ ∧
      ((∃ sv p full remote more, c.service = some sv ∧ FirstPlace true sw.fs (servicePlaces (pathDirs sw.pathList) sv) p ∧
          FileAt true sw.fs p (.other true) ∧ strtokSpace c.command = full :: remote :: more ∧
          s.call.path = c!"/bin/sh" ∧ s.call.argv[4]? = some p ∧ s.call.argv[5]? = some full ∧
          s.call.argv[6]? = some remote) ∨
        (c.service = none ∧ s.call.path = pw.shell ∧ s.call.argv = [c!"-" ++ baseName pw.shell, c!"-c", c.command])) := by
  unfold agentProcess at hr
  cases hp : parseRpcCommand true line with
  | none => rw [hp] at hr; cases hr
  | some c =>
    rw [hp] at hr
    dsimp only at hr
    have ht := (C50_parse true line c).1 hp
    obtain ⟨rest, text, hu, _, _⟩ := id ht
    rw [if_pos rfl] at hu
    obtain ⟨user, hu1, hu2, _⟩ := hu
    cases hq : procOf sw c sendDesc with
    | none => rw [hq] at hr; cases hr
    | some prog =>
      rw [hq] at hr
      dsimp only at hr
      cases hr
      rw [hu1] at hs
      have hs : .started s ∈ (agentDoExec w prog c.command user).1 := hs
      obtain ⟨pw, gs, hl, hc, _, _⟩ := C84_creds w prog c.command user root s hs
      obtain ⟨pw', gs', hl', _, env, _, _, hm⟩ := (C84_started w prog c.command user root s.call).1 ⟨s, hs, rfl⟩
      have : pw' = pw := by
        have h1 := hl.entry
        rw [hl'.entry] at h1
        cases h1; rfl
      subst this
      refine ⟨c, user, pw', gs, ht, hu1, hu2, hl, hc, ?_⟩
      unfold procOf at hq
      by_cases hf : (!sw.forks) = true
      · rw [if_pos hf] at hq; cases hq
      rw [if_neg hf] at hq
      cases hsv : c.service with
      | none =>
        rw [hsv] at hq
        cases hq
        have hm : s.call = _ := hm
        right
        rw [hm]
        exact ⟨rfl, rfl, rfl⟩
      | some sv =>
        rw [hsv] at hq
        dsimp only at hq
        have hspec := C65_service sw.fs sw.bufSize sw.pathList true sendDesc sw.connects c.command sv
        cases hfs : findService sw.fs sw.bufSize sw.pathList true sendDesc sw.connects c.command sv with
        | exec p =>
          rw [hfs] at hq hspec
          cases hq
          have hm : execQubesRpc2 p c.command env true = some s.call := hm
          obtain ⟨full, remote, target, hw, _, he⟩ := exec_words p c.command env true s.call hm
          rw [if_pos rfl] at he
          left
          refine ⟨sv, p, full, remote, _, rfl, hspec.1, hspec.2, hw, ?_⟩
          rw [he]
          exact ⟨rfl, rfl, rfl, rfl⟩
        | notFound => rw [hfs] at hq; cases hq
        | failed => rw [hfs] at hq; cases hq
        | unix p f => rw [hfs] at hq; cases hq
        | tcp h p f => rw [hfs] at hq; cases hq

/-- What a service exits with if it cannot be executed: 127 if the file is not there any more, 125 otherwise. -/
theorem rpcExec_fails (w : DeWorld) (creds : Creds) (dir : Option Str) (prog cmd : Str) (env : List Str)
    (h : ∀ s, rpcExec w creds dir prog cmd env false ≠ .becomes s) :
    rpcExec w creds dir prog cmd env false =
      .exits (match execQubesRpc2 prog cmd env false with
        | some call => if w.exec call = .enoent then 127 else 125
        | none => 125) := by
  unfold rpcExec at h ⊢
  cases he : execQubesRpc2 prog cmd env false with
  | none => rfl
  | some call =>
    rw [he] at h
    dsimp only at h ⊢
    rw [if_neg (by simp)] at h ⊢
    unfold execOr at h ⊢
    cases hx : w.exec call with
    | ok => rw [hx] at h; exact absurd rfl (h _)
    | enoent => rfl
    | otherError => rfl

/-- A service cannot be executed since its file is not there any more. -/
def FileGone (w : DeWorld) (prog cmd : Str) : Prop :=
  ∃ call, execQubesRpc2 prog cmd w.environ false = some call ∧ w.exec call = .enoent

/-- **C84, when nothing can be executed.** Without a session of its own (agent without privileges, fork server, dom0) a
process that cannot become the program ends with 127 if the file of the service is gone, and with 125 otherwise; for a
command it is 125 in an agent, 1 in a fork server and in the client of dom0, 125 in the daemon. -/
theorem C84_failed (w : DeWorld) (prog : Option Str) (cmd user : Str) (failure : Nat) :
    (w.creds.uid ≠ 0 → (∀ s, (agentDoExec w prog cmd user).2 ≠ .becomes s) →
      ∃ n, (agentDoExec w prog cmd user).2 = .exits n ∧
        (n = 127 ∨ n = 125) ∧
        (n = 127 ↔ ∃ p pw, prog = some p ∧ w.getpwuid w.creds.uid = some pw ∧ pw.name = user ∧ FileGone w p cmd)) ∧
    ((∀ s, forkDoExec w prog cmd ≠ .becomes s) →
      ∃ n, forkDoExec w prog cmd = .exits n ∧
        match prog with
        | some p => (n = 127 ∨ n = 125) ∧ (n = 127 ↔ FileGone w p cmd)
        | none => n = 1) ∧
    ((∀ s, dom0DoExec w failure prog cmd ≠ .becomes s) →
      ∃ n, dom0DoExec w failure prog cmd = .exits n ∧
        match prog with
        | some p => (n = 127 ∨ n = 125) ∧ (n = 127 ↔ FileGone w p cmd)
        | none => n = failure) := by
  have key : ∀ (p : Str) (creds : Creds), (∀ s, rpcExec w creds none p cmd w.environ false ≠ .becomes s) →
      ∃ n, rpcExec w creds none p cmd w.environ false = .exits n ∧ (n = 127 ∨ n = 125) ∧
        (n = 127 ↔ FileGone w p cmd) := by
    intro p creds h
    rw [rpcExec_fails w creds none p cmd w.environ h]
    refine ⟨_, rfl, ?_⟩
    unfold FileGone
    cases he : execQubesRpc2 p cmd w.environ false with
    | none => exact ⟨.inr rfl, by simp⟩
    | some call =>
      dsimp only
      by_cases hx : w.exec call = .enoent
      · rw [if_pos hx]
        exact ⟨.inl rfl, by simp [hx]⟩
      · rw [if_neg hx]
        refine ⟨.inr rfl, by simp [hx]⟩
  have cmdk : ∀ (call : ExecCall) (creds : Creds) (n : Nat), (∀ s, execOr w creds none call n n ≠ .becomes s) →
      execOr w creds none call n n = .exits n := by
    intro call creds n h
    unfold execOr at h ⊢
    cases hx : w.exec call with
    | ok => rw [hx] at h; exact absurd rfl (h _)
    | enoent => rfl
    | otherError => rfl
  refine ⟨?_, ?_, ?_⟩
  · intro hu h
    unfold agentDoExec at h ⊢
    rw [if_pos hu] at h ⊢
    cases hp : w.getpwuid w.creds.uid with
    | none => exact ⟨125, rfl, .inr rfl, by simp⟩
    | some pw =>
      rw [hp] at h
      dsimp only at h ⊢
      by_cases hn : pw.name ≠ user
      · rw [if_pos hn]
        refine ⟨125, rfl, .inr rfl, ?_⟩
        constructor
        · intro k; cases k
        · rintro ⟨p, pw', _, h1, h2, _⟩
          cases h1
          exact absurd h2 hn
      · rw [if_neg hn] at h ⊢
        have hn : pw.name = user := by simpa using hn
        cases prog with
        | none =>
          refine ⟨125, cmdk _ _ _ h, .inr rfl, ?_⟩
          constructor
          · intro k; cases k
          · rintro ⟨p, _, h1, _⟩; cases h1
        | some p =>
          obtain ⟨n, h1, h2, h3⟩ := key p _ h
          refine ⟨n, h1, h2, h3.trans ?_⟩
          constructor
          · intro k; exact ⟨p, pw, rfl, rfl, hn, k⟩
          · rintro ⟨p', _, h4, _, _, h5⟩; cases h4; exact h5
  · intro h
    unfold forkDoExec at h ⊢
    cases prog with
    | none => exact ⟨1, cmdk _ _ _ h, rfl⟩
    | some p => exact key p _ h
  · intro h
    unfold dom0DoExec at h ⊢
    cases prog with
    | none => exact ⟨failure, cmdk _ _ _ h, rfl⟩
    | some p => exact key p _ h

/-! ## Cases -/

/-- A qube with the user "user". -/
def exDe : DeWorld where
  creds := ⟨0, 0, [0]⟩
  environ := [c!"PATH=/agent"]
  getpwuid := fun _ => none
  getpwnam := fun u => if u = c!"user" then some ⟨c!"user", c!"/home/user", c!"/bin/bash", 1000, 1000⟩
    else if u = c!"long" then some ⟨c!"long", List.replicate 59 '/', c!"/bin/bash", 1001, 1001⟩ else none
  pamStart := fun _ => true
  pamAuth := fun _ => true
  initgroups := fun _ g => some [g, 98]
  pamCred := fun _ => true
  pamSession := fun _ => true
  pamEnv := [c!"PATH=/usr/bin", c!"HOME=/"]
  putenv := fun _ => true
  ppid := 217
  fork := true
  setgid := fun _ => true
  setuid := fun _ => true
  chdir := fun _ => true
  exec := fun _ => .ok
  runs := fun _ => .signaled 9
  wait := true
  pamEnd := true

set_option maxRecDepth 20000 in
/-- A command for a user, killed by a signal. -/
theorem C84_example : agentDoExec exDe none c!"ls -l" c!"user" =
    ([.authenticated c!"user", .established, .opened,
      .started ⟨⟨c!"/bin/bash", [c!"-bash", c!"-c", c!"ls -l"],
        [c!"PATH=/usr/bin", c!"QREXEC_AGENT_PID=217", c!"HOME=/home/user", c!"SHELL=/bin/bash", c!"USER=user",
          c!"LOGNAME=user"]⟩, ⟨1000, 1000, [1000, 98]⟩, some c!"/home/user"⟩,
      .closedStd, .waited, .ended], .exits 137) := by decide

set_option maxRecDepth 20000 in
example : ∃ r s, agentProcess exDe ⟨exFs, 4096, c!"/etc/qubes-rpc", true, true, true, none⟩ true c!"user:ls -l" = some r ∧
    .started s ∈ r.1 :=
  ⟨_, ⟨⟨c!"/bin/bash", [c!"-bash", c!"-c", c!"ls -l"],
        [c!"PATH=/usr/bin", c!"QREXEC_AGENT_PID=217", c!"HOME=/home/user", c!"SHELL=/bin/bash", c!"USER=user",
          c!"LOGNAME=user"]⟩, ⟨1000, 1000, [1000, 98]⟩, some c!"/home/user"⟩, rfl, by decide⟩

set_option maxRecDepth 20000 in
/-- Finding: with a home directory whose name has 59 characters or more, nothing can be run for a user; the session that has
been opened before is not closed. -/
theorem C84_long_home : agentDoExec exDe none c!"ls" c!"long" =
    ([.authenticated c!"long", .established, .opened], .exits 125) := by decide

/-- Finding: whenever the name of the home directory has 59 bytes or more, nothing is run for that user. -/
theorem C84_long_home_always (w : DeWorld) (prog : Option Str) (cmd user : Str) (root : w.creds.uid = 0) (pw : Passwd)
    (he : w.getpwnam user = some pw) (hl : 59 ≤ pw.dir.length) (s : RunProg) :
    .started s ∉ (agentDoExec w prog cmd user).1 := by
  intro h
  obtain ⟨pw', gs, hok, _⟩ := C84_creds w prog cmd user root s h
  have := hok.entry
  rw [he] at this
  cases this
  have := (hok.vars (c!"HOME=" ++ pw.dir) (by simp)).1
  rw [List.length_append] at this
  have h5 : (c!"HOME=").length = 5 := rfl
  omega

/-- A fork server without a shell. -/
example (s : RunProg) : forkDoExec { exDe with exec := fun _ => .enoent } none c!"ls" ≠ .becomes s := by
  intro h; cases h

end Qrexec
