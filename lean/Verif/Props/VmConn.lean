import Verif.Props.VmAgent
import Verif.Lemmas.RuleLine

/-! # C67, C68: every connection is reported, every request is started -/
namespace Qrexec
open Spec

theorem va_prefix {load : RpcService → Option SvcConf} {h : VaHistory} {s : VaState} (hr : VaRun load h s) :
    ∀ pre e o post, h = pre ++ (e, o) :: post →
      ∃ s0 s1, VaRun load pre s0 ∧ e.Possible s0 ∧ vaStep load s0 e = some (s1, o) := by
  induction hr with
  | start => intro pre e o post he; simp at he
  | @step tr s s' e' o' hr hp hs ih =>
    intro pre e o post he
    rcases List.eq_nil_or_concat post with rfl | ⟨post', y, rfl⟩
    · have := List.append_inj' he rfl
      obtain ⟨rfl, h2⟩ := this
      cases h2
      exact ⟨s, s', hr, hp, hs⟩
    · have he' : tr ++ [(e', o')] = (pre ++ (e, o) :: post') ++ [y] := by rw [he]; simp [List.concat_eq_append]
      exact ih _ _ _ _ (List.append_inj' he' rfl).1

/-- **C67.** Whatever the daemon, the children and the clients do: in the step in which the end of a connection is seen, the
domain and the port of this connection are reported to the daemon, once for each connection that ends; and nothing is
reported otherwise. -/
theorem C67_reported_partial {load : RpcService → Option SvcConf} {h : VaHistory} {s : VaState} (hr : VaRun load h s)
    {pre post : VaHistory} {e : VaEv} {o : List VaOut} (he : h = pre ++ (e, o) :: post) :
    (reports o).Perm (((openConns pre).filter (endedBy e)).map Prod.snd) := by
  obtain ⟨s0, s1, h1, h2, h3⟩ := va_prefix hr _ _ _ _ he
  exact (va_step (va_inv h1) h2 h3).2.1

/-- There was room for every connection of the history. -/
def VaRoom (h : VaHistory) : Prop :=
  ∀ pre x post, h = pre ++ x :: post →
    ((openConns pre).filter fun c => !endedBy x.1 c).length + (x.2.filterMap opens).length ≤ 256

theorem note_room (cs : List VaOpen) : ∀ l : List VaOpen, l.length + cs.length ≤ 256 → cs.foldl noteOpen l = l ++ cs := by
  induction cs with
  | nil => intro l _; simp
  | cons c cs ih =>
    intro l hl
    rw [List.length_cons] at hl
    rw [List.foldl_cons]
    have : noteOpen l c = l ++ [c] := by unfold noteOpen; rw [if_pos (by omega)]
    rw [this, ih _ (by simp; omega)]
    simp

/-- **C67.** While there are at most 256 connections at a time: the connections that were begun are, one for one, those that
were reported and those that have not ended. -/
theorem C67_once {load : RpcService → Option SvcConf} {h : VaHistory} {s : VaState} (hr : VaRun load h s)
    (hroom : VaRoom h) :
    ((h.flatMap fun x => x.2.filterMap opens).map Prod.snd).Perm
      ((h.flatMap fun x => reports x.2) ++ (openConns h).map Prod.snd) := by
  induction hr with
  | start => exact List.Perm.refl _
  | @step tr s s' e o hr hp hs ih =>
    have hroom' : VaRoom tr := by
      intro pre x post he
      exact hroom pre x (post ++ [(e, o)]) (by rw [he]; simp)
    have ih := ih hroom'
    have hrep := (va_step (va_inv hr) hp hs).2.1
    have hro := hroom tr (e, o) [] rfl
    rw [List.flatMap_append, List.flatMap_append, openConns_snoc]
    unfold openStep
    dsimp only at hro ⊢
    rw [note_room _ _ hro]
    simp only [List.flatMap_cons, List.flatMap_nil, List.append_nil, List.map_append]
    have hsplit : ((openConns tr).map Prod.snd).Perm
        (reports o ++ ((openConns tr).filter fun c => !endedBy e c).map Prod.snd) := by
      refine List.Perm.trans ?_ (List.Perm.append_right _ hrep.symm)
      rw [← List.map_append]
      exact ((List.filter_append_perm (endedBy e) (openConns tr)).symm).map _
    refine (List.Perm.append_right _ ih).trans ?_
    rw [List.append_assoc, List.append_assoc]
    refine List.Perm.append_left _ ?_
    rw [← List.append_assoc]
    exact List.Perm.append_right _ hsplit

/-- The table of the agent, as the daemon sees it, never has more than 256 connections. -/
theorem C67_bound (h : VaHistory) : (openConns h).length ≤ 256 := by
  have key : ∀ (cs : List VaOpen) (l : List VaOpen), l.length ≤ 256 → (cs.foldl noteOpen l).length ≤ 256 := by
    intro cs
    induction cs with
    | nil => intro l hl; exact hl
    | cons c cs ih =>
      intro l hl
      refine ih _ ?_
      unfold noteOpen
      split
      · simp; omega
      · exact hl
  induction h using List.reverseRecOn with
  | nil => exact Nat.zero_le _
  | append_singleton h x ih =>
    rw [openConns_snoc]
    exact key _ _ (Nat.le_trans (List.length_filter_le _ _) ih)

/-- **C67, a finding.** A connection for which no process could be forked is never reported: it is in the table for ever. -/
theorem C67_lost {h : VaHistory} {d p : Nat} (hm : (VaKey.lost, d, p) ∈ openConns h) (h' : VaHistory) :
    (VaKey.lost, d, p) ∈ openConns (h ++ h') := by
  have hk : ∀ (cs : List VaOpen) (l : List VaOpen) c, c ∈ l → c ∈ cs.foldl noteOpen l := by
    intro cs
    induction cs with
    | nil => intro l c hc; exact hc
    | cons x cs ih =>
      intro l c hc
      refine ih _ _ ?_
      unfold noteOpen
      split
      · exact List.mem_append_left _ hc
      · exact hc
  induction h' using List.reverseRecOn with
  | nil => simpa using hm
  | append_singleton h' x ih =>
    rw [← List.append_assoc, openConns_snoc]
    refine hk _ _ _ (List.mem_filter.2 ⟨ih, ?_⟩)
    obtain ⟨e, o⟩ := x
    cases e <;> rfl

/-- Such a connection exists. -/
example : ∃ o s, VaRun (fun _ => none) [(.exec 0x200 5 513 c!"user:ls\x00" {} none, o)] s ∧
    openConns [(.exec 0x200 5 513 c!"user:ls\x00" {} none, o)] = [(.lost, 5, 513)] :=
  ⟨_, _, VaRun.step (tr := []) VaRun.start ⟨(fun _ h => by cases h), (fun _ h => by cases h), (fun p h => by cases h)⟩ rfl, rfl⟩

/-- **C67, a finding.** A connection that is begun while there are 256 others is not in the table, and so never reported. -/
theorem C67_full {h : VaHistory} (hl : (openConns h).length = 256) (e : VaEv) (o : List VaOut)
    (hn : ∀ c, endedBy e c = false) : openConns (h ++ [(e, o)]) = openConns h := by
  rw [openConns_snoc]
  unfold openStep
  dsimp only
  have e1 : (openConns h).filter (fun c => !endedBy e c) = openConns h :=
    List.filter_eq_self.2 fun c _ => by rw [hn]; rfl
  rw [e1]
  have : ∀ (cs : List VaOpen) (l : List VaOpen), l.length = 256 → cs.foldl noteOpen l = l := by
    intro cs
    induction cs with
    | nil => intro l _; rfl
    | cons c cs ih =>
      intro l hl
      rw [List.foldl_cons]
      have : noteOpen l c = l := by unfold noteOpen; rw [if_neg (by omega)]
      rw [this]
      exact ih l hl
  exact this _ _ hl

/-- **C68.** The requests to run a command that were received are, one for one, those that were started and those that are
postponed. -/
theorem C68_all {load : RpcService → Option SvcConf} {h : VaHistory} {s : VaState} (hr : VaRun load h s) :
    (h.filterMap fun x => requestOf load x.1).Perm ((h.flatMap fun x => startedJobs x.2) ++ postponed load h) := by
  induction hr with
  | start => exact List.Perm.refl _
  | @step tr s s' e o hr hp hs ih =>
    have hi := va_inv hr
    have hst := (va_step hi hp hs).2.2
    rw [List.filterMap_append, List.flatMap_append, postponed_snoc]
    simp only [List.flatMap_cons, List.flatMap_nil, List.append_nil, List.filterMap_cons, List.filterMap_nil]
    -- nothing arrives
    have quiet : (startedJobs o = [] ∨ startedJobs o = postponed load tr) →
        (tr.filterMap fun x => requestOf load x.1).Perm
          (((tr.flatMap fun x => startedJobs x.2) ++ startedJobs o) ++
            (postponed load tr).filter fun j => !decide (j ∈ startedJobs o)) := by
      intro h2
      rcases h2 with h2 | h2
      · rw [h2, filter_none, List.append_nil]; exact ih
      · have : (postponed load tr).filter (fun j => !decide (j ∈ startedJobs o)) = [] := by
          rw [List.filter_eq_nil_iff]
          intro j hj
          rw [h2]
          simp [hj]
        rw [this, h2, List.append_nil]
        exact ih
    cases e with
    | exec type d p body t session =>
      have hst : if type = 0x202 then _ else _ := hst
      by_cases hc : type = 0x202
      · rw [if_pos hc] at hst
        rw [show requestOf load (.exec type d p body t session) = none from if_pos hc]
        dsimp only
        rw [List.append_nil]
        exact quiet (Or.inl hst)
      · rw [if_neg hc] at hst
        have hq : requestOf load (.exec type d p body t session) = some (vaJob load type d p body) := if_neg hc
        rw [hq]
        dsimp only
        rcases hst with ⟨h1, _⟩ | ⟨h1, _⟩
        · rw [h1, if_neg (by simp)]
          refine (List.Perm.append_right _ ih).trans ?_
          rw [List.append_assoc, List.append_assoc]
          exact List.Perm.append_left _ List.perm_append_comm
        · rw [h1, if_pos rfl, List.append_nil, ← List.append_assoc]
          exact List.Perm.append_right _ ih
    | refused ident =>
      refine (show (_ ++ []).Perm _ from ?_)
      rw [List.append_nil]
      exact quiet (Or.inl hst)
    | unknown => cases hs
    | childExit pid tries =>
      have hst : startedJobs o = if _ then _ else _ := hst
      refine (show (_ ++ []).Perm _ from ?_)
      rw [List.append_nil]
      refine quiet ?_
      rw [hst]
      split
      · exact Or.inr rfl
      · exact Or.inl rfl
    | poll ready =>
      refine (show (_ ++ []).Perm _ from ?_)
      rw [List.append_nil]
      exact quiet (Or.inl hst)
    | trigger fd hdr body =>
      refine (show (_ ++ []).Perm _ from ?_)
      rw [List.append_nil]
      exact quiet (Or.inl hst)

/-- **C68.** A request is started at once, unless its service waits for the session of the user: then it is postponed, and
the process that waits for the session is running.  Such a request is started at once only if that process cannot be started
or 256 requests are postponed. -/
theorem C68_arrives {load : RpcService → Option SvcConf} {h : VaHistory} {s : VaState} (hr : VaRun load h s)
    {pre post : VaHistory} {type d p : Nat} {body : Wire} {t : VaTry} {session : Option Nat} {o : List VaOut}
    (he : h = pre ++ (.exec type d p body t session, o) :: post) (ht : type ≠ 0x202) :
    (startedJobs o = [vaJob load type d p body] ∧ (¬ wantsSession (vaJob load type d p body) ∨
        (sessionProc pre = none ∧ session = none) ∨ (postponed load pre).length = 256)) ∨
    (startedJobs o = [] ∧ wantsSession (vaJob load type d p body) = true ∧ (postponed load pre).length < 256 ∧
        sessionProc (pre ++ [(.exec type d p body t session, o)]) ≠ none) := by
  obtain ⟨s0, s1, h1, h2, h3⟩ := va_prefix hr _ _ _ _ he
  have := (va_step (va_inv h1) h2 h3).2.2
  have this : if type = 0x202 then _ else _ := this
  rw [if_neg ht] at this
  exact this

/-- **C68.** When the process that waits for the session ends, all the postponed requests are started, in the order in which
they arrived, and nothing is postponed any more; no other event starts a request that arrived before. -/
theorem C68_session_ends {load : RpcService → Option SvcConf} {h : VaHistory} {s : VaState} (hr : VaRun load h s)
    {pre post : VaHistory} {pid : Nat} {tries : Nat → VaTry} {o : List VaOut}
    (he : h = pre ++ (.childExit pid tries, o) :: post) :
    (sessionProc pre = some pid → startedJobs o = postponed load pre ∧ postponed load (pre ++ [(.childExit pid tries, o)]) = []) ∧
    (sessionProc pre ≠ some pid → startedJobs o = [] ∧
      postponed load (pre ++ [(.childExit pid tries, o)]) = postponed load pre) := by
  obtain ⟨s0, s1, h1, h2, h3⟩ := va_prefix hr _ _ _ _ he
  have hst : startedJobs o = if _ then _ else _ := (va_step (va_inv h1) h2 h3).2.2
  constructor
  · intro hs
    rw [if_pos hs] at hst
    refine ⟨hst, ?_⟩
    rw [postponed_snoc]
    show (postponed load pre).filter _ = []
    rw [List.filter_eq_nil_iff]
    intro j hj
    rw [hst]
    simp [hj]
  · intro hs
    rw [if_neg hs] at hst
    refine ⟨hst, ?_⟩
    rw [postponed_snoc]
    show (postponed load pre).filter _ = _
    rw [hst]
    exact filter_none

/-- **C68.** Requests are postponed only while a process waits for the session, and only those whose service asks for it. -/
theorem C68_waiting {load : RpcService → Option SvcConf} {h : VaHistory} {s : VaState} (hr : VaRun load h s) :
    (postponed load h ≠ [] → sessionProc h ≠ none) ∧ (postponed load h).length ≤ 256 := by
  have hi := va_inv hr
  exact ⟨fun hne hn => hne (hi.idle (by rw [hi.proc]; exact hn)), hi.len⟩

/-- What a fork server is told. -/
def ForkServerOk : VaOut → Prop
  | .forkServer _ user type domain port text j => type = j.type ∧ domain = j.domain ∧ port = j.port ∧
      (∃ a b, j.cmdline = a ++ ':' :: b ∧ ':' ∉ a ∧ text = b ++ ['\x00']) ∧ j.cmdline.length < 65535 ∧
      ∃ c conf, j.cmd = some (c, conf) ∧ user = c.username.getD [] ∧ c.nogui = false ∧
        conf.sendDescriptor = true ∧ conf.exitOnClientEof = false ∧ conf.exitOnServiceEof = false
  | _ => True

theorem vaDo_forkServer (s : VaState) (j : VaJob) (t : VaTry) : ∀ y ∈ (vaDo s j t).2, ForkServerOk y := by
  intro y hy
  unfold vaDo at hy
  split at hy
  · split at hy
    · split at hy
      · cases hy
      · rw [List.mem_singleton] at hy; subst hy; trivial
    · cases hy
  · cases htf : tryForkServer j t with
    | none => rw [htf] at hy; rw [List.mem_singleton] at hy; subst hy; trivial
    | some r =>
      obtain ⟨fd, user, text⟩ := r
      rw [htf] at hy
      rw [List.mem_singleton] at hy; subst hy
      unfold tryForkServer at htf
      by_cases hu : useForkServer j.cmd = true
      rotate_left
      · rw [if_neg hu] at htf; cases htf
      rw [if_pos hu] at htf
      split at htf
      · cases htf
      · cases hsp : splitOnce ':' j.cmdline with
        | none => rw [hsp] at htf; cases htf
        | some r =>
          cases hsv : t.server with
          | none => rw [hsp, hsv] at htf; cases htf
          | some f =>
            cases hcm : j.cmd with
            | none => rw [hsp, hsv, hcm] at htf; cases htf
            | some cc =>
              rw [hsp, hsv, hcm] at htf
              cases htf
              obtain ⟨c, conf⟩ := cc
              obtain ⟨h1, h2⟩ := splitOnce_eq_some.1 hsp
              rw [hcm] at hu
              simp [useForkServer] at hu
              exact ⟨rfl, rfl, rfl, ⟨_, _, h1, h2, rfl⟩, by omega, _, _, hcm, rfl, hu.1.1.1, hu.1.1.2, hu.1.2, hu.2⟩

theorem vaFlush_forkServer (tries : Nat → VaTry) : ∀ (is : List Nat) (s : VaState),
    ∀ y ∈ (vaFlush tries is s).2, ForkServerOk y := by
  intro is
  induction is with
  | nil => intro s y hy; cases hy
  | cons i is ih =>
    intro s y hy
    unfold vaFlush at hy
    split at hy
    · exact ih _ _ hy
    · rcases List.mem_append.1 hy with hy | hy
      · exact vaDo_forkServer _ _ _ _ hy
      · exact ih _ _ hy

/-- **C68.** A fork server gets the type, domain, port and the command (what is behind the user's name and its colon) of the
request, for the user that the request or the service's configuration names; and only requests whose service has none of the
options that the fork server does not know. -/
theorem C68_fork_server {load : RpcService → Option SvcConf} {h : VaHistory} {s : VaState} (hr : VaRun load h s)
    {e : VaEv} {o : List VaOut} (hm : (e, o) ∈ h) {y : VaOut} (hy : y ∈ o) : ForkServerOk y := by
  obtain ⟨pre, post, he⟩ := List.append_of_mem hm
  obtain ⟨s0, s1, _, _, h3⟩ := va_prefix hr _ _ _ _ he
  cases e with
  | unknown => cases h3
  | refused ident =>
    cases h3
    unfold vaRefused at hy
    split at hy
    · rw [List.mem_singleton] at hy; subst hy; trivial
    · rw [List.mem_singleton] at hy; subst hy; trivial
    · cases hy
  | trigger fd hdr body =>
    cases h3
    unfold vaTrigger at hy
    split at hy
    · rw [List.mem_singleton] at hy; subst hy; trivial
    · split at hy
      · rw [List.mem_singleton] at hy; subst hy; trivial
      · split at hy <;> (rw [List.mem_singleton] at hy; subst hy; trivial)
  | poll ready =>
    simp only [vaStep, Option.some.injEq] at h3
    have key : ∀ (is : List Nat) (s : VaState), ∀ y ∈ (vaPoll ready is s).2, ForkServerOk y := by
      intro is
      induction is with
      | nil => intro s y hy; cases hy
      | cons i is ih =>
        intro s y hy
        unfold vaPoll at hy
        split at hy
        · rcases List.mem_append.1 hy with hy | hy
          · rcases List.mem_cons.1 hy with rfl | hy
            · trivial
            · unfold vaRelease at hy
              rw [List.mem_singleton] at hy; subst hy; trivial
          · exact ih _ _ hy
        · exact ih _ _ hy
    have := key (List.range maxClients) s0 y
    rw [h3] at this
    exact this hy
  | childExit pid tries =>
    simp only [vaStep, Option.some.injEq] at h3
    unfold vaReap at h3
    split at h3
    · have := vaFlush_forkServer tries (List.range maxClients) s0 y
      rw [Prod.ext_iff] at h3
      rw [h3.2] at this
      exact this hy
    · split at h3
      · cases h3; cases hy
      · unfold vaRelease at h3
        cases h3
        rw [List.mem_singleton] at hy; subst hy; trivial
  | exec type d p body t session =>
    simp only [vaStep] at h3
    split at h3
    · cases h3
    split at h3
    · cases h3
    simp only [Option.some.injEq] at h3
    have hws : ∀ b s' o', waitForSession s0 (vaJob load type d p body) session = (b, s', o') → ∀ y ∈ o', ForkServerOk y := by
      intro b s' o' hw y hy
      unfold waitForSession at hw
      split at hw
      · cases hw; cases hy
      · split at hw
        · cases hw; cases hy
        · cases hw
          split at hy
          · rw [List.mem_singleton] at hy; subst hy; trivial
          · cases hy
    unfold vaInit at h3
    dsimp only at h3
    split at h3
    · rcases hw : waitForSession s0 (vaJob load type d p body) session with ⟨b, s', o'⟩
      have hws := hws _ _ _ hw
      rw [hw] at h3
      cases b with
      | true =>
        dsimp only at h3
        split at h3
        · cases h3; exact hws _ hy
        · cases h3
          rcases List.mem_append.1 hy with hy | hy
          · exact hws _ hy
          · exact vaDo_forkServer _ _ _ _ hy
      | false =>
        dsimp only at h3
        cases h3
        rcases List.mem_append.1 hy with hy | hy
        · exact hws _ hy
        · exact vaDo_forkServer _ _ _ _ hy
    · have := vaDo_forkServer s0 (vaJob load type d p body) t y
      rw [h3] at this
      exact this hy

theorem fresh_none (s : VaState) : s.FreshPid none := fun _ h => by cases h

/-- A number above those of all children is that of none. -/
theorem fresh_above {s : VaState} (b : Nat) (hb : ((List.range maxClients).all fun i => decide ((s.conns i).pid ≤ b)) = true)
    {p : Nat} (hp : b < p) : s.FreshPid (some p) := by
  intro q hq
  cases hq
  refine ⟨by omega, fun i hi => ?_⟩
  have := List.all_eq_true.1 hb i (List.mem_range.2 hi)
  rw [decide_eq_true_eq] at this
  omega

/-- A run: a service that waits for the session of the user, a second one, a plain command, the end of the session's
process, and the ends of the two services in the other order. -/
def exampleLoad : RpcService → Option SvcConf := fun _ => some { waitForSession := true }

set_option maxRecDepth 20000 in
/-- The theorems apply to this run: both requests are postponed, then started in order, and both ends are reported. -/
example : ∃ o1 o2 o3 o4 o5 o6 s, VaRun exampleLoad
      [(.exec 0x200 5 513 c!"user:QUBESRPC a.B vm1\x00" {} (some 10), o1), (.exec 0x200 6 514 c!"user:QUBESRPC a.C vm2\x00" {} none, o2),
       (.exec 0x201 7 515 c!"user:nogui:ls\x00" { fork := some 11 } none, o3),
       (.childExit 10 (fun i => { fork := some (20 + i) }), o4), (.childExit 21 (fun _ => {}), o5), (.childExit 20 (fun _ => {}), o6)] s ∧
    startedJobs o1 = [] ∧ startedJobs o2 = [] ∧ (startedJobs o3).length = 1 ∧
    (startedJobs o4).map (fun j => (j.domain, j.port)) = [(5, 513), (6, 514)] ∧ reports o5 = [(6, 514)] ∧ reports o6 = [(5, 513)] := by
  refine ⟨_, _, _, _, _, _, _, VaRun.step (tr := [_, _, _, _, _]) (VaRun.step (tr := [_, _, _, _]) (VaRun.step (tr := [_, _, _]) (VaRun.step (tr := [_, _])
    (VaRun.step (tr := [_]) (VaRun.step (tr := []) VaRun.start ?_ rfl) ?_ rfl) ?_ rfl) ?_ rfl) ?_ rfl) ?_ rfl, ?_⟩
  · exact ⟨fresh_none _, fresh_above 0 rfl (by decide), fun p h => by cases h⟩
  · exact ⟨fresh_none _, fresh_none _, fun p h => by cases h⟩
  · refine ⟨fresh_above 0 rfl (by decide), fresh_none _, fun p h => ?_⟩
    cases h
    exact ⟨by simp, by decide⟩
  · refine ⟨by decide, fun i => fresh_above 11 rfl (by omega), fun i j p hij h1 h2 => ?_⟩
    cases h1
    simp only [Option.some.injEq] at h2
    omega
  · exact ⟨by decide, fun i => fresh_none _, fun i j p hij h1 => by cases h1⟩
  · exact ⟨by decide, fun i => fresh_none _, fun i j p hij h1 => by cases h1⟩
  · exact ⟨rfl, rfl, rfl, rfl, rfl, rfl⟩

end Qrexec
