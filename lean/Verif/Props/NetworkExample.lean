import Verif.Props.Network

/-!
# A run of the whole: a call from one qube to another (C116)
-/
namespace Qrexec

open Spec

/-- Processes get new numbers, for the events of agents in the example. -/
def freshB (n : Net) : NEff → Bool
  | .agent b (.exec _ _ _ _ t ss) _ =>
    let ok : Option Nat → Bool := fun f => match f with
      | none => true
      | some p => p != 0 && (List.range maxClients).all fun i => ((n.agent b).conns i).pid != (p : Int)
    ok t.fork && ok ss && (match t.fork with | none => true | some p => ss != some p && (n.agent b).session != some p)
  | .agent _ (.childExit ..) _ => false
  | _ => true

theorem freshB_possible {n : Net} {x : NEff} (h : freshB n x = true) : x.Possible n := by
  cases x with
  | none => trivial
  | dmn => trivial
  | agent b e o => cases e with
    | exec ty d p body t ss =>
      have fresh : ∀ f : Option Nat, (match f with
          | none => true
          | some p => p != 0 && (List.range maxClients).all fun i => ((n.agent b).conns i).pid != (p : Int)) = true →
          (n.agent b).FreshPid f := by
        intro f hf p hp
        subst hp
        simp only [Bool.and_eq_true, bne_iff_ne, ne_eq, List.all_eq_true, List.mem_range] at hf
        exact ⟨hf.1, hf.2⟩
      simp only [freshB, Bool.and_eq_true] at h
      refine ⟨fresh _ h.1.1, fresh _ h.1.2, ?_⟩
      intro p hp
      have h2 := h.2
      rw [hp] at h2
      simp only [Bool.and_eq_true, bne_iff_ne, ne_eq] at h2
      exact h2
    | childExit => cases h
    | _ => trivial

/-- The steps, one after the other. -/
def nsteps (N : NConf) (n : Net) : List NLabel → Option (Net × NHistory)
  | [] => some (n, [])
  | l :: ls => match nstep N n l with
    | none => none
    | some (n', x) => if freshB n x then (nsteps N n' ls).map fun r => (r.1, (l, x) :: r.2) else none

theorem nsteps_run {N : NConf} : ∀ {ls : List NLabel} {n n' : Net} {tr tr' : NHistory}, NRun N tr n →
    nsteps N n ls = some (n', tr') → NRun N (tr ++ tr') n' ∧ tr'.map Prod.fst = ls
  | [], n, n', tr, tr', hr, h => by
    cases h
    exact ⟨by simpa using hr, rfl⟩
  | l :: ls, n, n', tr, tr', hr, h => by
    unfold nsteps at h
    split at h
    · cases h
    · rename_i n1 x hs
      split_ifs at h with hf
      obtain ⟨⟨n2, tr2⟩, h1, h2⟩ := Option.map_eq_some_iff.1 h
      cases h2
      obtain ⟨g1, g2⟩ := nsteps_run (.step hr hs (freshB_possible hf)) h1
      exact ⟨by simpa using g1, by simp [g2]⟩

/-- Two qubes: `work` with the id 3 and `relay` with the id 9. -/
def exNet : NConf where
  name a := if a = 9 then c!"relay" else if a = 3 then c!"work" else c!"other"
  user _ := c!"user"
  proto _ := 3
  leads x b := (x == c!"uuid:u1" && b == 9) || (x == c!"uuid:u2" && b == 3)
  load _ _ := some {}

/-- The message of the agent of `work`: the client with descriptor 7 calls "svc+a" in "relay". -/
def exAsk3 : Wire :=
  c!"relay" ++ List.replicate 59 '\x00' ++ c!"SOCKET7" ++ List.replicate 25 '\x00' ++ c!"svc+a\x00"

/-- The steps of the call. -/
def exLabels : List NLabel :=
  [.ask 3 3 exAsk3 100 0, .decide 0 (some exInfo2) (.ok [exAllowAll]) exAgent exRunning, .conn 0 9 5, .dmn 9 (.clientHello 5 true),
   .tell 0 true, .conn 0 3 6, .dmn 3 (.clientHello 6 true), .tell 0 true, .deliver 9 { fork := some 200 } none, .deliver 3 {} none]

/-- What the agents do, of a history. -/
def agentOuts (tr : NHistory) : List (Nat × List VaOut) :=
  tr.filterMap fun x => match x.2 with
    | .agent b _ o => some (b, o)
    | _ => none

/-- The request as it arrives in `relay`. -/
def exJob : VaJob := vaJob (fun _ => some {}) 0x200 3 513 c!"user:QUBESRPC svc+a work\x00"

set_option maxRecDepth 100000 in
theorem exNet_runs : (nsteps exNet {} exLabels).map (fun r => agentOuts r.2) =
    some [(9, [.child (some 200) exJob]), (3, [.toClient 7 9 513])] := by decide +kernel

theorem exNames : UsualNames exNet := by
  intro a
  have h1 : exNet.name a = c!"relay" ∨ exNet.name a = c!"work" ∨ exNet.name a = c!"other" := by
    show (if a = 9 then c!"relay" else if a = 3 then c!"work" else c!"other") = c!"relay" ∨ _
    by_cases h9 : a = 9
    · left; rw [if_pos h9]
    · by_cases h3 : a = 3
      · right; left; show (if a = 9 then c!"relay" else if a = 3 then c!"work" else c!"other") = _; rw [if_neg h9, if_pos h3]
      · right; right; show (if a = 9 then c!"relay" else if a = 3 then c!"work" else c!"other") = _; rw [if_neg h9, if_neg h3]
  have h2 : exNet.user a = c!"user" := rfl
  rw [h2]
  unfold Word
  rcases h1 with h | h | h <;> rw [h] <;> decide

theorem exInfo2_names : OrdinaryNames exInfo2 ∧ NoNewlines exInfo2 ∧ WordNames exInfo2 ∧
    ∀ n d, exInfo2.get? n = some d → ∀ relay ∈ d.relayvm, ¬ Dom0 relay := by
  unfold OrdinaryNames NoNewlines WordNames Word Dom0
  have h1 : ∀ x ∈ exInfo2, x.1 ≠ [] ∧ x.1.head? ≠ some '@' ∧ x.1 ≠ c!"*" := by decide
  have h2 : ∀ x ∈ exInfo2, '\n' ∉ x.1 ∧ (∀ u ∈ x.2.uuid, '\n' ∉ u) ∧ (∀ y ∈ x.2.relayvm, '\n' ∉ y) ∧
    (∀ y ∈ x.2.transportRpc, '\n' ∉ y) ∧ ∀ y ∈ x.2.defaultDispvm, '\n' ∉ y := by decide
  have h3 : ∀ x ∈ exInfo2, (' ' ∉ x.1 ∧ '\x00' ∉ x.1) ∧ ∀ y ∈ x.2.transportRpc, ' ' ∉ y ∧ '\x00' ∉ y := by decide
  have h4 : ∀ x ∈ exInfo2, ∀ relay ∈ x.2.relayvm, ¬ (relay = c!"dom0" ∨ relay = c!"@adminvm" ∨
    relay = c!"uuid:00000000-0000-0000-0000-000000000000") := by decide
  exact ⟨fun k d h => h1 _ (get?_mem h), fun k d h => h2 _ (get?_mem h), fun k d h => h3 _ (get?_mem h),
    fun k d h => h4 _ (get?_mem h)⟩

theorem exAllowAll_isRule : IsRule exAllowAll :=
  ⟨some c!"*", some c!"*", c!"*", c!"*", c!"allow", [], [], by decide⟩

set_option maxRecDepth 100000 in
/-- The hypotheses of C116 are met by a run in which a program is started for another qube, and its client is connected. -/
theorem C116_example : ∃ tr n, NRun exNet tr n ∧ UsualNames exNet ∧ UsualDecisions exNet tr ∧
    agentOuts tr = [(9, [.child (some 200) exJob]), (3, [.toClient 7 9 513])] ∧
    ∃ res prog, jobProcess exDe ⟨exFs, 4096, c!"/etc/qubes-rpc", true, true, true, none⟩ exJob.cmd = some res ∧
      .started prog ∈ res.1 ∧ prog.call.argv.drop 3 = [c!"sh", c!"/etc/qubes-rpc/svc", c!"svc+a", c!"work", c!"a"] := by
  obtain ⟨⟨n, tr⟩, h1, h2⟩ := Option.map_eq_some_iff.1 exNet_runs
  obtain ⟨hrun, hl⟩ := nsteps_run .start h1
  refine ⟨tr, n, by simpa using hrun, exNames, ?_, h2, ?_⟩
  · intro k sys policy agent w a rs t s ident ha hd
    have hmem : ∀ l x, (l, x) ∈ tr → l ∈ exLabels := by
      intro l x h
      rw [← hl]
      exact List.mem_map.2 ⟨_, h, rfl⟩
    obtain ⟨x, hd⟩ := hd
    have hd := hmem _ _ hd
    simp only [exLabels, List.mem_cons, reduceCtorEq, NLabel.decide.injEq, List.not_mem_nil, or_false, false_or] at hd
    obtain ⟨rfl, rfl, rfl, rfl, rfl⟩ := hd
    obtain ⟨kind, data, pid, x, ha, ht⟩ := ha
    have ha := hmem _ _ ha
    simp only [exLabels, List.mem_cons, reduceCtorEq, NLabel.ask.injEq, List.not_mem_nil, or_false] at ha
    obtain ⟨rfl, rfl, rfl, rfl, _⟩ := ha
    have ht' : triggerMsg 3 3 exAsk3 = .request none c!"relay" c!"svc+a" (c!"SOCKET7" ++ List.replicate 25 '\x00') := by
      decide +kernel
    have ht : triggerMsg 3 3 exAsk3 = .request rs t s ident := ht
    rw [ht'] at ht
    cases ht
    refine ⟨⟨_, (show (handleClient (some exInfo2) (.ok [exAllowAll]) exAgent (requestText c!"work" none c!"relay" c!"svc+a")).2 =
      some c!"user=DEFAULT\nresult=allow\ntarget=relay\ntarget_uuid=uuid:u1\nautostart=True\nrequested_target=relay" by decide +kernel),
      by decide⟩, fun info hi => ?_, fun rules hr r hm => ?_⟩
    · cases hi
      exact exInfo2_names
    · cases hr
      rw [List.mem_singleton.1 hm]
      refine ⟨exAllowAll_isRule, ?_⟩
      intro u t d n b hu
      rcases hu with hu | hu <;> cases hu
  · have hj := C94_example.2.2.2.1
    have hj : (jobProcess exDe ⟨exFs, 4096, c!"/etc/qubes-rpc", true, true, true, none⟩ exJob.cmd).map
      (fun r => r.1.filterMap fun e => match e with | .started p => some (p.call.argv.drop 3, p.creds) | _ => none) =
      some [([c!"sh", c!"/etc/qubes-rpc/svc", c!"svc+a", c!"work", c!"a"], ⟨1000, 1000, [1000, 98]⟩)] := hj
    obtain ⟨res, g1, g2⟩ := Option.map_eq_some_iff.1 hj
    have : (([c!"sh", c!"/etc/qubes-rpc/svc", c!"svc+a", c!"work", c!"a"], ⟨1000, 1000, [1000, 98]⟩) : List Str × Creds) ∈
        res.1.filterMap fun e => match e with | .started p => some (p.call.argv.drop 3, p.creds) | _ => none := by
      rw [g2]; simp
    obtain ⟨e, he, hp⟩ := List.mem_filterMap.1 this
    cases e with
    | started p =>
      simp only [Option.some.injEq, Prod.mk.injEq] at hp
      exact ⟨res, p, g1, he, hp.1⟩
    | _ => cases hp

end Qrexec
