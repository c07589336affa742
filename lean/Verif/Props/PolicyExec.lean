import Verif.Model.PolicyExec
import Verif.Props.CResponse
import Verif.Props.Client

/-! # C83: the command qrexec-policy-exec -/
namespace Qrexec
open Spec

theorem mapM_some_cons {α β : Type} {f : α → Option β} {x : α} {xs : List α} {ys : List β} (h : (x :: xs).mapM f = some ys) :
    ∃ y ys', f x = some y ∧ xs.mapM f = some ys' ∧ ys = y :: ys' := by
  rw [List.mapM_cons] at h
  cases hx : f x with
  | none => rw [hx] at h; cases h
  | some y =>
    rw [hx] at h
    cases hxs : xs.mapM f with
    | none => rw [hxs] at h; cases h
    | some ys' => rw [hxs] at h; cases h; exact ⟨y, ys', rfl, rfl, rfl⟩

theorem peDict_read : ∀ (ls : List Str) (fs d : List (Str × Str)), ls.mapM (splitOnce '=') = some fs →
    ((d ++ fs).map Prod.fst).Nodup → peDict ls d = some (d ++ fs) := by
  intro ls
  induction ls with
  | nil =>
    intro fs d h hn
    have : fs = [] := by rw [List.mapM_nil] at h; cases h; rfl
    subst this
    rw [List.append_nil]; rfl
  | cons l ls ih =>
    intro fs d h hn
    obtain ⟨⟨k, v⟩, fs', h1, h2, rfl⟩ := mapM_some_cons h
    have hk : (d.any fun p => p.1 = k) = false := by
      rw [List.any_eq_false]
      intro p hp hc
      have hc : p.1 = k := by simpa using hc
      rw [List.map_append] at hn
      exact (List.nodup_append.1 hn).2.2 p.1 (List.mem_map_of_mem hp) k (by simp) hc
    unfold peDict
    rw [h1]
    dsimp only
    rw [hk, if_neg (by decide), ih fs' (d ++ [(k, v)]) h2 (by simpa using hn)]
    simp

theorem peDict_answer {s : Str} {fs : List (Str × Str)} (h : readAnswer s = some fs) (hn : (fs.map Prod.fst).Nodup) :
    peDict (splitOn '\n' s) [] = some fs := peDict_read _ fs [] h hn

/-- **C83, nothing is run.** With three arguments (a question about the policy) or with `--just-evaluate`, no qube is created or
started and no command is run, whatever the policy says. -/
theorem C83_evaluate_runs_nothing (w : PeWorld) (sys : Option Info) (policy : Except Err (List Rule)) (agent : Agent) (a : PeArgs)
    (h : a.args.length ≠ 5 ∨ a.justEvaluate = true) : (peMain w sys policy agent a).acts = [] := by
  have follow : ∀ evs run source target sa s, (peFollow w evs true run source target sa s).acts = [] := by
    intro evs run source target sa s
    unfold peFollow
    split
    · rfl
    · split
      · rfl
      · rename_i r _
        by_cases hr : r ≠ c!"allow"
        · rw [if_pos hr]
        · rw [if_neg hr, if_pos rfl]
  unfold peMain
  by_cases hp : a.paths > 0
  · rw [if_pos hp]
  rw [if_neg hp]
  dsimp only
  split
  · split
    · rfl
    · by_cases hj : a.justEvaluate = true
      · rw [if_pos hj]; exact follow _ _ _ _ _ _
      · rw [if_neg hj]
  · rename_i ha
    split
    · rfl
    · rcases h with h | h
      · rw [ha] at h; exact absurd rfl h
      · rw [h]; exact follow _ _ _ _ _ _
  · rfl

/-- **C83, the answer.** With three arguments and without options, what is written is the answer of the policy engine, and the exit
status is 0 if it is a permission and 1 if it is a refusal; an exception also gives 1. -/
theorem C83_answer (w : PeWorld) (sys : Option Info) (policy : Except Err (List Rule)) (agent : Agent) (yes : Bool)
    (source target sa : Str)
    (hn : ∀ info, sys = some info → OrdinaryNames info)
    (hrules : ∀ rules, policy = .ok rules → ∀ r ∈ rules, IsRule r) :
    let out := peMain w sys policy agent { assumeYes := yes, args := [source, target, sa] }
    out.status ≤ 1 ∧
    (out.status = 0 ↔ ∃ info rules req r user autostart t fs, sys = some info ∧ policy = .ok rules ∧
      Qrexec.requestOf sa source target info [] = .ok req ∧ Granted rules req { assumeYes := yes } agent r user autostart t ∧
      AnswerFor req user autostart t fs ∧ out.stdout = answerText fs ++ c!"\n" ∧
      (handleRequest sys policy agent { assumeYes := yes } source target sa []).2 = .ok (answerText fs)) ∧
    (out.status = 1 → out.stdout = c!"result=deny\n" ∨
      out.stdout = [] ∧ ∃ e, (handleRequest sys policy agent { assumeYes := yes } source target sa []).2 = .error e) := by
  intro out
  cases hh : handleRequest sys policy agent { assumeYes := yes } source target sa [] with
  | mk evs x =>
    cases x with
    | error e =>
      have ho : out = { events := evs, status := 1 } := by
        show peMain _ _ _ _ _ = _
        unfold peMain
        rw [if_neg (show ¬ 0 > 0 by decide)]
        dsimp only
        rw [hh]
      rw [ho]
      refine ⟨(by show (1:Nat) ≤ 1; decide), ⟨fun h => (by cases h), ?_⟩, fun _ => .inr ⟨rfl, e, rfl⟩⟩
      rintro ⟨_, _, _, _, _, _, _, _, _, _, _, _, _, _, h⟩
      cases h
    | ok s =>
      have ho : out = PeOut.mk evs [] (s ++ c!"\n")
          (if containsStr c!"\nresult=allow\n" s || s == c!"result=allow" then 0 else 1) := by
        show peMain _ _ _ _ _ = _
        unfold peMain
        rw [if_neg (show ¬ 0 > 0 by decide)]
        dsimp only
        rw [hh]
        rfl
      rw [ho]
      by_cases hs : s = denyAnswer
      · subst hs
        refine ⟨(by show (1:Nat) ≤ 1; decide), ⟨fun h => (by cases h), ?_⟩, fun _ => .inl rfl⟩
        rintro ⟨_, _, _, _, _, _, _, fs, _, _, _, _, hans, _, h⟩
        have h : denyAnswer = answerText fs := Except.ok.inj h
        have := answerFor_exit hans
        rw [← h] at this
        cases this
      · obtain ⟨info, rules, req, r, user, autostart, t, h1, h2, h3, h4, h5⟩ :=
          C04_no_allow_without_grant sys policy agent _ source target sa [] hn hrules evs s hh hs
        rcases h5 with ⟨h5, _⟩ | ⟨_, fs, h5, rfl⟩
        · cases h5
        rw [answerFor_exit h5]
        refine ⟨(by show (0:Nat) ≤ 1; decide), ⟨fun _ => ⟨info, rules, req, r, user, autostart, t, fs, h1, h2, h3, h4, h5, rfl, rfl⟩, fun _ => rfl⟩,
          fun h => (by cases h)⟩

/-! ## The call is carried out -/

/-- What the target of a call is told about what the caller asked for (dom0 only). -/
inductive AskedFor : Str → Str → Prop
  | keyword (k : Str) : AskedFor ('@' :: k) (c!" keyword " ++ k)
  | name (n : Str) : n ≠ [] → n.head? ≠ some '@' → AskedFor n (c!" name " ++ n)

/-- A qube is started and, if that worked, the command is run there. `before` has been done already. -/
inductive StartedAndRun (w : PeWorld) (before : List PeAct) (qube : Str) (disposable : Bool) (connection command : Str) :
    List PeAct → Nat → Prop
  | run {value} : w.qubesd qube c!"admin.vm.Start" [] = some (c!"0\x00" ++ value) →
      StartedAndRun w before qube disposable connection command
        (before ++ [.qubesd qube c!"admin.vm.Start" [],
          .client ([.noExitCode] ++ (if disposable then [.waitEnd, .kill] else []) ++ [.domain qube, .connect connection]) [command]])
        (w.client ([.noExitCode] ++ (if disposable then [.waitEnd, .kill] else []) ++ [.domain qube, .connect connection]) [command])
  | notStarted : (∀ value, w.qubesd qube c!"admin.vm.Start" [] ≠ some (c!"0\x00" ++ value)) →
      StartedAndRun w before qube disposable connection command (before ++ [.qubesd qube c!"admin.vm.Start" []]) 1

/-- How a call that is allowed to `out` is carried out, and the exit status. -/
inductive CarriedOut (w : PeWorld) (id source target sa ident : Str) (info : Info) (user : Option Str) :
    Str → List PeAct → Nat → Prop
  /-- in dom0: no qube is started -/
  | dom0 {out asked} : Dom0 out → AskedFor target asked →
      CarriedOut w id source target sa ident info user out
        [.client [.noExitCode, .domain c!"dom0", .connect (ident ++ c!"," ++ source ++ c!"," ++ id)]
          [c!"QUBESRPC " ++ sa ++ c!" " ++ source ++ asked]]
        (w.client [.noExitCode, .domain c!"dom0", .connect (ident ++ c!"," ++ source ++ c!"," ++ id)]
          [c!"QUBESRPC " ++ sa ++ c!" " ++ source ++ asked])
  /-- an empty intended target: an exception -/
  | dom0Unnamed {out} : Dom0 out → target = [] → CarriedOut w id source target sa ident info user out [] 1
  | plain {out d u acts st} : ¬ Dom0 out → info.get? out = some d → d.cls ≠ c!"RemoteVM" → d.uuid = some u →
      StartedAndRun w [] (c!"uuid:" ++ u) false (ident ++ c!"," ++ source ++ c!"," ++ id)
        (userText user ++ c!":QUBESRPC " ++ sa ++ c!" " ++ source) acts st →
      CarriedOut w id source target sa ident info user out acts st
  | disposable {out t d u value acts st} : out = c!"@dispvm:" ++ t → info.get? t = some d → d.uuid = some u →
      w.qubesd (c!"@dispvm:uuid:" ++ u) c!"admin.vm.CreateDisposable" c!"uuid" = some (c!"0\x00" ++ value) →
      (∀ c ∈ value, c.toNat < 128) →
      StartedAndRun w [.qubesd (c!"@dispvm:uuid:" ++ u) c!"admin.vm.CreateDisposable" c!"uuid"] value true
        (ident ++ c!"," ++ source ++ c!"," ++ id) (userText user ++ c!":QUBESRPC " ++ sa ++ c!" " ++ source) acts st →
      CarriedOut w id source target sa ident info user out acts st
  | notCreated {out t d u} : out = c!"@dispvm:" ++ t → info.get? t = some d → d.uuid = some u →
      (∀ value, w.qubesd (c!"@dispvm:uuid:" ++ u) c!"admin.vm.CreateDisposable" c!"uuid" = some (c!"0\x00" ++ value) →
        ∃ c ∈ value, ¬ c.toNat < 128) →
      CarriedOut w id source target sa ident info user out
        [.qubesd (c!"@dispvm:uuid:" ++ u) c!"admin.vm.CreateDisposable" c!"uuid"] 1
  /-- a RemoteVM: in its relay, as user DEFAULT - but the service of the caller, not the transport service -/
  | remote {out d relay rd u acts st} : ¬ Dom0 out → info.get? out = some d → d.cls = c!"RemoteVM" → d.relayvm = some relay →
      relay ≠ c!"dom0" → info.get? relay = some rd → rd.uuid = some u →
      StartedAndRun w [] (c!"uuid:" ++ u) false (ident ++ c!"," ++ source ++ c!"," ++ id)
        (c!"DEFAULT:QUBESRPC " ++ sa ++ c!" " ++ source) acts st →
      CarriedOut w id source target sa ident info user out acts st
  /-- a RemoteVM whose relay is dom0: as a call to dom0 -/
  | remoteDom0 {out d acts st} : ¬ Dom0 out → info.get? out = some d → d.cls = c!"RemoteVM" → d.relayvm = some c!"dom0" →
      CarriedOut w id source target sa ident info user c!"dom0" acts st →
      CarriedOut w id source target sa ident info user out acts st

theorem qubesdValue_some {a : Option Wire} {v : Wire} : qubesdValue a = some v ↔ a = some (c!"0\x00" ++ v) := by
  unfold qubesdValue
  cases a with
  | none => exact ⟨(fun h => by cases h), (fun h => by cases h)⟩
  | some b =>
    dsimp only
    constructor
    · intro h
      split_ifs at h with hs
      cases h
      obtain ⟨t, rfl⟩ := startsWith_iff.1 hs
      rfl
    · intro h
      have h : b = c!"0\x00" ++ v := Option.some.inj h
      subst h
      rw [if_pos (startsWith_iff.2 ⟨v, rfl⟩)]
      rfl

theorem qubesdValue_none {a : Option Wire} : qubesdValue a = none ↔ ∀ v, a ≠ some (c!"0\x00" ++ v) := by
  constructor
  · intro h v hv
    rw [qubesdValue_some.2 hv] at h; cases h
  · intro h
    cases hq : qubesdValue a with
    | none => rfl
    | some v => exact absurd (qubesdValue_some.1 hq) (h v)

theorem userText_ne (u : Option Str) : userText u ≠ [] := by
  unfold userText
  split
  · decide
  · decide
  · rename_i h; intro hc; subst hc; exact h rfl

theorem pe_started (w : PeWorld) (evs : List Event) (before : List PeAct) (qube : Str) (disp : Bool) (conn cmd : Str) :
    let r : PeOut := match qubesdValue (w.qubesd qube c!"admin.vm.Start" []) with
      | none => { events := evs, acts := before ++ [.qubesd qube c!"admin.vm.Start" []], status := 1 }
      | some _ => peClient w evs (before ++ [.qubesd qube c!"admin.vm.Start" []]) disp qube conn cmd
    StartedAndRun w before qube disp conn cmd r.acts r.status := by
  intro r
  cases hq : qubesdValue (w.qubesd qube c!"admin.vm.Start" []) with
  | none =>
    have hr : r = PeOut.mk evs (before ++ [.qubesd qube c!"admin.vm.Start" []]) [] 1 := by
      show (match qubesdValue (w.qubesd qube c!"admin.vm.Start" []) with | none => _ | some _ => _) = _
      rw [hq]
    rw [hr]
    exact .notStarted (qubesdValue_none.1 hq)
  | some v =>
    have hr : r = peClient w evs (before ++ [.qubesd qube c!"admin.vm.Start" []]) disp qube conn cmd := by
      show (match qubesdValue (w.qubesd qube c!"admin.vm.Start" []) with | none => _ | some _ => _) = _
      rw [hq]
    rw [hr]
    have := StartedAndRun.run (w := w) (before := before) (disposable := disp) (connection := conn) (command := cmd)
      (qubesdValue_some.1 hq)
    unfold peClient
    dsimp only
    rw [List.append_assoc]
    cases disp
    · exact this
    · exact this

theorem peVm_qube (w : PeWorld) (evs : List Event) (dest user conn cmd : Str) (hu : user ≠ []) :
    StartedAndRun w [] dest false conn (user ++ ':' :: cmd) (peVm w evs false dest user conn cmd).acts
      (peVm w evs false dest user conn cmd).status := by
  unfold peVm
  dsimp only
  rw [if_neg (show ¬ false = true by decide), if_neg (by simpa using hu)]
  exact pe_started w evs [] dest false conn (user ++ ':' :: cmd)

theorem peVm_disp (w : PeWorld) (evs : List Event) (dest user conn cmd : Str) (hu : user ≠ []) :
    (∃ value, w.qubesd dest c!"admin.vm.CreateDisposable" c!"uuid" = some (c!"0\x00" ++ value) ∧ (∀ c ∈ value, c.toNat < 128) ∧
      StartedAndRun w [.qubesd dest c!"admin.vm.CreateDisposable" c!"uuid"] value true conn (user ++ ':' :: cmd)
        (peVm w evs true dest user conn cmd).acts (peVm w evs true dest user conn cmd).status) ∨
    ((∀ value, w.qubesd dest c!"admin.vm.CreateDisposable" c!"uuid" = some (c!"0\x00" ++ value) → ∃ c ∈ value, ¬ c.toNat < 128) ∧
      (peVm w evs true dest user conn cmd).acts = [.qubesd dest c!"admin.vm.CreateDisposable" c!"uuid"] ∧
      (peVm w evs true dest user conn cmd).status = 1) := by
  have hu' : ¬ user.isEmpty = true := by simpa using hu
  cases hq : qubesdValue (w.qubesd dest c!"admin.vm.CreateDisposable" c!"uuid") with
  | none =>
    right
    refine ⟨fun v hv => absurd hv (qubesdValue_none.1 hq v), ?_⟩
    unfold peVm
    dsimp only
    rw [if_pos rfl, hq]
    exact ⟨rfl, rfl⟩
  | some v =>
    by_cases ha : (v.all fun c => c.toNat < 128) = true
    · left
      refine ⟨v, qubesdValue_some.1 hq, by simpa using ha, ?_⟩
      unfold peVm
      dsimp only
      rw [if_pos rfl, hq, if_neg hu']
      dsimp only
      rw [if_neg (by rw [ha]; decide)]
      exact pe_started w evs _ v true conn (user ++ ':' :: cmd)
    · right
      refine ⟨?_, ?_⟩
      · intro v' hv'
        have : v = v' := by
          rw [qubesdValue_some.1 hq] at hv'
          exact List.append_cancel_left (Option.some.inj hv')
        subst this
        simpa using ha
      · unfold peVm
        dsimp only
        rw [if_pos rfl, hq]
        dsimp only
        rw [if_pos (by simpa using ha)]
        exact ⟨rfl, rfl⟩

theorem askedFor_of (target : Str) (h : target ≠ []) : ∃ asked, AskedFor target asked ∧
    ∀ c cs, target = c :: cs → asked = (if c = '@' then c!" keyword " ++ cs else c!" name " ++ c :: cs) := by
  match target, h with
  | c :: cs, _ =>
    by_cases hc : c = '@'
    · subst hc
      refine ⟨_, .keyword cs, ?_⟩
      intro c' cs' e
      cases e
      rw [if_pos rfl]
    · refine ⟨_, .name (c :: cs) (by simp) (by simpa using hc), ?_⟩
      intro c' cs' e
      cases e
      rw [if_neg hc]

theorem peFollow_dom0 (w : PeWorld) (evs : List Event) (id source target sa ident s : Str) (fs : List (Str × Str)) (info : Info)
    (user : Option Str) (out : Str) (hd : peDict (splitOn '\n' s) [] = some fs) (h1 : peGet fs c!"result" = some c!"allow")
    (h2 : peGet fs c!"target" = some c!"dom0") (ho : Dom0 out) :
    CarriedOut w id source target sa ident info user out (peFollow w evs false (some (id, ident)) source target sa s).acts
      (peFollow w evs false (some (id, ident)) source target sa s).status := by
  unfold peFollow
  rw [hd]
  dsimp only
  rw [h1]
  dsimp only
  rw [if_neg (show ¬ (c!"allow" ≠ c!"allow") from fun h => h rfl), if_neg (show ¬ false = true by decide), h2]
  dsimp only
  rw [if_pos (Or.inl rfl)]
  cases target with
  | nil => exact .dom0Unnamed ho rfl
  | cons c cs =>
    obtain ⟨asked, ha, he⟩ := askedFor_of (c :: cs) (by simp)
    dsimp only
    rw [← he c cs rfl]
    exact .dom0 ho ha

theorem peFollow_vm (w : PeWorld) (evs : List Event) (id source target sa ident s : Str) (fs : List (Str × Str))
    (t dest user : Str) (hd : peDict (splitOn '\n' s) [] = some fs) (h1 : peGet fs c!"result" = some c!"allow")
    (h2 : peGet fs c!"target" = some t) (h3 : peGet fs c!"target_uuid" = some dest) (h4 : peGet fs c!"user" = some user)
    (ht : t ≠ c!"dom0") (ht' : t ≠ c!"@adminvm") :
    peFollow w evs false (some (id, ident)) source target sa s =
      peVm w evs (startsWith c!"@dispvm:" t) dest user (ident ++ c!"," ++ source ++ c!"," ++ id)
        (c!"QUBESRPC " ++ sa ++ c!" " ++ source) := by
  unfold peFollow
  rw [hd]
  dsimp only
  rw [h1]
  dsimp only
  rw [if_neg (show ¬ (c!"allow" ≠ c!"allow") from fun h => h rfl), if_neg (show ¬ false = true by decide), h2]
  dsimp only
  rw [if_neg (by rintro (h | h); exacts [ht h, ht' h]), h3, h4]

theorem notDisp_of_ordinary {t : Str} (h : t.head? ≠ some '@') : startsWith c!"@dispvm:" t = false := by
  cases hs : startsWith c!"@dispvm:" t with
  | false => rfl
  | true => obtain ⟨r, rfl⟩ := startsWith_iff.1 hs; exact absurd rfl h

/-- **C83, the call.** With five arguments (and without `--just-evaluate`) a request that fails or is refused runs nothing and
gives status 1. Otherwise the target was granted by the policy (or by the user, where it asks), and exactly this call is
carried out: for the target of the answer, with its user, connecting to exactly the request of the caller; a command runs only
if qubesd has started the qube, and the status is that of the command. -/
theorem C83_executes_partial (w : PeWorld) (sys : Option Info) (policy : Except Err (List Rule)) (agent : Agent) (yes : Bool)
    (id source target sa ident : Str)
    (hn : ∀ info, sys = some info → OrdinaryNames info ∧ NoNewlines info)
    (hrules : ∀ rules, policy = .ok rules → ∀ r ∈ rules, IsRule r ∧
      ∀ u t d n b, (r.action = .allow t (some u) n b ∨ r.action = .ask t d (some u) n b) → '\n' ∉ u)
    (hsa : '\n' ∉ sa) :
    let out := peMain w sys policy agent { assumeYes := yes, args := [id, source, target, sa, ident] }
    out.stdout = [] ∧
    (out.acts = [] ∧ out.status = 1 ∧
      ((handleRequest sys policy agent { assumeYes := yes } source target sa []).2 = .ok denyAnswer ∨
        ∃ e, (handleRequest sys policy agent { assumeYes := yes } source target sa []).2 = .error e) ∨
    ∃ info rules req r user autostart t fs, sys = some info ∧ policy = .ok rules ∧
      Qrexec.requestOf sa source target info [] = .ok req ∧ Granted rules req { assumeYes := yes } agent r user autostart t ∧
      AnswerFor req user autostart t fs ∧
      CarriedOut w id source target sa ident info user t out.acts out.status) := by
  intro out
  cases hh : handleRequest sys policy agent { assumeYes := yes } source target sa [] with
  | mk evs x =>
    cases x with
    | error e =>
      have ho : out = { events := evs, status := 1 } := by
        show peMain _ _ _ _ _ = _
        unfold peMain
        rw [if_neg (show ¬ 0 > 0 by decide)]
        dsimp only
        rw [hh]
      rw [ho]
      exact ⟨rfl, .inl ⟨rfl, rfl, .inr ⟨e, rfl⟩⟩⟩
    | ok s =>
      have ho : out = peFollow w evs false (some (id, ident)) source target sa s := by
        show peMain _ _ _ _ _ = _
        unfold peMain
        rw [if_neg (show ¬ 0 > 0 by decide)]
        dsimp only
        rw [hh]
      have hout : ∀ a b c d e f, (peVm w a b c d e f).stdout = [] := by
        intro a b c d e f
        unfold peVm
        dsimp only
        by_cases hb : b = true
        · rw [if_pos hb]
          split
          · rfl
          · rename_i v _
            by_cases hv : (!v.all fun c => c.toNat < 128) = true
            · rw [if_pos hv]
            · rw [if_neg hv]
              split <;> rfl
        · rw [if_neg hb]
          split <;> rfl
      have hout : out.stdout = [] := by
        rw [ho]
        unfold peFollow
        split
        · rfl
        split
        · rfl
        dsimp only
        split_ifs
        · rfl
        · rfl
        · split
          · split_ifs
            · split
              · rfl
              · rfl
            · split
              · exact hout _ _ _ _ _ _
              · rfl
          · rfl
      refine ⟨hout, ?_⟩
      rw [ho]
      obtain ⟨fs, hread, hnd, hcase⟩ := C21_every_answer_reads_back sys policy agent _ source target sa [] hn hrules hsa evs s hh
      have hdict := peDict_answer hread hnd
      rcases hcase with rfl | ⟨h, _⟩ | ⟨info, rules, req, r, user, autostart, t, h1, h2, h3, h4, h5⟩
      · left
        refine ⟨?_, ?_, .inl ?_⟩
        · unfold peFollow; rw [hdict]; rfl
        · unfold peFollow; rw [hdict]; rfl
        · have hl := mapM_splitOnce.1 hread
          rw [(splitOn_eq_iff.1 hl.1).2.1]
          rfl
      · cases h
      right
      refine ⟨info, rules, req, r, user, autostart, t, fs, h1, h2, h3, h4, h5, ?_⟩
      have hinfo : req.info = info := (mkRequest_ok h3).2.2.1
      have hord := (hn _ h1).1
      cases h5 with
      | dom0 hd hne => exact peFollow_dom0 w evs id source target sa ident s _ info user t hdict rfl rfl hd
      | @disposable t' d u ht hne hd hu =>
        rw [hinfo] at hd
        have e := peFollow_vm w evs id source target sa ident s _ t (c!"@dispvm:uuid:" ++ u) (userText user) hdict rfl rfl rfl rfl
          (by rw [ht]; intro h; cases h) (by rw [ht]; intro h; cases h)
        rw [e, show startsWith c!"@dispvm:" t = true from startsWith_iff.2 ⟨t', ht⟩]
        rcases peVm_disp w evs (c!"@dispvm:uuid:" ++ u) (userText user) (ident ++ c!"," ++ source ++ c!"," ++ id)
          (c!"QUBESRPC " ++ sa ++ c!" " ++ source) (userText_ne user) with ⟨v, q1, q2, q3⟩ | ⟨q1, q2, q3⟩
        · exact .disposable ht hd hu q1 q2 (by simpa using q3)
        · rw [q2, q3]
          exact .notCreated ht hd hu q1
      | @plain d u hd0 hne hd hcls hu =>
        rw [hinfo] at hd
        have e := peFollow_vm w evs id source target sa ident s _ t (c!"uuid:" ++ u) (userText user) hdict rfl rfl rfl rfl
          (fun h => hd0 (.inl h)) (fun h => hd0 (.inr (.inl h)))
        rw [e, notDisp_of_ordinary (hord _ _ hd).2.1]
        have := peVm_qube w evs (c!"uuid:" ++ u) (userText user) (ident ++ c!"," ++ source ++ c!"," ++ id)
          (c!"QUBESRPC " ++ sa ++ c!" " ++ source) (userText_ne user)
        exact .plain hd0 hd hcls hu (by simpa using this)
      | @remote d relay rd u transport hd0 hne hd hcls hrel _ htr _ hrd hu =>
        rw [hinfo] at hd hrd
        by_cases hr0 : relay = c!"dom0"
        · subst hr0
          exact .remoteDom0 hd0 hd hcls hrel
            (peFollow_dom0 w evs id source target sa ident s _ info user c!"dom0" hdict rfl rfl (.inl rfl))
        · have e := peFollow_vm w evs id source target sa ident s _ relay (c!"uuid:" ++ u) c!"DEFAULT" hdict rfl rfl rfl rfl
            hr0 (by rintro rfl; exact (hord _ _ hrd).2.1 rfl)
          rw [e, notDisp_of_ordinary (hord _ _ hrd).2.1]
          have := peVm_qube w evs (c!"uuid:" ++ u) c!"DEFAULT" (ident ++ c!"," ++ source ++ c!"," ++ id)
            (c!"QUBESRPC " ++ sa ++ c!" " ++ source) (by decide)
          exact .remote hd0 hd hcls hrel hr0 hrd hu this

/-! ## Evaluation only -/

/-- Nobody answers questions. -/
def noAgent : Agent := fun _ _ => .error .keyError

theorem handleRequest_just_agent (sys : Option Info) (policy : Except Err (List Rule)) (agent agent' : Agent) (mode : Mode)
    (hm : mode.justEvaluate = true) (source target sa rs : Str) :
    handleRequest sys policy agent mode source target sa rs = handleRequest sys policy agent' mode source target sa rs := by
  have h : ∀ res, execResolution mode agent res = execResolution mode agent' res := by
    intro res
    cases res with
    | allow r => rfl
    | ask a =>
      show execAsk mode agent a = execAsk mode agent' a
      unfold execAsk
      by_cases hy : mode.assumeYes = true
      · rw [if_pos hy, if_pos hy]
      · rw [if_neg hy, if_neg hy, if_pos hm, if_pos hm]
  have ht : ∀ info service argument, tryRequest policy mode agent service argument source target info rs =
      tryRequest policy mode agent' service argument source target info rs := by
    intro info service argument
    unfold tryRequest
    cases policy with
    | error e => rfl
    | ok rules =>
      dsimp only
      cases mkRequest service argument source target info rs with
      | error e => rfl
      | ok req =>
        dsimp only
        cases evaluate rules req with
        | error e => rfl
        | ok res => exact h res
  unfold handleRequest
  cases sys with
  | none => rfl
  | some info =>
    dsimp only
    rw [ht]

theorem tokenText_template {k : Str} {tok : Token} (h : TokenText .intended (c!"@dispvm:" ++ k) tok) : PlainValue k := by
  generalize hz : c!"@dispvm:" ++ k = z at h
  generalize hc : Ctx.intended = ctx at h
  cases h with
  | name h1 h2 => rw [← hz] at h1; exact absurd rfl h1.2
  | wildcard h => cases hz
  | adminvm => cases hz
  | anyvm h => cases hz
  | default h => cases hz
  | dispvm h => cases hz
  | typeVM h => cases hz
  | tagVM h => cases hz
  | dispvmTemplate h =>
    rw [List.append_cancel_left hz]; exact h
  | dispvmTag h => subst hc; rcases h with h | h <;> cases h

/-- **C83, evaluation only.** With `--just-evaluate` nothing is asked, notified, started, run or written; the exit status is 0
exactly if the policy grants a target to the request without asking (or, with `--assume-yes-for-ask`, if it offers the
requested target), else 1. -/
theorem C83_just (w : PeWorld) (sys : Option Info) (policy : Except Err (List Rule)) (agent : Agent) (yes : Bool)
    (source target sa : Str) (args : List Str)
    (hargs : args = [source, target, sa] ∨ ∃ id ident, args = [id, source, target, sa, ident])
    (hn : ∀ info, sys = some info → OrdinaryNames info)
    (hd : ∀ info req, sys = some info → Qrexec.requestOf sa source target info [] = .ok req → DispvmReady req)
    (hrules : ∀ rules, policy = .ok rules → ∀ r ∈ rules, IsRule r) :
    let out := peMain w sys policy agent { justEvaluate := true, assumeYes := yes, args }
    out.acts = [] ∧ out.events = [] ∧ out.stdout = [] ∧ out.status ≤ 1 ∧
    (out.status = 0 ↔ ∃ info rules req r user autostart t, sys = some info ∧ policy = .ok rules ∧
      Qrexec.requestOf sa source target info [] = .ok req ∧
      Granted rules req { justEvaluate := true, assumeYes := yes } noAgent r user autostart t) := by
  intro out
  have hev : (handleRequest sys policy noAgent { justEvaluate := true, assumeYes := yes } source target sa []).1 = [] :=
    C46_just_evaluate sys policy noAgent _ rfl source target sa []
  -- the converse, first
  have conv : (∃ info rules req r user autostart t, sys = some info ∧ policy = .ok rules ∧
      Qrexec.requestOf sa source target info [] = .ok req ∧
      Granted rules req { justEvaluate := true, assumeYes := yes } noAgent r user autostart t) →
      ∃ evs, handleRequest sys policy noAgent { justEvaluate := true, assumeYes := yes } source target sa [] =
        (evs, .ok c!"result=allow") := by
    rintro ⟨info, rules, req, r, user, autostart, t, rfl, rfl, hreq, hg⟩
    have hi : req.info = info := (mkRequest_ok hreq).2.2.1
    have hq := isRequest_of hreq
    have hord : OrdinaryNames req.info := by rw [hi]; exact hn _ rfl
    cases hg with
    | byRule hf ha hal hau =>
      have hmem : r ∈ rules := by rw [hf.split]; simp
      have := (C05_allow_target rules _ _ r req hord (hd _ _ rfl hreq) (hrules _ rfl r hmem) hq hf _ _ _ _ ha
        (.allow { rule := r, request := req, user := user, target := t, autostart := autostart })).2
        ⟨t, hal, hau, rfl⟩
      exact ⟨[], handleRequest_exec hreq this rfl⟩
    | byUser _ _ _ _ _ _ hag => cases hag
    | @byMode pre post redirect dflt n a hf ha hy hev' ht hto =>
      have hy : yes = true := hy
      subst hy
      obtain ⟨har, -⟩ := evaluate_ask hord hev'
      refine ⟨[], handleRequest_exec hreq hev' ?_⟩
      show execAsk { justEvaluate := true, assumeYes := true } noAgent a = _
      unfold execAsk
      rw [if_pos rfl]
      have hhur : a.handleUserResponse true a.request.target.str = .ok (approved a t) := by
        rw [har, ← hto]
        unfold AskRes.handleUserResponse AllowRes.fromAsk
        rw [if_neg (by simp), if_neg (by simp [ht])]
        by_cases hd : startsWith c!"@dispvm:" t = true
        · have htt := isRequest_target hq
          rw [← hto] at htt
          obtain ⟨k, hk⟩ := startsWith_iff.1 hd
          subst hk
          have hp := tokenText_template htt
          rw [if_pos hd, show (c!"@dispvm:" ++ k).drop 8 = k from rfl]
          unfold mkDispvmTemplate
          rw [if_neg (by simpa using hp.1), if_neg]
          · rfl
          · intro hh
            obtain ⟨x, rfl⟩ := startsWith_iff.1 hh
            exact hp.2 rfl
        · rw [if_neg hd]
          rfl
      rw [hhur]
      rfl
  have hsame := handleRequest_just_agent sys policy agent noAgent { justEvaluate := true, assumeYes := yes } rfl source target sa []
  cases hh : handleRequest sys policy noAgent { justEvaluate := true, assumeYes := yes } source target sa [] with
  | mk evs x =>
    rw [hh] at hev hsame
    have hev : evs = [] := hev
    subst hev
    cases x with
    | error e =>
      have ho : out = { events := [], status := 1 } := by
        show peMain _ _ _ _ _ = _
        unfold peMain
        rw [if_neg (show ¬ 0 > 0 by decide)]
        dsimp only
        rcases hargs with rfl | ⟨id, ident, rfl⟩
        · dsimp only; rw [hsame]
        · dsimp only; rw [hsame]
      rw [ho]
      refine ⟨rfl, rfl, rfl, (by show (1:Nat) ≤ 1; decide), (fun h => by cases h), fun h => ?_⟩
      obtain ⟨evs, h⟩ := conv h
      rw [hh] at h; cases h
    | ok s =>
      have ho : ∃ run, out = peFollow w [] true run source target sa s := by
        rcases hargs with h | ⟨id, ident, h⟩
        · refine ⟨none, ?_⟩
          show peMain _ _ _ _ _ = _
          unfold peMain
          rw [if_neg (show ¬ 0 > 0 by decide)]
          subst h
          dsimp only
          rw [hsame]
          rfl
        · refine ⟨some (id, ident), ?_⟩
          show peMain _ _ _ _ _ = _
          unfold peMain
          rw [if_neg (show ¬ 0 > 0 by decide)]
          subst h
          dsimp only
          rw [hsame]
      obtain ⟨run, ho⟩ := ho
      by_cases hs : s = denyAnswer
      · subst hs
        have ho : out = { events := [], status := 1 } := ho
        rw [ho]
        refine ⟨rfl, rfl, rfl, (by show (1:Nat) ≤ 1; decide), (fun h => by cases h), fun h => ?_⟩
        obtain ⟨evs, h⟩ := conv h
        rw [hh] at h; cases h
      · obtain ⟨info, rules, req, r, user, autostart, t, h1, h2, h3, h4, h5⟩ :=
          C04_no_allow_without_grant sys policy noAgent _ source target sa [] hn hrules [] s hh hs
        rcases h5 with ⟨_, rfl⟩ | ⟨h5, _⟩
        · have ho : out = { events := [], status := 0 } := ho
          rw [ho]
          exact ⟨rfl, rfl, rfl, (by show (0:Nat) ≤ 1; decide), (fun _ => ⟨info, rules, req, r, user, autostart, t, h1, h2, h3, h4⟩),
            fun _ => rfl⟩
        · cases h5

/-! ## With qrexec-client -/

/-- **C83, the daemons.** For a qube, qrexec-client gives the command to the daemon of the qube the call was allowed to (in the name
of the caller), and tells the daemon of the caller who answers; no other qube is involved. A disposable is not removed
afterwards: the option for this is not effective here. -/
theorem C83_reaches (qw : QcWorld) (disposable : Bool) (id source ident qube cmd : Str) (n : Nat)
    (hid : CInteger id n) (hn : n ≤ 2147483647) (hn0 : n ≠ 0) (hi : ',' ∉ ident) (hil : ident.length ≤ 31) (hs : ',' ∉ source)
    (hs0 : source ∉ dom0Names) (hq : qube ∉ dom0Names) (hq' : ¬ c!"@dispvm:" <+: qube) (hc : cmd ≠ []) (hcl : cmd.length ≤ 65534) :
    ∃ st, qcMain qw ([.noExitCode] ++ (if disposable then [.waitEnd, .kill] else []) ++
        [.domain qube, .connect (ident ++ c!"," ++ source ++ c!"," ++ id)]) [cmd] =
        ((connectActs qw.ex qube n (cmd ++ ['\x00']) ident disposable).map .ex, .exit st, []) ∧
      (st = 0 ↔ qw.ex.connect1 = .ok ∧ qw.ex.negotiate ≠ none ∧ qw.ex.source = true ∧ qw.ex.send = true) := by
  have hct : ConnectText (ident ++ c!"," ++ source ++ c!"," ++ id) ident source n := ⟨id, rfl, hi, hs, hil, hid, hn⟩
  generalize ident ++ c!"," ++ source ++ c!"," ++ id = conn at *
  generalize hos : ([.noExitCode] ++ (if disposable then [.waitEnd, .kill] else []) ++
        [.domain qube, .connect conn] : List QcOpt) = os
  have hmem : ∀ o ∈ os, o = .noExitCode ∨ o = .waitEnd ∨ o = .kill ∨ o = .domain qube ∨
      o = .connect conn := by
    intro o ho
    rw [← hos] at ho
    cases disposable <;> simp at ho <;> tauto
  have hdom : domainsOf os = [qube] := by rw [← hos]; cases disposable <;> rfl
  have hcon : connectsOf os = [conn] := by rw [← hos]; cases disposable <;> rfl
  have hloc : localsOf os = [] := by rw [← hos]; cases disposable <;> rfl
  have hpfx : pfxsOf os = [] := by rw [← hos]; cases disposable <;> rfl
  have hwait : decide (QcOpt.waitEnd ∈ os) = disposable := by
    rw [← hos]; cases disposable <;> simp
  have hok : QcOk qw.stdinStream os [cmd] := by
    refine ⟨⟨?_, ?_, ?_, ?_, ?_, ?_, ?_⟩, by simp, by rw [hdom]; simp, ?_, ?_, ?_, ?_, ?_⟩
    · intro h; have := hmem _ h; simp at this
    · intro s h
      have := hmem _ h
      simp at this
      subst this
      exact ⟨ident, source, n, hct, hs0, hn0⟩
    · intro s h; have := hmem _ h; simp at this
    · rw [hcon]; simp
    · rw [hpfx]; simp
    · rw [List.count_eq_zero.2 (by intro h; have := hmem _ h; simp at this)]; simp
    · intro h; have := hmem _ h; simp at this
    · rintro ⟨h, -⟩; have := hmem _ h; simp at this
    · rintro ⟨h, -⟩; have := hmem _ h; simp at this
    · rintro ⟨-, h⟩; exact h hloc
    · rintro ⟨h, -⟩; exact h hloc
    · intro d s h1 h2
      rw [hdom] at h1
      simp at h1
      subst h1
      exact absurd h2 hq
  obtain ⟨st, e, h0, h1⟩ := (C75_connect qw os cmd [] qube _ ident source n hok (by rw [hdom]; rfl) hq hcon hct).2 hc hcl hq'
  rw [hwait] at e
  refine ⟨st, e, fun h => ?_, h0⟩
  by_contra hx
  have := h1 hx
  omega

/-! ## Findings -/

/-- `--path` always ends in an exception: `args.path` is an attribute of the list of arguments (or of None). -/
theorem C83_path_violation (w : PeWorld) (sys : Option Info) (policy : Except Err (List Rule)) (agent : Agent) (a : PeArgs)
    (h : a.paths ≠ 0) : peMain w sys policy agent a = { status := 1 } := by
  unfold peMain
  rw [if_pos (by omega)]

/-- A call that is allowed to a RemoteVM runs the service of the caller in the relay, not the transport service that the answer of
the policy names. -/
theorem C83_remote_violation :
    peMain ⟨fun _ _ _ => some c!"0\x00", fun _ _ => 0⟩ (some exInfo2) (.ok [exAllowAll]) noAgent
      { args := [c!"7", c!"work", c!"far", c!"svc+arg", c!"1"] } =
      PeOut.mk [] [.qubesd c!"uuid:u1" c!"admin.vm.Start" [],
        .client [.noExitCode, .domain c!"uuid:u1", .connect c!"1,work,7"] [c!"DEFAULT:QUBESRPC svc+arg work"]] [] 0 ∧
    (handleRequest (some exInfo2) (.ok [exAllowAll]) noAgent {} c!"work" c!"far" c!"svc+arg" []).2 =
      .ok (answerText [(c!"user", c!"DEFAULT"), (c!"result", c!"allow"), (c!"target", c!"relay"), (c!"target_uuid", c!"uuid:u1"),
        (c!"autostart", c!"True"), (c!"requested_target", c!"far"), (c!"service", c!"tr+far+svc+arg")]) := by decide

/-- The evaluation says yes where the call would be refused: a qube that calls itself. -/
theorem C83_just_violation :
    (peMain ⟨fun _ _ _ => none, fun _ _ => 0⟩ (some exInfo2) (.ok [exAllowAll]) noAgent
      { justEvaluate := true, args := [c!"work", c!"work", c!"svc"] }).status = 0 ∧
    (peMain ⟨fun _ _ _ => none, fun _ _ => 0⟩ (some exInfo2) (.ok [exAllowAll]) noAgent
      { args := [c!"work", c!"work", c!"svc"] }).status = 1 := by decide

/-- A call to a plain qube is carried out: it is started, then the command runs there. -/
example :
    peMain ⟨fun _ _ _ => some c!"0\x00", fun _ _ => 3⟩ (some exInfo2) (.ok [exAllowAll]) noAgent
      { args := [c!"7", c!"work", c!"relay", c!"svc+arg", c!"1"] } =
      PeOut.mk [] [.qubesd c!"uuid:u1" c!"admin.vm.Start" [],
        .client [.noExitCode, .domain c!"uuid:u1", .connect c!"1,work,7"] [c!"DEFAULT:QUBESRPC svc+arg work"]] [] 3 := by decide

/-- The daemon gets it. -/
example (qw : QcWorld) := C83_reaches qw false c!"7" c!"work" c!"1" c!"uuid:u1" c!"DEFAULT:QUBESRPC svc+arg work" 7
  ((C74_int c!"7" 7).1 (by decide)).1

/-- If qubesd refuses to start the qube - as it may if the qube runs already - nothing is run. -/
example :
    peMain ⟨fun _ _ _ => some c!"2\x00QubesVMNotHaltedError\x00\x00Domain is not halted\x00\x00", fun _ _ => 0⟩ (some exInfo2) (.ok [exAllowAll]) noAgent
      { args := [c!"7", c!"work", c!"relay", c!"svc+arg", c!"1"] } =
      PeOut.mk [] [.qubesd c!"uuid:u1" c!"admin.vm.Start" []] [] 1 := by decide

end Qrexec
