import Verif.Model.Multiplexer
import Verif.Props.ServiceFind
import Verif.Props.ServiceEnv
import Verif.Props.Shell

/-!
# C113: the old way to start a service
-/
namespace Qrexec

/-- Variables of the script itself. -/
def muxNames : List Str := [c!"tmpdir", c!"SERVICE_WITHOUT_ARGUMENT", c!"CFG_FILE", c!"DIR", c!"IFS", c!"ifs", c!"stderr_pipe", c!"return_stderr_pipe"]

/-- The places where the script looks: directory by directory, first for the service with its argument. -/
def muxPlaces (dirs : List Str) (full name : Str) : List Str := dirs.flatMap fun d => [d ++ c!"/" ++ full, d ++ c!"/" ++ name]

theorem muxFind_spec (ne : Str → Bool) (full name : Str) (dirs : List Str) (cfg : Str) :
    (∃ before after, muxPlaces dirs full name = before ++ muxFind ne full name dirs cfg :: after ∧ (∀ q ∈ before, ne q = false) ∧
      ne (muxFind ne full name dirs cfg) = true) ∨
    (∀ q ∈ muxPlaces dirs full name, ne q = false) ∧ muxFind ne full name dirs cfg = match dirs.getLast? with
      | some d => d ++ c!"/" ++ name
      | none => cfg := by
  induction dirs generalizing cfg with
  | nil => exact .inr ⟨by simp [muxPlaces], rfl⟩
  | cons d ds ih =>
    have hp : muxPlaces (d :: ds) full name = (d ++ c!"/" ++ full) :: (d ++ c!"/" ++ name) :: muxPlaces ds full name := by
      simp [muxPlaces]
    rw [muxFind, hp]
    by_cases h1 : ne (d ++ c!"/" ++ full) = true
    · rw [if_pos h1]
      exact .inl ⟨[], _, rfl, by simp, h1⟩
    rw [if_neg h1]
    by_cases h2 : ne (d ++ c!"/" ++ name) = true
    · rw [if_pos h2]
      exact .inl ⟨[d ++ c!"/" ++ full], _, rfl, by simpa using h1, h2⟩
    rw [if_neg h2]
    rcases ih (d ++ c!"/" ++ name) with ⟨b, a, e1, e2, e3⟩ | ⟨e1, e2⟩
    · refine .inl ⟨(d ++ c!"/" ++ full) :: (d ++ c!"/" ++ name) :: b, a, ?_, ?_, e3⟩
      · exact congrArg (fun l => (d ++ c!"/" ++ full) :: (d ++ c!"/" ++ name) :: l) e1
      · intro q hq
        rcases List.mem_cons.1 hq with rfl | hq
        · simpa using h1
        rcases List.mem_cons.1 hq with rfl | hq
        · simpa using h2
        · exact e2 q hq
    · refine .inr ⟨?_, ?_⟩
      · intro q hq
        rcases List.mem_cons.1 hq with rfl | hq
        · simpa using h1
        rcases List.mem_cons.1 hq with rfl | hq
        · simpa using h2
        · exact e1 q hq
      · rw [e2]
        cases ds with
        | nil => rfl
        | cons x xs => rw [List.getLast?_cons_cons]; cases h : (x :: xs).getLast? <;> simp_all

/-- The argument of a call. -/
def callArg (full : Str) : Option Str := (splitOnce '+' full).map Prod.snd

theorem muxSet_same (env : Str → Option Str) (v : Str) (x : Option Str) : muxSet env v x v = x := if_pos rfl
theorem muxSet_other (env : Str → Option Str) {v u : Str} (x : Option Str) (h : u ≠ v) : muxSet env v x u = env u := if_neg h
theorem muxAssign_other (env : Str → Option Str) {v u : Str} (x : Str) (h : u ≠ v) : muxAssign env v x u = env u := if_neg h

/-- Type and name of a target, or nothing. -/
def muxTarget (type target : Str) : Option (Str × Str) := if type = [] then none else some (type, target)

/-- The middle part of the environment, the target. -/
theorem muxEnv_eq (env : Str → Option Str) (full remote type target : Str) : ∃ e : Str → Option Str,
    muxEnv env full remote type target = (match muxArg full with
      | some a => muxSet (muxAssign (muxSet (muxSet e c!"QREXEC_REMOTE_DOMAIN" (some remote)) c!"QREXEC_SERVICE_FULL_NAME" (some full))
          c!"SERVICE_WITHOUT_ARGUMENT" (muxName full)) c!"QREXEC_SERVICE_ARGUMENT" (some a)
      | none => muxAssign (muxSet (muxSet e c!"QREXEC_REMOTE_DOMAIN" (some remote)) c!"QREXEC_SERVICE_FULL_NAME" (some full))
          c!"SERVICE_WITHOUT_ARGUMENT" (muxName full)) ∧
    e c!"QREXEC_SERVICE_ARGUMENT" = none ∧ e c!"QREXEC_REQUESTED_TARGET_TYPE" = some type ∧
    e c!"QREXEC_REQUESTED_TARGET" = (if type = c!"name" then some target else none) ∧
    e c!"QREXEC_REQUESTED_TARGET_KEYWORD" = (if type = c!"keyword" then some target else none) ∧
    ∀ v, v ∉ callNames → e v = env v := by
  refine ⟨_, rfl, ?_, ?_, ?_, ?_, ?_⟩
  · split_ifs <;> rfl
  · split_ifs <;> rfl
  · split_ifs <;> rfl
  · by_cases h1 : type = c!"name"
    · rw [if_pos h1, if_neg (by rw [h1]; decide)]; rfl
    · rw [if_neg h1]; split_ifs <;> rfl
  · intro v hv
    have h : ∀ n ∈ callNames, v ≠ n := fun n hn he => hv (he ▸ hn)
    have h1 := h c!"QREXEC_REQUESTED_TARGET" (by decide)
    have h2 := h c!"QREXEC_REQUESTED_TARGET_KEYWORD" (by decide)
    have h3 := h c!"QREXEC_SERVICE_ARGUMENT" (by decide)
    have h4 := h c!"QREXEC_REQUESTED_TARGET_TYPE" (by decide)
    have base : (muxSet (muxSet (muxSet (muxSet env c!"QREXEC_REQUESTED_TARGET" none) c!"QREXEC_REQUESTED_TARGET_KEYWORD" none)
        c!"QREXEC_SERVICE_ARGUMENT" none) c!"QREXEC_REQUESTED_TARGET_TYPE" (some type)) v = env v := by
      rw [muxSet_other _ _ h4, muxSet_other _ _ h3, muxSet_other _ _ h2, muxSet_other _ _ h1]
    split_ifs
    · rw [muxSet_other _ _ h1]; exact base
    · rw [muxSet_other _ _ h2]; exact base
    · exact base

theorem muxEnv_call (env : Str → Option Str) (full remote type target : Str) :
    (∀ v ∈ callNames, muxEnv env full remote type target v = callVar full remote (muxTarget type target) v) ∧
    ∀ v, v ∉ callNames → v ∉ muxNames → muxEnv env full remote type target v = env v := by
  obtain ⟨e, he, e1, e2, e3, e4, e5⟩ := muxEnv_eq env full remote type target
  have ht : targetType (muxTarget type target) = type := by
    unfold muxTarget
    split_ifs with h
    · rw [h]; rfl
    · rfl
  have hk : ∀ k, k ≠ [] → targetOfKind k (muxTarget type target) = if type = k then some target else none := by
    intro k hk
    unfold muxTarget
    by_cases h : type = []
    · rw [if_pos h, if_neg (by rw [h]; exact hk.symm)]; rfl
    · rw [if_neg h]; rfl
  have inner : ∀ v, v ∉ muxNames → v ≠ c!"QREXEC_REMOTE_DOMAIN" → v ≠ c!"QREXEC_SERVICE_FULL_NAME" →
      (muxAssign (muxSet (muxSet e c!"QREXEC_REMOTE_DOMAIN" (some remote)) c!"QREXEC_SERVICE_FULL_NAME" (some full))
          c!"SERVICE_WITHOUT_ARGUMENT" (muxName full)) v = e v := by
    intro v hm h1 h2
    rw [muxAssign_other _ _ (by rintro rfl; exact absurd (by decide) hm), muxSet_other _ _ h2, muxSet_other _ _ h1]
  have other : ∀ v, v ∉ muxNames → v ≠ c!"QREXEC_REMOTE_DOMAIN" → v ≠ c!"QREXEC_SERVICE_FULL_NAME" → v ≠ c!"QREXEC_SERVICE_ARGUMENT" →
      muxEnv env full remote type target v = e v := by
    intro v hm h1 h2 h3
    rw [he]
    cases muxArg full with
    | none => exact inner v hm h1 h2
    | some a => dsimp only; rw [muxSet_other _ _ h3]; exact inner v hm h1 h2
  refine ⟨fun v hv => ?_, fun v hv hm => ?_⟩
  · simp only [callNames, List.mem_cons, List.not_mem_nil, or_false] at hv
    rcases hv with rfl | rfl | rfl | rfl | rfl | rfl
    · rw [he]; cases muxArg full <;> rfl
    · rw [he]; cases muxArg full <;> rfl
    · rw [other _ (by decide) (by decide) (by decide) (by decide), e2]
      exact congrArg some ht.symm
    · rw [he]
      show _ = muxArg full
      cases hm : muxArg full with
      | none =>
        dsimp only
        rw [inner _ (by decide) (by decide) (by decide), e1]
      | some a => exact muxSet_same ..
    · rw [other _ (by decide) (by decide) (by decide) (by decide), e3]
      exact (hk _ (by decide)).symm
    · rw [other _ (by decide) (by decide) (by decide) (by decide), e4]
      exact (hk _ (by decide)).symm
  · have h : ∀ n ∈ callNames, v ≠ n := fun n hn he => hv (he ▸ hn)
    rw [other v hm (h _ (by decide)) (h _ (by decide)) (h _ (by decide))]
    exact e5 v hv

/-- What the script does with these words. -/
theorem muxRun_words (env : Str → Option Str) (ne : Str → Bool) (full remote : Str) (target : Option (Str × Str))
    (ht : ∀ t n, target = some (t, n) → t ≠ []) :
    ∃ type t, muxTarget type t = target ∧ muxRun env ne (full :: remote :: targetWords target) = muxExec env ne full remote type t := by
  cases target with
  | none => exact ⟨[], [], rfl, rfl⟩
  | some p => exact ⟨p.1, p.2, if_neg (ht p.1 p.2 rfl), rfl⟩

/-- The list of directories the script uses. -/
def muxPath (env : Str → Option Str) : Str := (env c!"QREXEC_SERVICE_PATH").getD c!"/usr/local/etc/qubes-rpc:/etc/qubes-rpc"

/-- **C113.** Whatever the environment: the program that is started gets exactly the variables that describe the call, as if it were started directly
(C64), all other variables are passed on, and its only argument is the argument of the call, if there is one. It is the first file that is not empty
among those for the service with its argument and those for the service, in the order of the directories; if there is none, the last one is tried. -/
theorem C113_start (env : Str → Option Str) (ne : Str → Bool) (full remote : Str) (target : Option (Str × Str))
    (ht : ∀ t n, target = some (t, n) → t ≠ []) :
    ∃ program env', muxRun env ne (full :: remote :: targetWords target) =
        .exec program (program :: (if (callArg full).getD [] = [] then [] else [(callArg full).getD []])) env' ∧
      (∀ v ∈ callNames, env' v = callVar full remote target v) ∧
      (∀ v, v ∉ callNames → v ∉ muxNames → env' v = env v) ∧
      ∃ name desc, (callArg full = none ∧ name = full ∧ desc = full ++ c!"+" ∨ ∃ a, callArg full = some a ∧ full = name ++ c!"+" ++ a ∧ '+' ∉ name ∧ desc = full) ∧
        ((∃ before after, muxPlaces (muxDirs (muxPath env)) desc name = before ++ program :: after ∧ (∀ q ∈ before, ne q = false) ∧ ne program = true) ∨
          (∀ q ∈ muxPlaces (muxDirs (muxPath env)) desc name, ne q = false) ∧
            (muxDirs (muxPath env) ≠ [] → ∃ d ∈ muxDirs (muxPath env), program = d ++ c!"/" ++ name)) := by
  obtain ⟨type, t, rfl, e⟩ := muxRun_words env ne full remote target ht
  obtain ⟨h1, h2⟩ := muxEnv_call env full remote type t
  rw [e]
  unfold muxExec
  dsimp only
  have ha : muxWords (muxArg full) = (if (callArg full).getD [] = [] then [] else [(callArg full).getD []] : List Str) := by
    show muxWords (callArg full) = _
    cases callArg full with
    | none => rfl
    | some a => cases a <;> rfl
  refine ⟨_, _, by rw [ha], ?_, ?_, ?_⟩
  · intro v hv
    rw [muxAssign_other _ _ (by rintro rfl; exact absurd hv (by decide))]
    exact h1 v hv
  · intro v hv hm
    rw [muxAssign_other _ _ (by rintro rfl; exact absurd (by decide) hm)]
    exact h2 v hv hm
  · refine ⟨muxName full, if (muxArg full).isSome then full else full ++ c!"+", ?_, ?_⟩
    · unfold muxName muxArg callArg
      cases hs : splitOnce '+' full with
      | none => exact .inl ⟨rfl, rfl, rfl⟩
      | some p =>
        obtain ⟨e1, e2⟩ := splitOnce_eq_some.1 hs
        exact .inr ⟨p.2, rfl, by simpa using e1, e2, rfl⟩
    · rcases muxFind_spec ne (if (muxArg full).isSome then full else full ++ c!"+") (muxName full) (muxDirs (muxPath env)) ((env c!"CFG_FILE").getD []) with
        h | ⟨h3, h4⟩
      · exact .inl h
      · refine .inr ⟨h3, fun hn => ?_⟩
        cases hl : (muxDirs (muxPath env)).getLast? with
        | none => exact absurd (List.getLast?_eq_none_iff.1 hl) hn
        | some d =>
          rw [hl] at h4
          exact ⟨d, List.mem_of_getLast? hl, h4⟩

/-- **C113, other words.** Nothing is started with another number of words. -/
theorem C113_usage (env : Str → Option Str) (ne : Str → Bool) (words : List Str) (h2 : words.length ≠ 2) (h4 : words.length ≠ 4) :
    muxRun env ne words = .usage := by
  unfold muxRun
  split
  · exact absurd rfl h2
  · exact absurd rfl h4
  · rfl

/-- Two files for the same call: one for the service with the argument in the second directory, one for the service in the first. -/
def exMuxFs (p : Str) : Bool := p == c!"/usr/local/etc/qubes-rpc/svc" || p == c!"/etc/qubes-rpc/svc+arg"

set_option maxRecDepth 20000 in
/-- **C113 is violated** by the choice of the program: if there are a file for the service in one directory and one for the service with this argument in a
later one, the script starts the former, and the programs of this package (C65) the latter. -/
theorem C113_program_violated :
    (∃ env, muxRun (fun _ => none) exMuxFs [c!"svc+arg", c!"work"] =
      .exec c!"/usr/local/etc/qubes-rpc/svc" [c!"/usr/local/etc/qubes-rpc/svc", c!"arg"] env) ∧
    findDescOrName false (fun p => if exMuxFs p then .ok (.other true) else .enoent) 4096 c!"/usr/local/etc/qubes-rpc:/etc/qubes-rpc"
      ⟨c!"svc+arg", c!"svc", some c!"arg", c!"work"⟩ = .found c!"/etc/qubes-rpc/svc+arg" (.other true) :=
  ⟨⟨_, rfl⟩, by decide⟩

/-- The script takes the call apart and makes the environment, for a call with everything. -/
example : ∃ env, muxRun (fun v => if v = c!"QREXEC_REQUESTED_TARGET_KEYWORD" then some c!"old" else none) exMuxFs [c!"svc+a+b", c!"work", c!"name", c!"dom0"] =
      .exec c!"/usr/local/etc/qubes-rpc/svc" [c!"/usr/local/etc/qubes-rpc/svc", c!"a+b"] env ∧ env c!"QREXEC_REQUESTED_TARGET" = some c!"dom0" ∧
      env c!"QREXEC_REQUESTED_TARGET_KEYWORD" = none := ⟨_, rfl, by decide, by decide⟩

example : muxDirs c!"a::b:" = [c!"a", [], c!"b"] := by decide
example : muxDirs [] = [] := by decide

end Qrexec
