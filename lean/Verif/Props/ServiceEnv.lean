import Verif.Props.ServiceCmd
import Verif.Lemmas.Daemon
import Verif.Lemmas.Exec

/-!
# C64: the environment of a service
-/
namespace Qrexec

theorem getenv_append (a b : List Str) (v : Str) :
    getenv (a ++ b) v = match getenv a v with
      | some x => some x
      | none => getenv b v := by
  induction a with
  | nil => rfl
  | cons e a ih =>
    rw [List.cons_append, getenv, getenv]
    split_ifs
    · rfl
    · exact ih

theorem getenv_none (a : List Str) (v : Str) (h : ∀ e ∈ a, ¬ (v ++ c!"=") <+: e) : getenv a v = none := by
  induction a with
  | nil => rfl
  | cons e a ih =>
    rw [getenv, if_neg (fun x => h e (List.mem_cons_self ..) (List.isPrefixOf_iff_prefix.1 x))]
    exact ih (fun e he => h e (List.mem_cons_of_mem _ he))

theorem getenv_filter (a : List Str) (v : Str) (f : Str → Bool) (h : ∀ e, (v ++ c!"=") <+: e → f e = true) :
    getenv (a.filter f) v = getenv a v := by
  induction a with
  | nil => rfl
  | cons e a ih =>
    rw [List.filter_cons]
    by_cases hp : (v ++ c!"=").isPrefixOf e = true
    · rw [if_pos (h e (List.isPrefixOf_iff_prefix.1 hp)), getenv, getenv, if_pos hp, if_pos hp]
    · rw [getenv, if_neg hp]
      split_ifs
      · rw [getenv, if_neg hp]; exact ih
      · exact ih

theorem getenv_cons_eq (v x : Str) (a : List Str) : getenv ((v ++ c!"=" ++ x) :: a) v = some x := by
  rw [getenv, if_pos (List.isPrefixOf_iff_prefix.2 (List.prefix_append _ _))]
  congr 1
  rw [List.drop_append_of_le_length (by simp)]
  simp

theorem getenv_cons_ne (e v : Str) (a : List Str) (h : ¬ (v ++ c!"=") <+: e) : getenv (e :: a) v = getenv a v := by
  rw [getenv, if_neg (fun x => h (List.isPrefixOf_iff_prefix.1 x))]

/-- Two strings starting with different literals of which none is a prefix of the other. -/
theorem lit_ne {p q x : Str} (h : ¬ (p <+: q ∨ q <+: p)) : ¬ p <+: q ++ x := by
  intro hp
  apply h
  exact (List.prefix_or_prefix_of_prefix hp (List.prefix_append q x))

theorem kept_env (envp : List Str) (v : Str) (hq : c!"QREXEC" <+: v) (h1 : ¬ c!"QREXEC_SERVICE_PATH=" <+: v ++ c!"=")
    (h2 : ¬ c!"QREXEC_AGENT_PID=" <+: v ++ c!"=") (h3 : ¬ v ++ c!"=" <+: c!"QREXEC_SERVICE_PATH=")
    (h4 : ¬ v ++ c!"=" <+: c!"QREXEC_AGENT_PID=") : getenv (envp.filter fun v => !shouldStripEnv v) v = none := by
  apply getenv_none
  intro e he hp
  obtain ⟨_, hs⟩ := List.mem_filter.1 he
  have hqe : c!"QREXEC" <+: e := (hq.trans (List.prefix_append _ _)).trans hp
  have hst : shouldStripEnv e = true := by
    unfold shouldStripEnv
    rw [if_neg (by simp [startsWith, List.isPrefixOf_iff_prefix.2 hqe])]
    have no : ∀ r : Str, ¬ (c!"QREXEC" ++ r) <+: v ++ c!"=" → ¬ v ++ c!"=" <+: (c!"QREXEC" ++ r) →
        startsWith r (e.drop 6) = false := by
      intro r k1 k2
      rw [startsWith_false]
      rintro ⟨t, ht⟩
      obtain ⟨e', rfl⟩ := hqe
      have he' : (c!"QREXEC" ++ e').drop 6 = e' := rfl
      rw [he'] at ht
      subst ht
      have : c!"QREXEC" ++ r <+: c!"QREXEC" ++ (r ++ t) := by
        rw [← List.append_assoc]; exact List.prefix_append _ _
      rcases List.prefix_or_prefix_of_prefix this hp with k | k
      · exact k1 k
      · exact k2 k
    rw [no c!"_SERVICE_PATH=" h1 h3, no c!"_AGENT_PID=" h2 h4]
    rfl
  rw [hst] at hs
  cases hs

/-- Requested target as words of the command. -/
def targetWords (target : Option (Str × Str)) : List Str :=
  match target with
  | some (t, n) => [t, n]
  | none => []

/-- Type of the requested target. -/
def targetType (target : Option (Str × Str)) : Str :=
  match target with
  | some (t, _) => t
  | none => []

/-- Requested target of the given kind. -/
def targetOfKind (kind : Str) (target : Option (Str × Str)) : Option Str :=
  match target with
  | some (t, n) => if t = kind then some n else none
  | none => none

/-- The environment variables that describe a call. -/
def callVar (full remote : Str) (target : Option (Str × Str)) (v : Str) : Option Str :=
  if v = c!"QREXEC_SERVICE_FULL_NAME" then some full
  else if v = c!"QREXEC_REMOTE_DOMAIN" then some remote
  else if v = c!"QREXEC_SERVICE_ARGUMENT" then (splitOnce '+' full).map Prod.snd
  else if v = c!"QREXEC_REQUESTED_TARGET_TYPE" then some (targetType target)
  else if v = c!"QREXEC_REQUESTED_TARGET" then targetOfKind c!"name" target
  else if v = c!"QREXEC_REQUESTED_TARGET_KEYWORD" then targetOfKind c!"keyword" target
  else none

set_option maxRecDepth 20000 in
/-- The words of a command for which something is run. -/
theorem exec_words (program cmd : Str) (envp : List Str) (sh : Bool) (e : ExecCall)
    (h : execQubesRpc2 program cmd envp sh = some e) :
    ∃ full remote target, strtokSpace cmd = full :: remote :: targetWords target ∧ program.head? = some '/' ∧
      e = if sh then ⟨c!"/bin/sh",
              [c!"/bin/sh", c!"-lc", shellScript (shellKind target)
                (((splitOnce '+' full).map Prod.snd).map fun a => a.length != 0), c!"sh",
                program, full, remote, ((splitOnce '+' full).map Prod.snd).getD []] ++ shellTarget target,
              envp.filter fun v => !shouldStripEnv v⟩
          else ⟨program, program :: argArgv ((splitOnce '+' full).map Prod.snd),
                 (envp.filter fun v => !shouldStripEnv v) ++ (targetVars target ++
                  ([c!"QREXEC_SERVICE_FULL_NAME=" ++ full, c!"QREXEC_REMOTE_DOMAIN=" ++ remote] ++
                    argVars ((splitOnce '+' full).map Prod.snd)))⟩ := by
  unfold execQubesRpc2 at h
  dsimp only at h
  by_cases h1 : (strtokSpace cmd).length > 9
  · rw [if_pos h1] at h; cases h
  rw [if_neg h1] at h
  by_cases h2 : (program.head? != some '/') = true
  · rw [if_pos h2] at h; cases h
  rw [if_neg h2] at h
  have h2 : program.head? = some '/' := by simpa using h2
  generalize hw : strtokSpace cmd = ws at h h1
  match ws, hw, h with
  | [], _, h => cases h
  | [_], _, h => cases h
  | full :: remote :: more, hw, h =>
    dsimp only at h
    by_cases h3 : (more.length != 0 && more.length != 2) = true
    · rw [if_pos h3] at h; cases h
    rw [if_neg h3] at h
    refine ⟨full, remote, targetOf more, ?_, h2, ?_⟩
    · have : targetWords (targetOf more) = more := by
        match more, h3 with
        | [], _ => rfl
        | [_], h3 => simp at h3
        | [_, _], _ => rfl
        | _ :: _ :: _ :: _, h3 => simp at h3
      rw [this]
    · cases sh
      · rw [if_pos (by rfl)] at h
        rw [if_neg (by simp)]
        exact (Option.some.inj h).symm
      · rw [if_neg (by simp)] at h
        rw [if_pos rfl]
        exact (Option.some.inj h).symm

/-- Whether the argument is given to the program. -/
theorem argArgv_eq (arg : Option Str) : argArgv arg = if arg.getD [] = [] then [] else [arg.getD []] := by
  cases arg with
  | none => rfl
  | some a => cases a <;> rfl

/-- **C64.** The environment of a service that is started describes the call and nothing else: each variable whose name
starts with QREXEC - other than QREXEC_SERVICE_PATH and QREXEC_AGENT_PID - has the value given by the words of the
command, whatever the process that starts it has in its environment; all other variables are passed on. The only argument of
the program is the argument of the call, if there is one. -/
theorem C64_env (program cmd : Str) (envp : List Str) (e : ExecCall)
    (h : execQubesRpc2 program cmd envp false = some e) :
    ∃ full remote target, strtokSpace cmd = full :: remote :: targetWords target ∧
      e.path = program ∧ program.head? = some '/' ∧
      e.argv = program :: (if ((splitOnce '+' full).map Prod.snd).getD [] = [] then []
        else [((splitOnce '+' full).map Prod.snd).getD []]) ∧
      (∀ v, '=' ∉ v → c!"QREXEC" <+: v → v ≠ c!"QREXEC_SERVICE_PATH" → v ≠ c!"QREXEC_AGENT_PID" →
        getenv e.env v = callVar full remote target v) ∧
      ∀ v, '=' ∉ v → ¬ c!"QREXEC" <+: v ∨ v = c!"QREXEC_SERVICE_PATH" ∨ v = c!"QREXEC_AGENT_PID" →
        getenv e.env v = getenv envp v := by
  obtain ⟨full, remote, target, hw, hp, he⟩ := exec_words program cmd envp false e h
  rw [if_neg (by simp)] at he
  have henv := congrArg ExecCall.env he
  dsimp only at henv
  refine ⟨full, remote, target, hw, by rw [he], hp, by rw [he, ← argArgv_eq], ?_, ?_⟩
  · intro v heq hq n1 n2
    have eqpos : ∀ w : Str, '=' ∉ w → (v ++ c!"=" <+: w ++ c!"=" → v = w) := by
      intro w hw' hpre
      obtain ⟨t, ht⟩ := hpre
      have e1 : splitOnce '=' (v ++ '=' :: t) = some (v, t) := splitOnce_eq_some.2 ⟨rfl, heq⟩
      have e2 : splitOnce '=' (w ++ '=' :: []) = some (w, []) := splitOnce_eq_some.2 ⟨rfl, hw'⟩
      have : v ++ '=' :: t = w ++ '=' :: [] := by simpa using ht
      rw [this, e2] at e1
      cases e1; rfl
    have eqpos' : ∀ w : Str, '=' ∉ w → (w ++ c!"=" <+: v ++ c!"=" → v = w) := by
      intro w hw' hpre
      obtain ⟨t, ht⟩ := hpre
      have e1 : splitOnce '=' (w ++ '=' :: t) = some (w, t) := splitOnce_eq_some.2 ⟨rfl, hw'⟩
      have e2 : splitOnce '=' (v ++ '=' :: []) = some (v, []) := splitOnce_eq_some.2 ⟨rfl, heq⟩
      have : w ++ '=' :: t = v ++ '=' :: [] := by simpa using ht
      rw [this, e2] at e1
      cases e1; rfl
    have hk := kept_env envp v hq
      (fun x => n1 (eqpos' c!"QREXEC_SERVICE_PATH" (by decide) x))
      (fun x => n2 (eqpos' c!"QREXEC_AGENT_PID" (by decide) x))
      (fun x => n1 (eqpos c!"QREXEC_SERVICE_PATH" (by decide) x))
      (fun x => n2 (eqpos c!"QREXEC_AGENT_PID" (by decide) x))
    rw [henv, getenv_append, hk]
    dsimp only
    -- an added entry
    have look : ∀ (w x : Str) (l : List Str), '=' ∉ w →
        getenv ((w ++ c!"=" ++ x) :: l) v = if v = w then some x else getenv l v := by
      intro w x l hw'
      by_cases hv : v = w
      · rw [if_pos hv, hv]; exact getenv_cons_eq w x l
      · rw [if_neg hv]
        apply getenv_cons_ne
        apply lit_ne
        rintro (k | k)
        · exact hv (eqpos w hw' k)
        · exact hv (eqpos' w hw' k)
    have largs : getenv (argVars ((splitOnce '+' full).map Prod.snd)) v =
        if v = c!"QREXEC_SERVICE_ARGUMENT" then (splitOnce '+' full).map Prod.snd else none := by
      generalize (splitOnce '+' full).map Prod.snd = arg
      cases arg with
      | none => exact (ite_self _).symm
      | some a => exact look c!"QREXEC_SERVICE_ARGUMENT" a [] (by decide)
    have tail : getenv ([c!"QREXEC_SERVICE_FULL_NAME=" ++ full, c!"QREXEC_REMOTE_DOMAIN=" ++ remote] ++
        argVars ((splitOnce '+' full).map Prod.snd)) v =
        if v = c!"QREXEC_SERVICE_FULL_NAME" then some full
        else if v = c!"QREXEC_REMOTE_DOMAIN" then some remote
        else if v = c!"QREXEC_SERVICE_ARGUMENT" then (splitOnce '+' full).map Prod.snd else none :=
      (look c!"QREXEC_SERVICE_FULL_NAME" full _ (by decide)).trans
        (congrArg (fun z => if v = c!"QREXEC_SERVICE_FULL_NAME" then some full else z)
          ((look c!"QREXEC_REMOTE_DOMAIN" remote _ (by decide)).trans
            (congrArg (fun z => if v = c!"QREXEC_REMOTE_DOMAIN" then some remote else z) largs)))
    have dn : c!"name" ≠ c!"keyword" := by decide
    have cond : getenv (targetVars target) v =
        if v = c!"QREXEC_REQUESTED_TARGET_TYPE" then some (targetType target)
        else if v = c!"QREXEC_REQUESTED_TARGET" then targetOfKind c!"name" target
        else if v = c!"QREXEC_REQUESTED_TARGET_KEYWORD" then targetOfKind c!"keyword" target else none := by
      cases target with
      | none =>
        refine (look c!"QREXEC_REQUESTED_TARGET_TYPE" [] [] (by decide)).trans ?_
        refine congrArg (fun z => if v = c!"QREXEC_REQUESTED_TARGET_TYPE" then some [] else z) ?_
        show none = if v = c!"QREXEC_REQUESTED_TARGET" then none
          else if v = c!"QREXEC_REQUESTED_TARGET_KEYWORD" then none else none
        rw [ite_self, ite_self]
      | some p =>
        obtain ⟨t, n⟩ := p
        refine (look c!"QREXEC_REQUESTED_TARGET_TYPE" t _ (by decide)).trans ?_
        refine congrArg (fun z => if v = c!"QREXEC_REQUESTED_TARGET_TYPE" then some t else z) ?_
        unfold targetOfKind
        dsimp only
        by_cases ht1 : t = c!"name"
        · have ht2 : t ≠ c!"keyword" := by rw [ht1]; exact dn
          rw [if_pos ht1, if_pos ht1, if_neg ht2, ite_self]
          exact look c!"QREXEC_REQUESTED_TARGET" n [] (by decide)
        · rw [if_neg ht1, if_neg ht1]
          by_cases ht2 : t = c!"keyword"
          · rw [if_pos ht2, if_pos ht2]
            refine (look c!"QREXEC_REQUESTED_TARGET_KEYWORD" n [] (by decide)).trans ?_
            by_cases k1 : v = c!"QREXEC_REQUESTED_TARGET"
            · have k2 : v ≠ c!"QREXEC_REQUESTED_TARGET_KEYWORD" := by rw [k1]; decide
              rw [if_neg k2, if_pos k1]; rfl
            · rw [if_neg k1]; rfl
          · rw [if_neg ht2, if_neg ht2, ite_self, ite_self]; rfl
    rw [getenv_append, tail, cond]
    unfold callVar
    have d1 : c!"QREXEC_SERVICE_FULL_NAME" ≠ c!"QREXEC_REQUESTED_TARGET_TYPE" := by decide
    have d2 : c!"QREXEC_REMOTE_DOMAIN" ≠ c!"QREXEC_REQUESTED_TARGET_TYPE" := by decide
    have d3 : c!"QREXEC_SERVICE_ARGUMENT" ≠ c!"QREXEC_REQUESTED_TARGET_TYPE" := by decide
    have d4 : c!"QREXEC_SERVICE_FULL_NAME" ≠ c!"QREXEC_REQUESTED_TARGET" := by decide
    have d5 : c!"QREXEC_REMOTE_DOMAIN" ≠ c!"QREXEC_REQUESTED_TARGET" := by decide
    have d6 : c!"QREXEC_SERVICE_ARGUMENT" ≠ c!"QREXEC_REQUESTED_TARGET" := by decide
    have d7 : c!"QREXEC_SERVICE_FULL_NAME" ≠ c!"QREXEC_REQUESTED_TARGET_KEYWORD" := by decide
    have d8 : c!"QREXEC_REMOTE_DOMAIN" ≠ c!"QREXEC_REQUESTED_TARGET_KEYWORD" := by decide
    have d9 : c!"QREXEC_SERVICE_ARGUMENT" ≠ c!"QREXEC_REQUESTED_TARGET_KEYWORD" := by decide
    by_cases k0 : v = c!"QREXEC_REQUESTED_TARGET_TYPE"
    · have m1 : v ≠ c!"QREXEC_SERVICE_FULL_NAME" := fun x => d1 (x.symm.trans k0)
      have m2 : v ≠ c!"QREXEC_REMOTE_DOMAIN" := fun x => d2 (x.symm.trans k0)
      have m3 : v ≠ c!"QREXEC_SERVICE_ARGUMENT" := fun x => d3 (x.symm.trans k0)
      simp only [if_pos k0, if_neg m1, if_neg m2, if_neg m3]
    · by_cases k1 : v = c!"QREXEC_REQUESTED_TARGET"
      · have m1 : v ≠ c!"QREXEC_SERVICE_FULL_NAME" := fun x => d4 (x.symm.trans k1)
        have m2 : v ≠ c!"QREXEC_REMOTE_DOMAIN" := fun x => d5 (x.symm.trans k1)
        have m3 : v ≠ c!"QREXEC_SERVICE_ARGUMENT" := fun x => d6 (x.symm.trans k1)
        simp only [if_pos k1, if_neg k0, if_neg m1, if_neg m2, if_neg m3]
        cases targetOfKind c!"name" target <;> rfl
      · by_cases k2 : v = c!"QREXEC_REQUESTED_TARGET_KEYWORD"
        · have m1 : v ≠ c!"QREXEC_SERVICE_FULL_NAME" := fun x => d7 (x.symm.trans k2)
          have m2 : v ≠ c!"QREXEC_REMOTE_DOMAIN" := fun x => d8 (x.symm.trans k2)
          have m3 : v ≠ c!"QREXEC_SERVICE_ARGUMENT" := fun x => d9 (x.symm.trans k2)
          simp only [if_pos k2, if_neg k0, if_neg k1, if_neg m1, if_neg m2, if_neg m3]
          cases targetOfKind c!"keyword" target <;> rfl
        · simp only [if_neg k0, if_neg k1, if_neg k2]
  · intro v heq hv
    have eqpos : ∀ (w x : Str), '=' ∉ w → v ++ c!"=" <+: w ++ c!"=" ++ x → v = w := by
      intro w x hw' hpre
      obtain ⟨t, ht⟩ := hpre
      have e1 : splitOnce '=' (v ++ '=' :: t) = some (v, t) := splitOnce_eq_some.2 ⟨rfl, heq⟩
      have e2 : splitOnce '=' (w ++ '=' :: x) = some (w, x) := splitOnce_eq_some.2 ⟨rfl, hw'⟩
      have : v ++ '=' :: t = w ++ '=' :: x := by simpa using ht
      rw [this, e2] at e1
      cases e1; rfl
    rw [henv, getenv_append]
    have hadd : ∀ w x : Str, '=' ∉ w → c!"QREXEC" <+: w → w ≠ c!"QREXEC_SERVICE_PATH" → w ≠ c!"QREXEC_AGENT_PID" →
        ¬ v ++ c!"=" <+: w ++ c!"=" ++ x := by
      intro w x h1 h2 h3 h4 h5
      have := eqpos w x h1 h5
      subst this
      rcases hv with hv | hv | hv
      · exact hv h2
      · exact h3 hv
      · exact h4 hv
    have hnone : getenv (targetVars target ++
        ([c!"QREXEC_SERVICE_FULL_NAME=" ++ full, c!"QREXEC_REMOTE_DOMAIN=" ++ remote] ++
          argVars ((splitOnce '+' full).map Prod.snd))) v = none := by
      apply getenv_none
      intro x hx
      rcases List.mem_append.1 hx with hx | hx
      · cases target with
        | none =>
          rw [List.mem_singleton.1 hx]
          exact hadd c!"QREXEC_REQUESTED_TARGET_TYPE" [] (by decide) (by decide) (by decide) (by decide)
        | some p =>
          obtain ⟨t, n⟩ := p
          unfold targetVars at hx
          dsimp only at hx
          rcases List.mem_cons.1 hx with hx | hx
          · rw [hx]
            exact hadd c!"QREXEC_REQUESTED_TARGET_TYPE" t (by decide) (by decide) (by decide) (by decide)
          · split_ifs at hx
            · rw [List.mem_singleton.1 hx]
              exact hadd c!"QREXEC_REQUESTED_TARGET" n (by decide) (by decide) (by decide) (by decide)
            · rw [List.mem_singleton.1 hx]
              exact hadd c!"QREXEC_REQUESTED_TARGET_KEYWORD" n (by decide) (by decide) (by decide) (by decide)
            · cases hx
      · rcases List.mem_append.1 hx with hx | hx
        · rcases List.mem_cons.1 hx with hx | hx
          · rw [hx]
            exact hadd c!"QREXEC_SERVICE_FULL_NAME" full (by decide) (by decide) (by decide) (by decide)
          · rw [List.mem_singleton.1 hx]
            exact hadd c!"QREXEC_REMOTE_DOMAIN" remote (by decide) (by decide) (by decide) (by decide)
        · cases hs : (splitOnce '+' full).map Prod.snd with
          | none => rw [hs] at hx; cases hx
          | some a =>
            rw [hs] at hx
            rw [List.mem_singleton.1 hx]
            exact hadd c!"QREXEC_SERVICE_ARGUMENT" a (by decide) (by decide) (by decide) (by decide)
    rw [hnone, getenv_filter]
    · cases getenv envp v <;> rfl
    · intro x hx
      unfold shouldStripEnv
      rcases hv with hv | hv | hv
      · have : startsWith c!"QREXEC" x = false := by
          rw [startsWith_false]
          rintro ⟨t, rfl⟩
          -- v ++ "=" is a prefix of "QREXEC" ++ t
          rcases List.prefix_or_prefix_of_prefix hx (List.prefix_append c!"QREXEC" t) with k | k
          · have : '=' ∈ c!"QREXEC" := k.subset (by simp)
            exact absurd this (by decide)
          · rcases (List.prefix_concat_iff.1 k) with k | k
            · exact absurd (congrArg List.getLast? k) (by simp)
            · exact hv k
        rw [this]; rfl
      · subst hv
        obtain ⟨t, rfl⟩ := hx
        rfl
      · subst hv
        obtain ⟨t, rfl⟩ := hx
        rfl

/-- **C64, no abort.** The array for the environment (five entries more than the caller's environment has) is never too
small. -/
theorem C64_no_abort (program cmd : Str) (envp : List Str) (sh : Bool) (e : ExecCall)
    (h : execQubesRpc2 program cmd envp sh = some e) : e.env.length ≤ envp.length + 5 := by
  obtain ⟨full, remote, target, _, _, he⟩ := exec_words program cmd envp sh e h
  have hf : (envp.filter fun v => !shouldStripEnv v).length ≤ envp.length := List.length_filter_le _ _
  cases sh with
  | true => rw [if_pos rfl] at he; rw [he]; dsimp only; omega
  | false =>
    rw [if_neg (by simp)] at he
    rw [he]
    have h1 : (targetVars target).length ≤ 2 := by
      unfold targetVars
      cases target with
      | none => decide
      | some p => dsimp only; split_ifs <;> simp
    have h2 : (argVars ((splitOnce '+' full).map Prod.snd)).length ≤ 1 := by
      cases (splitOnce '+' full).map Prod.snd <;> simp [argVars]
    simp only [List.length_append, List.length_cons, List.length_nil]
    omega

/-- The words of a call for a service, when it has been parsed. -/
theorem call_words (cmd : Str) (s : RpcService) (h : ServiceText cmd s) :
    ∃ more, strtokSpace cmd = (s.name ++ (match s.arg with | some a => c!"+" ++ a | none => [])) :: s.source :: more := by
  have key : ∀ (x y tail : Str), x ≠ [] → y ≠ [] → ' ' ∉ x → ' ' ∉ y → (tail = [] ∨ ∃ t, tail = ' ' :: t) →
      ∃ more, strtokSpace (x ++ c!" " ++ y ++ tail) = x :: y :: more := by
    intro x y tail hx hy sx sy ht
    have : ∃ more, splitOn ' ' (x ++ c!" " ++ y ++ tail) = x :: y :: more := by
      rcases ht with rfl | ⟨t, rfl⟩
      · refine ⟨[], ?_⟩
        rw [List.append_nil, List.append_assoc]
        show splitOn ' ' (x ++ ' ' :: y) = _
        rw [splitOn_append sx, splitOn_of_not_mem sy]
      · refine ⟨splitOn ' ' t, ?_⟩
        rw [List.append_assoc, List.append_assoc]
        show splitOn ' ' (x ++ ' ' :: (y ++ ' ' :: t)) = _
        rw [splitOn_append sx, splitOn_append sy]
    obtain ⟨more, hm⟩ := this
    refine ⟨more.filter fun w => !w.isEmpty, ?_⟩
    unfold strtokSpace
    rw [hm, List.filter_cons, if_pos (by simp [hx]), List.filter_cons, if_pos (by simp [hy])]
  cases h with
  | noArg name src tail h1 h2 h3 h4 h5 h6 h7 =>
    obtain ⟨more, hm⟩ := key name src tail (by rintro rfl; simp at h3) h5 h1 h6 h7
    exact ⟨more, by rw [hm]; simp⟩
  | arg name a src tail h1 h2 h3 h4 h5 h6 h7 h8 h9 =>
    obtain ⟨more, hm⟩ := key (name ++ c!"+" ++ a) src tail (by simp) h5 (by simp [h1, h8]) h6 h7
    exact ⟨more, by rw [hm]; simp⟩

/-- **C64, agreement.** A service that is started without a shell for a parsed command gets the calling qube and the argument
that were parsed - the ones used to look the service up - and the argument as its only parameter. -/
theorem C64_agree (strip : Bool) (line program : Str) (envp : List Str) (c : RpcCmd) (s : RpcService) (e : ExecCall)
    (hc : parseRpcCommand strip line = some c) (hs : c.service = some s)
    (h : execQubesRpc2 program c.command envp false = some e) :
    getenv e.env c!"QREXEC_REMOTE_DOMAIN" = some s.source ∧
    getenv e.env c!"QREXEC_SERVICE_ARGUMENT" = s.arg ∧
    getenv e.env c!"QREXEC_SERVICE_FULL_NAME" = some (s.name ++ (match s.arg with | some a => c!"+" ++ a | none => [])) ∧
    e.argv = program :: (if s.arg.getD [] = [] then [] else [s.arg.getD []]) := by
  obtain ⟨_, _, _, _, ⟨s', e1, _, ht⟩ | ⟨e1, _⟩⟩ := (C50_parse _ _ _).1 hc
  · rw [hs] at e1
    cases e1
    obtain ⟨full, remote, target, hw, _, _, hargv, hvars, _⟩ := C64_env program c.command envp e h
    obtain ⟨more, hm⟩ := call_words c.command s ht
    rw [hm] at hw
    have hplus := (C50_descriptor strip line c s hc hs).2.1
    have hsplit : (splitOnce '+' full).map Prod.snd = s.arg := by
      have hf : full = s.name ++ (match s.arg with | some a => c!"+" ++ a | none => []) := (List.cons.inj hw).1.symm
      rw [hf]
      cases s.arg with
      | none =>
        show (splitOnce '+' (s.name ++ [])).map Prod.snd = none
        rw [List.append_nil, splitOnce_none.2 hplus]; rfl
      | some a =>
        have : splitOnce '+' (s.name ++ '+' :: a) = some (s.name, a) := splitOnce_eq_some.2 ⟨rfl, hplus⟩
        show (splitOnce '+' (s.name ++ '+' :: a)).map Prod.snd = some a
        rw [this]; rfl
    have hfull := (List.cons.inj hw).1
    have hrem := (List.cons.inj (List.cons.inj hw).2).1
    refine ⟨?_, ?_, ?_, ?_⟩
    · rw [hvars _ (by decide) (by decide) (by decide) (by decide), hrem]; rfl
    · rw [hvars _ (by decide) (by decide) (by decide) (by decide), ← hsplit]; rfl
    · rw [hvars _ (by decide) (by decide) (by decide) (by decide), hfull]; rfl
    · rw [hargv, hsplit]
  · rw [hs] at e1; cases e1

/-- The scripts that may be run: nothing in them comes from the caller. -/
def shellScripts : List Str :=
  [none, some false, some true].flatMap fun t => [none, some false, some true].map fun a => shellScript t a

/-- **C64, shell.** With a login shell the script is one of nine fixed ones, whatever the command says: program, full name,
calling qube, argument and requested target are positional parameters. -/
theorem C64_shell (program cmd : Str) (envp : List Str) (e : ExecCall)
    (h : execQubesRpc2 program cmd envp true = some e) :
    ∃ full remote target script, strtokSpace cmd = full :: remote :: targetWords target ∧ script ∈ shellScripts ∧
      e.path = c!"/bin/sh" ∧ program.head? = some '/' ∧
      e.argv = [c!"/bin/sh", c!"-lc", script, c!"sh", program, full, remote,
        ((splitOnce '+' full).map Prod.snd).getD []] ++ (target.map Prod.snd).toList ∧
      (∀ v, '=' ∉ v → c!"QREXEC" <+: v → v ≠ c!"QREXEC_SERVICE_PATH" → v ≠ c!"QREXEC_AGENT_PID" →
        getenv e.env v = none) := by
  obtain ⟨full, remote, target, hw, hp, he⟩ := exec_words program cmd envp true e h
  rw [if_pos rfl] at he
  refine ⟨full, remote, target,
    shellScript (shellKind target) (((splitOnce '+' full).map Prod.snd).map fun a => a.length != 0),
    hw, ?_, by rw [he], hp, ?_, ?_⟩
  · unfold shellScripts
    rw [List.mem_flatMap]
    refine ⟨shellKind target, ?_, List.mem_map.2 ⟨_, ?_, rfl⟩⟩
    · rcases shellKind target with _ | _ | _ <;> decide
    · generalize (((splitOnce '+' full).map Prod.snd).map fun a => a.length != 0) = z
      rcases z with _ | _ | _ <;> decide
  · rw [he]
    cases target with
    | none => rfl
    | some p => rfl
  · intro v heq hq n1 n2
    rw [he]
    have eqpos : ∀ w : Str, '=' ∉ w → (v ++ c!"=" <+: w ++ c!"=" → v = w) := by
      intro w hw' hpre
      obtain ⟨t, ht⟩ := hpre
      have e1 : splitOnce '=' (v ++ '=' :: t) = some (v, t) := splitOnce_eq_some.2 ⟨rfl, heq⟩
      have e2 : splitOnce '=' (w ++ '=' :: []) = some (w, []) := splitOnce_eq_some.2 ⟨rfl, hw'⟩
      have : v ++ '=' :: t = w ++ '=' :: [] := by simpa using ht
      rw [this, e2] at e1
      cases e1; rfl
    have eqpos' : ∀ w : Str, '=' ∉ w → (w ++ c!"=" <+: v ++ c!"=" → v = w) := by
      intro w hw' hpre
      obtain ⟨t, ht⟩ := hpre
      have e1 : splitOnce '=' (w ++ '=' :: t) = some (w, t) := splitOnce_eq_some.2 ⟨rfl, hw'⟩
      have e2 : splitOnce '=' (v ++ '=' :: []) = some (v, []) := splitOnce_eq_some.2 ⟨rfl, heq⟩
      have : w ++ '=' :: t = v ++ '=' :: [] := by simpa using ht
      rw [this, e2] at e1
      cases e1; rfl
    exact kept_env envp v hq
      (fun x => n1 (eqpos' c!"QREXEC_SERVICE_PATH" (by decide) x))
      (fun x => n2 (eqpos' c!"QREXEC_AGENT_PID" (by decide) x))
      (fun x => n1 (eqpos c!"QREXEC_SERVICE_PATH" (by decide) x))
      (fun x => n2 (eqpos c!"QREXEC_AGENT_PID" (by decide) x))

set_option maxRecDepth 20000 in
example : execQubesRpc2 c!"/etc/qubes-rpc/svc" c!"svc+arg work name dom0"
    [c!"PATH=/bin", c!"QREXEC_REMOTE_DOMAIN=dom0", c!"QREXEC_AGENT_PID=5"] false =
    some ⟨c!"/etc/qubes-rpc/svc", [c!"/etc/qubes-rpc/svc", c!"arg"],
      [c!"PATH=/bin", c!"QREXEC_AGENT_PID=5", c!"QREXEC_REQUESTED_TARGET_TYPE=name", c!"QREXEC_REQUESTED_TARGET=dom0",
        c!"QREXEC_SERVICE_FULL_NAME=svc+arg", c!"QREXEC_REMOTE_DOMAIN=work", c!"QREXEC_SERVICE_ARGUMENT=arg"]⟩ := by decide

end Qrexec
