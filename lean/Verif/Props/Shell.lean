import Verif.Model.Shell
import Verif.Props.DoExec

/-!
# C108: a service that is started by a shell
-/
namespace Qrexec

/-- The variables that describe a call. -/
def callNames : List Str := [c!"QREXEC_SERVICE_FULL_NAME", c!"QREXEC_REMOTE_DOMAIN", c!"QREXEC_REQUESTED_TARGET_TYPE",
  c!"QREXEC_SERVICE_ARGUMENT", c!"QREXEC_REQUESTED_TARGET", c!"QREXEC_REQUESTED_TARGET_KEYWORD"]

/-- A target of one of the two kinds there are. -/
def KnownKind (target : Option (Str × Str)) : Prop := ∀ t n, target = some (t, n) → t = c!"name" ∨ t = c!"keyword"

/-! ## The built-in utilities -/

theorem shUnset_ok (ns : List Str) : ∀ (st : ShState), (∀ n ∈ ns, (st.vars n).readonly = false) →
    (shUnset st ns).2 = true ∧ (shUnset st ns).1.errexit = st.errexit ∧ (shUnset st ns).1.unquoted = st.unquoted ∧
    ∀ v, (shUnset st ns).1.vars v = if v ∈ ns then {} else st.vars v := by
  induction ns with
  | nil => intro st _; exact ⟨rfl, rfl, rfl, fun v => by simp [shUnset]⟩
  | cons n ns ih =>
    intro st h
    rw [shUnset, if_neg (by simp [h n (by simp)])]
    obtain ⟨h1, h2, h3, h4⟩ := ih { st with vars := fun v => if v = n then {} else st.vars v } (by
      intro m hm
      show (if m = n then ({} : ShVar) else st.vars m).readonly = false
      split_ifs
      · rfl
      · exact h m (by simp [hm]))
    refine ⟨h1, h2, h3, fun v => ?_⟩
    rw [h4]
    show (if v ∈ ns then ({} : ShVar) else if v = n then {} else st.vars v) = _
    by_cases hv : v ∈ ns
    · rw [if_pos hv, if_pos (by simp [hv])]
    · by_cases hn : v = n
      · rw [if_neg hv, if_pos hn, if_pos (by simp [hn])]
      · rw [if_neg hv, if_neg hn, if_neg (by simp [hn, hv])]

theorem shUnset_fails (ns : List Str) : ∀ (st : ShState), (∃ n ∈ ns, (st.vars n).readonly = true) →
    (shUnset st ns).2 = false := by
  induction ns with
  | nil => rintro st ⟨n, hn, _⟩; cases hn
  | cons n ns ih =>
    rintro st ⟨m, hm, hr⟩
    rw [shUnset]
    by_cases hn : (st.vars n).readonly = true
    · rw [if_pos hn]
    · rw [if_neg hn]
      have hne : m ≠ n := by rintro rfl; exact hn hr
      refine ih _ ⟨m, ?_, ?_⟩
      · rcases List.mem_cons.1 hm with h | h
        · exact absurd h hne
        · exact h
      · show (if m = n then ({} : ShVar) else st.vars m).readonly = true
        rw [if_neg hne]; exact hr

theorem shExport_ok (ps : List (Str × Str)) : ∀ (st : ShState), (∀ p ∈ ps, (st.vars p.1).readonly = false) →
    (∀ p ∈ ps, '=' ∉ p.1) → (ps.map Prod.fst).Nodup →
    (shExport st (ps.map fun p => p.1 ++ '=' :: p.2)).2 = true ∧
    ∀ v, (shExport st (ps.map fun p => p.1 ++ '=' :: p.2)).1.vars v = match ps.lookup v with
      | some x => ⟨some x, true, false⟩
      | none => st.vars v := by
  induction ps with
  | nil => intro st _ _ _; exact ⟨rfl, fun v => rfl⟩
  | cons p ps ih =>
    intro st hr he hn
    obtain ⟨n, x⟩ := p
    have hs : splitOnce '=' (n ++ '=' :: x) = some (n, x) := splitOnce_eq_some.2 ⟨rfl, he (n, x) (by simp)⟩
    rw [List.map_cons, List.nodup_cons] at hn
    have hkeep : ∀ q ∈ ps, q.1 ≠ n := by
      intro q hq e
      exact hn.1 (List.mem_map.2 ⟨q, hq, e⟩)
    have hstep : shExport st (((n, x) :: ps).map fun p => p.1 ++ '=' :: p.2) =
        shExport { st with vars := fun v => if v = n then ⟨some x, true, false⟩ else st.vars v }
          (ps.map fun p => p.1 ++ '=' :: p.2) := by
      rw [List.map_cons, shExport]
      dsimp only
      rw [hs]
      dsimp only
      rw [if_neg (by simp [hr (n, x) (by simp)])]
    obtain ⟨h1, h4⟩ := ih { st with vars := fun v => if v = n then ⟨some x, true, false⟩ else st.vars v } (by
      intro q hq
      show (if q.1 = n then (⟨some x, true, false⟩ : ShVar) else st.vars q.1).readonly = false
      rw [if_neg (hkeep q hq)]
      exact hr q (by simp [hq])) (fun q hq => he q (by simp [hq])) hn.2
    rw [hstep]
    refine ⟨h1, fun v => ?_⟩
    rw [h4]
    rw [List.lookup_cons]
    by_cases hv : v = n
    · subst hv
      have : ps.lookup v = none := by
        rw [List.lookup_eq_none_iff]
        intro q hq
        have := hkeep q hq
        simp [Ne.symm this]
      rw [this]
      simp
    · have : (v == n) = false := by simp [hv]
      rw [this]
      dsimp only
      cases ps.lookup v with
      | none => show (if v = n then _ else _) = _; rw [if_neg hv]
      | some y => rfl

/-! ## The script -/

/-- Words as they are, without parameters. -/
def plain (s : Str) : List ShPiece := s.map .lit

/-- `"NAME=$n"` and `NAME="$n"`. -/
def quotedVar (name : Str) (n : Nat) : List ShPiece := [.mark] ++ plain (name ++ c!"=") ++ [.param n true, .mark]
def varQuoted (name : Str) (n : Nat) : List ShPiece := plain (name ++ c!"=") ++ [.mark, .param n true, .mark]
def quotedParam (n : Nat) : List ShPiece := [.mark, .param n true, .mark]

/-- The words of the script for the requested target, and for the argument. -/
def kindWords : Option Bool → List (List ShPiece)
  | some true => [plain c!"QREXEC_REQUESTED_TARGET_TYPE=keyword", varQuoted c!"QREXEC_REQUESTED_TARGET_KEYWORD" 5]
  | some false => [plain c!"QREXEC_REQUESTED_TARGET_TYPE=name", varQuoted c!"QREXEC_REQUESTED_TARGET" 5]
  | none => [plain c!"QREXEC_REQUESTED_TARGET_TYPE="]
def argWords : Option Bool → List (List ShPiece)
  | some _ => [quotedVar c!"QREXEC_SERVICE_ARGUMENT" 4]
  | none => []
def lastWords : Option Bool → List (List ShPiece)
  | some true => [quotedParam 4]
  | _ => []

set_option maxRecDepth 100000 in
/-- The text of the script, read by the shell: it has four commands, whatever the call is. -/
theorem script_lex (k a : Option Bool) : (shLex false {} (shellScript k a)).map ShLex.cmds = some
    [[plain c!"set", plain c!"-e"], plain c!"unset" :: callNames.map plain,
     [plain c!"export", quotedVar c!"QREXEC_SERVICE_FULL_NAME" 2, quotedVar c!"QREXEC_REMOTE_DOMAIN" 3] ++
       kindWords k ++ argWords a,
     [plain c!"exec", quotedParam 1] ++ lastWords a] := by
  rcases k with _ | (_ | _) <;> rcases a with _ | (_ | _) <;> decide +kernel

theorem shWord_plain (st : ShState) (params : List Str) (s : Str) : shWord st params (plain s) = [s] := by
  unfold shWord plain
  rw [if_neg]
  · congr 1
    induction s with
    | nil => rfl
    | cons c s ih => rw [List.map_cons, List.flatMap_cons, ih]; rfl
  · simp

theorem flat_plain (params : List Str) (s : Str) : (plain s).flatMap (shPiece params) = s := by
  unfold plain
  induction s with
  | nil => rfl
  | cons c s ih => rw [List.map_cons, List.flatMap_cons, ih]; rfl

theorem shWord_quotedVar (st : ShState) (params : List Str) (s : Str) (n : Nat) :
    shWord st params (quotedVar s n) = [s ++ '=' :: params.getD (n - 1) []] := by
  unfold shWord
  rw [if_neg (by simp [quotedVar, plain])]
  unfold quotedVar
  rw [List.flatMap_append, List.flatMap_append, flat_plain]
  simp [shPiece]

theorem shWord_varQuoted (st : ShState) (params : List Str) (s : Str) (n : Nat) :
    shWord st params (varQuoted s n) = [s ++ '=' :: params.getD (n - 1) []] := by
  unfold shWord
  rw [if_neg (by simp [varQuoted, plain])]
  unfold varQuoted
  rw [List.flatMap_append, flat_plain]
  simp [shPiece]

theorem shWord_quotedParam (st : ShState) (params : List Str) (n : Nat) :
    shWord st params (quotedParam n) = [params.getD (n - 1) []] := by
  unfold shWord
  rw [if_neg (by simp [quotedParam])]
  simp [quotedParam, shPiece]

theorem flat_map_plain (st : ShState) (params : List Str) (ns : List Str) :
    (ns.map plain).flatMap (shWord st params) = ns := by
  induction ns with
  | nil => rfl
  | cons n ns ih => rw [List.map_cons, List.flatMap_cons, ih, shWord_plain]; rfl

/-- What the script exports. -/
def kindPairs (k : Option Bool) (t : Str) : List (Str × Str) :=
  match k with
  | some true => [(c!"QREXEC_REQUESTED_TARGET_TYPE", c!"keyword"), (c!"QREXEC_REQUESTED_TARGET_KEYWORD", t)]
  | some false => [(c!"QREXEC_REQUESTED_TARGET_TYPE", c!"name"), (c!"QREXEC_REQUESTED_TARGET", t)]
  | none => [(c!"QREXEC_REQUESTED_TARGET_TYPE", [])]
def argPairs (a : Option Bool) (x : Str) : List (Str × Str) :=
  match a with
  | some _ => [(c!"QREXEC_SERVICE_ARGUMENT", x)]
  | none => []
def scriptPairs (k a : Option Bool) (p : List Str) : List (Str × Str) :=
  [(c!"QREXEC_SERVICE_FULL_NAME", p.getD 1 []), (c!"QREXEC_REMOTE_DOMAIN", p.getD 2 [])] ++
    kindPairs k (p.getD 4 []) ++ argPairs a (p.getD 3 [])
def lastArg (a : Option Bool) (x : Str) : List Str :=
  match a with
  | some true => [x]
  | _ => []

theorem pairs_names (k a : Option Bool) (p : List Str) : ∀ q ∈ scriptPairs k a p, q.1 ∈ callNames := by
  intro q hq
  have : q.1 ∈ (scriptPairs k a p).map Prod.fst := List.mem_map.2 ⟨q, hq, rfl⟩
  revert this
  generalize q.1 = n
  rcases k with _ | (_ | _) <;> rcases a with _ | (_ | _) <;> intro h <;>
    simp only [scriptPairs, kindPairs, argPairs, List.cons_append, List.nil_append, List.append_nil, List.map_cons, List.map_nil,
      List.mem_cons, List.not_mem_nil, or_false] at h <;>
    simp only [callNames, List.mem_cons, List.not_mem_nil, or_false] <;> tauto

theorem pairs_nodup (k a : Option Bool) (p : List Str) : ((scriptPairs k a p).map Prod.fst).Nodup := by
  rcases k with _ | (_ | _) <;> rcases a with _ | (_ | _) <;>
    (simp only [scriptPairs, kindPairs, argPairs, List.cons_append, List.nil_append, List.append_nil, List.map_cons, List.map_nil]
     decide)

theorem names_eq : ∀ n ∈ callNames, '=' ∉ n := by decide

theorem export_words (st : ShState) (k a : Option Bool) (p : List Str) :
    ([quotedVar c!"QREXEC_SERVICE_FULL_NAME" 2, quotedVar c!"QREXEC_REMOTE_DOMAIN" 3] ++ kindWords k ++ argWords a).flatMap
      (shWord st p) = (scriptPairs k a p).map fun q => q.1 ++ '=' :: q.2 := by
  rw [List.flatMap_append, List.flatMap_append]
  unfold scriptPairs
  rw [List.map_append, List.map_append]
  congr 1
  · congr 1
    · simp only [List.flatMap_cons, List.flatMap_nil, shWord_quotedVar]; rfl
    · rcases k with _ | (_ | _)
      · simp only [kindWords, kindPairs, List.flatMap_cons, List.flatMap_nil, shWord_plain]; rfl
      · simp only [kindWords, kindPairs, List.flatMap_cons, List.flatMap_nil, shWord_plain, shWord_varQuoted]; rfl
      · simp only [kindWords, kindPairs, List.flatMap_cons, List.flatMap_nil, shWord_plain, shWord_varQuoted]; rfl
  · rcases a with _ | (_ | _)
    · rfl
    · simp only [argWords, argPairs, List.flatMap_cons, List.flatMap_nil, shWord_quotedVar]; rfl
    · simp only [argWords, argPairs, List.flatMap_cons, List.flatMap_nil, shWord_quotedVar]; rfl

theorem last_words (st : ShState) (a : Option Bool) (p : List Str) :
    ([quotedParam 1] ++ lastWords a).flatMap (shWord st p) = p.getD 0 [] :: lastArg a (p.getD 3 []) := by
  rcases a with _ | (_ | _) <;>
    simp only [lastWords, lastArg, List.cons_append, List.nil_append, List.append_nil, List.flatMap_cons, List.flatMap_nil,
      shWord_quotedParam]

/-- The script, run with any parameters in any state. -/
theorem script_run (k a : Option Bool) (p : List Str) (st : ShState) (hp : '/' ∈ p.getD 0 []) (x y : Str) :
    ((∀ v ∈ callNames, (st.vars v).readonly = false) →
      ∃ env, runSh (x :: c!"-lc" :: shellScript k a :: y :: p) st = some (.exec (p.getD 0 []) (p.getD 0 [] :: lastArg a (p.getD 3 [])) env) ∧
        (∀ v ∈ callNames, env v = (scriptPairs k a p).lookup v) ∧ ∀ v ∉ callNames, env v = st.env v) ∧
    ((∃ v ∈ callNames, (st.vars v).readonly = true) →
      runSh (x :: c!"-lc" :: shellScript k a :: y :: p) st = some .fails) := by
  have hlex := script_lex k a
  cases hl : shLex false {} (shellScript k a) with
  | none => rw [hl] at hlex; cases hlex
  | some l =>
    rw [hl] at hlex
    have hc := Option.some.inj hlex
    have hrun : runSh (x :: c!"-lc" :: shellScript k a :: y :: p) st = shRun p st l.cmds := by
      unfold runSh
      dsimp only
      rw [if_pos rfl, hl]; rfl
    rw [hrun, hc]
    -- set -e
    have h1 : ∀ cmds, shRun p st ([plain c!"set", plain c!"-e"] :: cmds) = shRun p { st with errexit := true } cmds := by
      intro cmds
      rw [shRun]
      simp only [List.flatMap_cons, List.flatMap_nil, shWord_plain, List.cons_append, List.nil_append]
      rw [if_pos trivial, if_pos trivial]
    rw [h1]
    generalize hst : ({ st with errexit := true } : ShState) = s1
    have hs1 : s1.vars = st.vars := by rw [← hst]
    have he1 : s1.errexit = true := by rw [← hst]
    have h2 : ∀ cmds, shRun p s1 ((plain c!"unset" :: callNames.map plain) :: cmds) =
        if (shUnset s1 callNames).2 then shRun p (shUnset s1 callNames).1 cmds else some .fails := by
      intro cmds
      rw [shRun]
      rw [List.flatMap_cons, shWord_plain, flat_map_plain]
      simp only [List.cons_append, List.nil_append]
      rw [if_neg (by decide), if_pos trivial, he1, if_pos rfl]
    rw [h2]
    constructor
    · intro hr
      obtain ⟨u1, _, _, u4⟩ := shUnset_ok callNames s1 (by rw [hs1]; exact hr)
      rw [if_pos u1]
      generalize hst2 : (shUnset s1 callNames).1 = s2 at u4
      have hv2 : ∀ v ∈ callNames, (s2.vars v).readonly = false := by
        intro v hv; rw [u4, if_pos hv]
      obtain ⟨x1, x4⟩ := shExport_ok (scriptPairs k a p) s2 (fun q hq => hv2 _ (pairs_names k a p q hq))
        (fun q hq => names_eq _ (pairs_names k a p q hq)) (pairs_nodup k a p)
      have h3 : ∀ cmds, shRun p s2 (([plain c!"export", quotedVar c!"QREXEC_SERVICE_FULL_NAME" 2,
          quotedVar c!"QREXEC_REMOTE_DOMAIN" 3] ++ kindWords k ++ argWords a) :: cmds) =
          shRun p (shExport s2 ((scriptPairs k a p).map fun q => q.1 ++ '=' :: q.2)).1 cmds := by
        intro cmds
        rw [shRun]
        have : ([plain c!"export", quotedVar c!"QREXEC_SERVICE_FULL_NAME" 2,
          quotedVar c!"QREXEC_REMOTE_DOMAIN" 3] ++ kindWords k ++ argWords a).flatMap (shWord s2 p) =
            c!"export" :: (scriptPairs k a p).map fun q => q.1 ++ '=' :: q.2 := by
          rw [← export_words s2]
          rw [List.cons_append, List.cons_append, List.flatMap_cons, shWord_plain]; rfl
        rw [this]
        dsimp only
        rw [if_neg (by decide), if_neg (by decide), if_pos rfl, x1, if_pos rfl]
      rw [h3]
      generalize hst3 : (shExport s2 ((scriptPairs k a p).map fun q => q.1 ++ '=' :: q.2)).1 = s3 at x4
      refine ⟨s3.env, ?_, ?_, ?_⟩
      · rw [shRun]
        have : ([plain c!"exec", quotedParam 1] ++ lastWords a).flatMap (shWord s3 p) =
            c!"exec" :: p.getD 0 [] :: lastArg a (p.getD 3 []) := by
          rw [← last_words s3, List.cons_append, List.flatMap_cons, shWord_plain]; rfl
        rw [this]
        dsimp only
        rw [if_neg (by decide), if_neg (by decide), if_neg (by decide), if_pos rfl, if_pos (by simpa using hp)]
      · intro v hv
        unfold ShState.env
        rw [x4, u4, if_pos hv]
        cases (scriptPairs k a p).lookup v <;> rfl
      · intro v hv
        unfold ShState.env
        have : (scriptPairs k a p).lookup v = none := by
          rw [List.lookup_eq_none_iff]
          intro q hq
          have hq' := pairs_names k a p q hq
          by_cases e : v = q.1
          · exact absurd (e ▸ hq') hv
          · simp [e]
        rw [x4, this]
        dsimp only
        rw [u4, if_neg hv, hs1]
    · intro hr
      rw [shUnset_fails callNames s1 (by rw [hs1]; exact hr)]
      rfl

/-- The type of a requested target as the script passes it on. -/
def passedType (target : Option (Str × Str)) : Str :=
  if targetType target = c!"name" ∨ targetType target = c!"keyword" then targetType target else []

set_option maxRecDepth 20000 in
/-- What the script exports is the description of the call. -/
theorem pairs_call (program full remote : Str) (target : Option (Str × Str)) (v : Str) (hv : v ∈ callNames) :
    (scriptPairs (shellKind target) (((splitOnce '+' full).map Prod.snd).map fun a => a.length != 0)
      ([program, full, remote, ((splitOnce '+' full).map Prod.snd).getD []] ++ shellTarget target)).lookup v =
    if v = c!"QREXEC_REQUESTED_TARGET_TYPE" then some (passedType target) else callVar full remote target v := by
  generalize hs : (splitOnce '+' full).map Prod.snd = arg
  have hc : callVar full remote target v = if v = c!"QREXEC_SERVICE_FULL_NAME" then some full
      else if v = c!"QREXEC_REMOTE_DOMAIN" then some remote
      else if v = c!"QREXEC_SERVICE_ARGUMENT" then arg
      else if v = c!"QREXEC_REQUESTED_TARGET_TYPE" then some (targetType target)
      else if v = c!"QREXEC_REQUESTED_TARGET" then targetOfKind c!"name" target
      else if v = c!"QREXEC_REQUESTED_TARGET_KEYWORD" then targetOfKind c!"keyword" target else none := by
    rw [← hs]; rfl
  rw [hc]
  have hk : (∃ n, target = some (c!"keyword", n)) ∨ (∃ n, target = some (c!"name", n)) ∨
      (shellKind target = none ∧ passedType target = [] ∧ targetOfKind c!"name" target = none ∧
        targetOfKind c!"keyword" target = none) := by
    cases target with
    | none => exact .inr (.inr ⟨rfl, rfl, rfl, rfl⟩)
    | some q =>
      obtain ⟨t, n⟩ := q
      by_cases h1 : t = c!"keyword"
      · exact .inl ⟨n, by rw [h1]⟩
      · by_cases h2 : t = c!"name"
        · exact .inr (.inl ⟨n, by rw [h2]⟩)
        · refine .inr (.inr ⟨?_, ?_, ?_, ?_⟩)
          · show (if t = c!"keyword" then _ else _) = _
            rw [if_neg h1, if_neg h2]
          · show (if t = c!"name" ∨ t = c!"keyword" then _ else _) = _
            rw [if_neg (by rintro (h | h); exact h2 h; exact h1 h)]
          · show (if t = c!"name" then _ else _) = _
            rw [if_neg h2]
          · show (if t = c!"keyword" then _ else _) = _
            rw [if_neg h1]
  have six : v = c!"QREXEC_SERVICE_FULL_NAME" ∨ v = c!"QREXEC_REMOTE_DOMAIN" ∨ v = c!"QREXEC_REQUESTED_TARGET_TYPE" ∨
      v = c!"QREXEC_SERVICE_ARGUMENT" ∨ v = c!"QREXEC_REQUESTED_TARGET" ∨ v = c!"QREXEC_REQUESTED_TARGET_KEYWORD" := by
    simpa only [callNames, List.mem_cons, List.not_mem_nil, or_false] using hv
  rcases hk with ⟨n, rfl⟩ | ⟨n, rfl⟩ | ⟨h1, h2, h3, h4⟩
  · rcases six with rfl | rfl | rfl | rfl | rfl | rfl <;> cases arg <;> rfl
  · rcases six with rfl | rfl | rfl | rfl | rfl | rfl <;> cases arg <;> rfl
  · rw [h1, h2, h3, h4]
    rcases six with rfl | rfl | rfl | rfl | rfl | rfl <;> cases arg <;> rfl

set_option maxRecDepth 20000 in
/-- **C108.** A service that is started through a shell: whatever the words of the call are, and whatever the files of the
login shell did with variables, `set -e` or the splitting of words, the script executes exactly the program of the service, with
the argument of the call as its only argument if it is not empty, and with exactly the description of the call in the six
variables (of the type of the requested target only the two there are); all other variables are those that the login shell
exports.  If the login files made one of the six readonly, nothing is run. -/
theorem C108_shell (program cmd : Str) (envp : List Str) (e : ExecCall)
    (h : execQubesRpc2 program cmd envp true = some e) (st : ShState) :
    ∃ full remote target, strtokSpace cmd = full :: remote :: targetWords target ∧ e.path = c!"/bin/sh" ∧
      program.head? = some '/' ∧
      (∀ v, '=' ∉ v → c!"QREXEC" <+: v → v ≠ c!"QREXEC_SERVICE_PATH" → v ≠ c!"QREXEC_AGENT_PID" → getenv e.env v = none) ∧
      ((∀ v ∈ callNames, (st.vars v).readonly = false) →
        ∃ env, runSh e.argv st = some (.exec program
            (program :: (if ((splitOnce '+' full).map Prod.snd).getD [] = [] then []
              else [((splitOnce '+' full).map Prod.snd).getD []])) env) ∧
          (∀ v ∈ callNames, env v = if v = c!"QREXEC_REQUESTED_TARGET_TYPE" then some (passedType target)
            else callVar full remote target v) ∧
          ∀ v ∉ callNames, env v = if (st.vars v).exported then (st.vars v).value else none) ∧
      ((∃ v ∈ callNames, (st.vars v).readonly = true) → runSh e.argv st = some .fails) := by
  obtain ⟨full, remote, target, hw, hp, he⟩ := exec_words program cmd envp true e h
  rw [if_pos rfl] at he
  have hslash : '/' ∈ ([program, full, remote, ((splitOnce '+' full).map Prod.snd).getD []] ++ shellTarget target).getD 0 [] := by
    show '/' ∈ program
    cases program with
    | nil => cases hp
    | cons c cs => cases hp; simp
  have hrun := script_run (shellKind target) (((splitOnce '+' full).map Prod.snd).map fun a => a.length != 0)
    ([program, full, remote, ((splitOnce '+' full).map Prod.snd).getD []] ++ shellTarget target) st hslash c!"/bin/sh" c!"sh"
  have hargv : e.argv = c!"/bin/sh" :: c!"-lc" :: shellScript (shellKind target)
      (((splitOnce '+' full).map Prod.snd).map fun a => a.length != 0) :: c!"sh" ::
      ([program, full, remote, ((splitOnce '+' full).map Prod.snd).getD []] ++ shellTarget target) := by rw [he]; rfl
  refine ⟨full, remote, target, hw, by rw [he], hp, ?_, ?_, ?_⟩
  · intro v heq hq n1 n2
    rw [he]
    have pre : ∀ a b t : Str, '=' ∉ a → '=' ∉ b → a ++ c!"=" ++ t = b ++ c!"=" → a = b := by
      intro a b t ha hb e
      have e1 : splitOnce '=' (a ++ '=' :: t) = some (a, t) := splitOnce_eq_some.2 ⟨rfl, ha⟩
      have e2 : splitOnce '=' (b ++ '=' :: []) = some (b, []) := splitOnce_eq_some.2 ⟨rfl, hb⟩
      have : a ++ '=' :: t = b ++ '=' :: [] := by simpa using e
      rw [this, e2] at e1
      cases e1; rfl
    refine kept_env envp v hq ?_ ?_ ?_ ?_
    · rintro ⟨t, ht⟩; exact n1 (pre c!"QREXEC_SERVICE_PATH" v t (by decide) heq ht).symm
    · rintro ⟨t, ht⟩; exact n2 (pre c!"QREXEC_AGENT_PID" v t (by decide) heq ht).symm
    · rintro ⟨t, ht⟩; exact n1 (pre v c!"QREXEC_SERVICE_PATH" t heq (by decide) ht)
    · rintro ⟨t, ht⟩; exact n2 (pre v c!"QREXEC_AGENT_PID" t heq (by decide) ht)
  · intro hr
    obtain ⟨env, h1, h2, h3⟩ := hrun.1 hr
    refine ⟨env, ?_, ?_, h3⟩
    · rw [hargv, h1]
      congr 2
      show program :: lastArg _ (((splitOnce '+' full).map Prod.snd).getD []) = _
      congr 1
      generalize (splitOnce '+' full).map Prod.snd = arg
      cases arg with
      | none => rfl
      | some a => cases a <;> rfl
    · intro v hv
      rw [h2 v hv]
      exact pairs_call program full remote target v hv
  · intro hr
    rw [hargv]
    exact hrun.2 hr

/-- **C108, both ways agree.** If the login files change nothing - the shell has exactly the variables of its environment, and
can change those of the call - a service finds the same arguments and the same environment whether it is started through a shell
or directly. -/
theorem C108_same (program cmd : Str) (envp : List Str) (e d : ExecCall) (h : execQubesRpc2 program cmd envp true = some e)
    (hd : execQubesRpc2 program cmd envp false = some d) (st : ShState)
    (hst : ∀ v, '=' ∉ v → st.vars v = ⟨getenv e.env v, true, false⟩)
    (hk : ∀ full remote t n, strtokSpace cmd = [full, remote, t, n] → t = c!"name" ∨ t = c!"keyword") :
    ∃ env, runSh e.argv st = some (.exec d.path d.argv env) ∧ ∀ v, '=' ∉ v → env v = getenv d.env v := by
  obtain ⟨full, remote, target, hw, _, _, hno, hrun, _⟩ := C108_shell program cmd envp e h st
  obtain ⟨full', remote', target', hw', hpath, _, hargv, hcall, hother⟩ := C64_env program cmd envp d hd
  have hsame : full' = full ∧ remote' = remote ∧ target' = target := by
    rw [hw] at hw'
    injection hw' with a b
    injection b with b c
    refine ⟨a.symm, b.symm, ?_⟩
    cases target with
    | none =>
      cases target' with
      | none => rfl
      | some q => cases c
    | some q =>
      cases target' with
      | none => cases c
      | some q' =>
        obtain ⟨t, n⟩ := q
        obtain ⟨t', n'⟩ := q'
        injection c with c1 c2
        injection c2 with c2 c3
        rw [c1, c2]
  obtain ⟨rfl, rfl, rfl⟩ := hsame
  obtain ⟨env, h1, h2, h3⟩ := hrun (fun v hv => by rw [hst v (names_eq v hv)])
  refine ⟨env, ?_, ?_⟩
  · rw [h1, hpath, hargv]
  · intro v heq
    have hkept : e.env = envp.filter fun v => !shouldStripEnv v := by
      obtain ⟨_, _, _, _, _, he⟩ := exec_words program cmd envp true e h
      rw [he]; rfl
    have htype : passedType target' = targetType target' := by
      unfold passedType
      cases htt : target' with
      | none => rfl
      | some q =>
        obtain ⟨t, n⟩ := q
        rw [if_pos]
        rw [htt] at hw
        exact hk full' remote' t n hw
    by_cases hv : v ∈ callNames
    · rw [h2 v hv]
      have hq : c!"QREXEC" <+: v ∧ v ≠ c!"QREXEC_SERVICE_PATH" ∧ v ≠ c!"QREXEC_AGENT_PID" := by
        have hall : ∀ v ∈ callNames, c!"QREXEC" <+: v ∧ v ≠ c!"QREXEC_SERVICE_PATH" ∧ v ≠ c!"QREXEC_AGENT_PID" := by decide
        exact hall v hv
      rw [hcall v heq hq.1 hq.2.1 hq.2.2]
      by_cases ht : v = c!"QREXEC_REQUESTED_TARGET_TYPE"
      · rw [if_pos ht, htype, ht]; rfl
      · rw [if_neg ht]
    · rw [h3 v hv, hst v heq, if_pos rfl]
      by_cases hq : c!"QREXEC" <+: v ∧ v ≠ c!"QREXEC_SERVICE_PATH" ∧ v ≠ c!"QREXEC_AGENT_PID"
      · rw [hno v heq hq.1 hq.2.1 hq.2.2, hcall v heq hq.1 hq.2.1 hq.2.2]
        simp only [callNames, List.mem_cons, List.not_mem_nil, or_false, not_or] at hv
        unfold callVar
        rw [if_neg hv.1, if_neg hv.2.1, if_neg hv.2.2.2.1, if_neg hv.2.2.1, if_neg hv.2.2.2.2.1, if_neg hv.2.2.2.2.2]
      · have hq' : ¬ c!"QREXEC" <+: v ∨ v = c!"QREXEC_SERVICE_PATH" ∨ v = c!"QREXEC_AGENT_PID" := by
          by_cases q1 : c!"QREXEC" <+: v
          · by_cases q2 : v = c!"QREXEC_SERVICE_PATH"
            · exact .inr (.inl q2)
            · by_cases q3 : v = c!"QREXEC_AGENT_PID"
              · exact .inr (.inr q3)
              · exact absurd ⟨q1, q2, q3⟩ hq
          · exact .inl q1
        rw [hother v heq hq']
        show getenv e.env v = _
        rw [hkept]
        refine getenv_filter envp v _ ?_
        intro x hx
        unfold shouldStripEnv
        rcases hq' with hv | hv | hv
        · have : startsWith c!"QREXEC" x = false := by
            rw [startsWith_false]
            rintro ⟨t, rfl⟩
            rcases List.prefix_or_prefix_of_prefix hx (List.prefix_append c!"QREXEC" t) with k | k
            · have : '=' ∈ c!"QREXEC" := k.subset (by simp)
              exact absurd this (by decide)
            · rcases (List.prefix_concat_iff.1 k) with k | k
              · exact absurd (congrArg List.getLast? k) (by simp)
              · exact hv k
          rw [this]; rfl
        · subst hv
          obtain ⟨t, rfl⟩ := hx
          rfl
        · subst hv
          obtain ⟨t, rfl⟩ := hx
          rfl

/-- **C108, in the agent.** An agent that runs as root starts a service only in this way: what is started executes, in the shell
of the session, exactly the program and the argument, with the description of the call. -/
theorem C108_agent (w : DeWorld) (prog cmd user : Str) (root : w.creds.uid = 0) (s : RunProg)
    (h : .started s ∈ (agentDoExec w (some prog) cmd user).1) (st : ShState)
    (hr : ∀ v ∈ callNames, (st.vars v).readonly = false) :
    ∃ full remote target, strtokSpace cmd = full :: remote :: targetWords target ∧ s.call.path = c!"/bin/sh" ∧
      ∃ env, runSh s.call.argv st = some (.exec prog
          (prog :: (if ((splitOnce '+' full).map Prod.snd).getD [] = [] then []
            else [((splitOnce '+' full).map Prod.snd).getD []])) env) ∧
        ∀ v ∈ callNames, env v = if v = c!"QREXEC_REQUESTED_TARGET_TYPE" then some (passedType target)
          else callVar full remote target v := by
  obtain ⟨pw, gs, _, _, env, _, _, hc⟩ := (C84_started w (some prog) cmd user root s.call).1 ⟨s, h, rfl⟩
  obtain ⟨full, remote, target, hw, hp, _, _, hrun, _⟩ := C108_shell prog cmd env s.call hc st
  obtain ⟨env', h1, h2, _⟩ := hrun hr
  exact ⟨full, remote, target, hw, hp, env', h1, h2⟩

/-! ## Examples -/

def exSh : ShState where
  vars := fun v => if v = c!"QREXEC_SERVICE_ARGUMENT" then ⟨some c!"old", true, false⟩
    else if v = c!"PATH" then ⟨some c!"/bin", true, false⟩ else {}
  errexit := false
  unquoted := fun _ _ => [c!"anything"]

/-- A call whose argument and target look like shell commands. -/
example : ∃ e, execQubesRpc2 c!"/etc/qubes-rpc/test" c!"test+$(reboot);`x` a name \"$1" [c!"PATH=/bin"] true = some e ∧
    (∀ v ∈ callNames, (exSh.vars v).readonly = false) ∧
    ∃ env, runSh e.argv exSh = some (.exec c!"/etc/qubes-rpc/test" [c!"/etc/qubes-rpc/test", c!"$(reboot);`x`"] env) ∧
      env c!"QREXEC_REQUESTED_TARGET" = some c!"\"$1" ∧ env c!"QREXEC_SERVICE_ARGUMENT" = some c!"$(reboot);`x`" ∧
      env c!"PATH" = some c!"/bin" := by
  have hr : ∀ v ∈ callNames, (exSh.vars v).readonly = false := by decide
  cases he : execQubesRpc2 c!"/etc/qubes-rpc/test" c!"test+$(reboot);`x` a name \"$1" [c!"PATH=/bin"] true with
  | none =>
    have hn : (execQubesRpc2 c!"/etc/qubes-rpc/test" c!"test+$(reboot);`x` a name \"$1" [c!"PATH=/bin"] true).isSome = true := by
      decide +kernel
    rw [he] at hn; cases hn
  | some e =>
    obtain ⟨full, remote, target, hw, _, _, _, hrun, _⟩ := C108_shell _ _ _ _ he exSh
    have hw' : strtokSpace c!"test+$(reboot);`x` a name \"$1" = [c!"test+$(reboot);`x`", c!"a", c!"name", c!"\"$1"] := by
      decide +kernel
    rw [hw'] at hw
    injection hw with w1 w2
    injection w2 with w2 w3
    subst w1
    subst w2
    cases target with
    | none => cases w3
    | some q =>
      obtain ⟨t, n⟩ := q
      injection w3 with w3 w4
      injection w4 with w4 _
      subst w3
      subst w4
      obtain ⟨env, h1, h2, h3⟩ := hrun hr
      refine ⟨e, rfl, hr, env, h1, ?_, ?_, ?_⟩
      · rw [h2 _ (by decide)]; rfl
      · rw [h2 _ (by decide)]; rfl
      · rw [h3 _ (by decide)]; rfl

set_option maxRecDepth 20000 in
/-- The script for a call with argument and a target given by name. -/
example : shellScript (some false) (some true) =
    c!"set -e\nunset QREXEC_SERVICE_FULL_NAME QREXEC_REMOTE_DOMAIN QREXEC_REQUESTED_TARGET_TYPE QREXEC_SERVICE_ARGUMENT QREXEC_REQUESTED_TARGET QREXEC_REQUESTED_TARGET_KEYWORD\nexport \"QREXEC_SERVICE_FULL_NAME=$2\" \"QREXEC_REMOTE_DOMAIN=$3\" QREXEC_REQUESTED_TARGET_TYPE=name QREXEC_REQUESTED_TARGET=\"$5\" \"QREXEC_SERVICE_ARGUMENT=$4\"\nexec \"$1\" \"$4\"" := rfl

/-- What an unquoted parameter would do: the meaning of the shell depends on it. -/
example : (shLex false {} c!"exec $1").map (fun l => l.cmds.map fun c => c.flatMap (shWord exSh [c!"/bin/a b"])) =
    some [[c!"exec", c!"anything"]] := by decide

/-- A readonly variable from the login files. -/
example : runSh [c!"sh", c!"-lc", shellScript none none, c!"sh", c!"/x", c!"s", c!"d", []]
    { exSh with vars := fun v => ⟨none, false, v = c!"QREXEC_REMOTE_DOMAIN"⟩ } = some .fails :=
  (script_run none none [c!"/x", c!"s", c!"d", []] _ (by decide) _ _).2 ⟨c!"QREXEC_REMOTE_DOMAIN", by decide, by decide⟩

end Qrexec
