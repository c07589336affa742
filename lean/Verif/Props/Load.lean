import Verif.Lemmas.LoadErr
import Verif.Props.Exec

/-! # C24-C28: loading policy files -/
namespace Qrexec
open Spec

/-! ## C24 -/

/-- **C24.** Two files with the same content, up to comments, blank lines and spacing, give
the same rules (or the same exception), in any parser and at any nesting. -/
theorem C24_file (env : LoadEnv) (n : Nat) (path : Path) (l1 l2 : List Str)
    (c : List (List Str)) (h1 : Content l1 c) (h2 : Content l2 c) :
    loadFile env n (l1, path) = loadFile env n (l2, path) := by
  cases n with
  | zero => rfl
  | succ n =>
    exact collect_content (fun l hl => fileLine_comment hl) (fun l hl => fileLine_comment hl)
      (fun a b h => fileLine_words h) h1 h2

/-- **C24.** The whole loaded policy does not change when the comments, blank lines and spacing
of any of the files (policy files, included files, legacy files) change. -/
theorem C24_policy (a b : FS) (h : SameFiles a b) (legacy : Path) (dirs : List Path) (n : Nat) :
    filePolicy a legacy dirs n = filePolicy b legacy dirs n := filePolicy_same h legacy dirs n

/-- Every text has a content. -/
theorem C24_content_exists (lines : List Str) : ∃ c, Content lines c := content_exists lines

example : Content [c!"# x", c!"", c!" a\tb "] [[c!"a", c!"b"]] :=
  .comment (w := []) (ws := [c!"x"]) (words_iff.2 (by decide)) (.blank (words_iff.2 (by decide))
    (.line (words_iff.2 (by decide)) (by decide) .nil))
example : Content [c!"a   b"] [[c!"a", c!"b"]] :=
  .line (words_iff.2 (by decide)) (by decide) .nil

/-! ## C25 -/

/-- **C25.** The rules of a loaded policy are those of the chosen files, one file after the
other in the order of file names, where a name in several directories is taken from the
first. -/
theorem C25_load_order (fs : FS) (hdn : DistinctNames fs) (legacy : Path) (dirs : List Path)
    (n : Nat) (rules : List Rule) (h : filePolicy fs legacy dirs n = .ok rules) :
    ∃ files parts, NameSorted files ∧ (∀ f, f ∈ files ↔ Chosen fs dirs f) ∧
      List.Forall₂ (fun f p => loadTopFile fs legacy n f = .ok p) files parts ∧
      rules = parts.flatten := by
  have h := wrapOSError_ok.1 h
  unfold loadPolicyDirs at h
  obtain ⟨files, hf, h⟩ := bind_eq_ok.1 h
  obtain ⟨hm, hnd⟩ := selectFiles_spec hdn hf
  obtain ⟨parts, hp, hr⟩ := collectRules_ok.1 h
  refine ⟨_, parts, sortBy_strict (key := Prod.snd) hnd, fun f => ?_, hp, hr⟩
  rw [mem_sortBy, hm]
  simp

/-- **C25.** That order is determined by the file names alone. -/
theorem C25_order_unique (l1 l2 : List (Path × Str)) (h1 : NameSorted l1) (h2 : NameSorted l2)
    (h : ∀ f, f ∈ l1 ↔ f ∈ l2) : l1 = l2 :=
  strict_sorted_unique (lt := fun a b : Path × Str => strLt a.2 b.2 = true)
    (fun a h => by rw [strLt_irrefl] at h; simp at h) (fun _ _ _ => strLt_trans) h1 h2 h

/-- **C25.** The order in which the file system lists directories has no influence. -/
theorem C25_listing_order (a b : FS) (h : Relisted a b) (hdn : DistinctNames a) (legacy : Path)
    (dirs : List Path) (n : Nat) : filePolicy a legacy dirs n = filePolicy b legacy dirs n :=
  filePolicy_relist h hdn legacy dirs n

/-- **C25.** A file hidden by one of the same name in an earlier directory is not among the
chosen ones. -/
theorem C25_override (fs : FS) (d1 d2 : Path) (name : Str) (hd : d1 ≠ d2)
    (h1 : PolicyFile fs d1 name) : Chosen fs [d1, d2] (d1, name) ∧
      ¬ Chosen fs [d1, d2] (d2, name) := by
  refine ⟨⟨[], [d2], rfl, h1, by simp⟩, ?_⟩
  rintro ⟨pre, post, h, _, hpre⟩
  cases pre with
  | nil => simp only [List.nil_append, List.cons.injEq] at h; exact hd h.1
  | cons p ps =>
    simp only [List.cons_append, List.cons.injEq] at h
    exact hpre p (by simp) (h.1 ▸ h1)

/-- Example file system: `/r/10.policy` hides `/e/10.policy`; `/e/20.policy` includes `inc/x`. -/
def exFS : FS where
  resolve := id
  file p :=
    if p = [c!"r", c!"10.policy"] then some (.ok c!"a * x y allow\n")
    else if p = [c!"e", c!"10.policy"] then some (.ok c!"hidden * x y allow\n")
    else if p = [c!"e", c!"20.policy"] then some (.ok c!"b * x y deny\n!include inc/x\nc * x y ask")
    else if p = [c!"e", c!"inc", c!"x"] then some (.ok c!"# c\ni * x y allow")
    else if p = [c!"e", c!"README"] then some (.ok c!"garbage")
    else none
  dir p :=
    if p = [c!"r"] then some [c!"10.policy"]
    else if p = [c!"e"] then some [c!"20.policy", c!"README", c!"10.policy", c!"inc"]
    else none

example : (filePolicy exFS [c!"old"] [[c!"r"], [c!"e"]] 2).map (List.map (fun r => r.service)) =
    .ok [some c!"a", some c!"b", some c!"i", some c!"c"] := by decide
example : filePolicy exFS [c!"old"] [[c!"r"], [c!"e"]] 1 = .error .recursion := by decide
theorem exFS_distinct : DistinctNames exFS := by
  intro d names h
  simp only [exFS] at h
  split_ifs at h <;> cases h <;> decide

/-! ## C26 -/

/-- **C26.** A policy file whose name has a forbidden character, in any of the directories,
prevents loading: `AccessDenied`. -/
theorem C26_bad_name (fs : FS) (legacy : Path) (dirs : List Path) (n : Nat) (d : Path)
    (hd : d ∈ dirs) (name : Str) (hp : PolicyFile fs d name) (c : Char) (hc : c ∈ name)
    (hbad : ¬ PolicyNameChar c) :
    filePolicy fs legacy dirs n = .error (.accessDenied true) := by
  unfold filePolicy loadPolicyDirs
  cases h : selectFiles fs dirs [] with
  | ok files => exact absurd ((selectFiles_names h d hd).2 name hp c hc) hbad
  | error e => rcases selectFiles_error h with rfl | rfl <;> rfl

/-- **C26.** So does a directory that cannot be listed. -/
theorem C26_missing_dir (fs : FS) (legacy : Path) (dirs : List Path) (n : Nat) (d : Path)
    (hd : d ∈ dirs) (h0 : fs.dir d = none) :
    filePolicy fs legacy dirs n = .error (.accessDenied true) := by
  unfold filePolicy loadPolicyDirs
  cases h : selectFiles fs dirs [] with
  | ok files => exact absurd h0 (selectFiles_names h d hd).1
  | error e => rcases selectFiles_error h with rfl | rfl <;> rfl

/-- **C26.** If one of the chosen files cannot be loaded, no policy is loaded. -/
theorem C26_bad_file (fs : FS) (hdn : DistinctNames fs) (legacy : Path) (dirs : List Path)
    (n : Nat) (f : Path × Str) (hf : Chosen fs dirs f) (e : Err)
    (he : loadTopFile fs legacy n f = .error e) : ∃ e', filePolicy fs legacy dirs n = .error e' := by
  cases h : filePolicy fs legacy dirs n with
  | error e' => exact ⟨e', rfl⟩
  | ok rules =>
    exfalso
    have h := wrapOSError_ok.1 h
    unfold loadPolicyDirs at h
    obtain ⟨files, hs, h⟩ := bind_eq_ok.1 h
    have hm : f ∈ sortBy (fun a b : Path × Str => strLe a.2 b.2) files := by
      rw [mem_sortBy, (selectFiles_spec hdn hs).1]
      exact ⟨by simp, hf⟩
    obtain ⟨e', he'⟩ := collectRules_error_of hm he
    rw [h] at he'
    simp at he'

/-- **C26.** A line that is not blank, not a comment, not a directive and not a rule makes the
file fail. -/
theorem C26_bad_line (env : LoadEnv) (n : Nat) (path : Path) (lines : List Str) (line : Str)
    (hl : line ∈ lines) (w : Str) (ws : List Str) (hw : Words line (w :: ws))
    (h1 : w.head? ≠ some '#') (h2 : w.head? ≠ some '!')
    (h3 : ∀ r, ¬ RuleWords path (w :: ws) r) :
    ∃ e, loadFile env n (lines, path) = .error e := by
  cases n with
  | zero => exact ⟨_, rfl⟩
  | succ n =>
    refine collectRules_error_of hl (e := .policySyntax) ?_
    have hs := splitWs_of_words hw
    have hwne : w ≠ [] := by
      generalize hx : w :: ws = l at hw
      cases hw with
      | none => simp at hx
      | word _ hne => simp only [List.cons.injEq] at hx; rw [hx.1]; exact hne
    have c1 : isCommentLine (strip line) = false := by
      rw [isCommentLine_strip, hs]; simpa using h1
    have c2 : startsWith c!"!" (strip line) = false := by
      rw [startsBang_strip, hs]
      cases w with
      | nil => exact absurd rfl hwne
      | cons a as =>
        simp only [startsWith, List.isPrefixOf, Bool.and_true, beq_eq_false_iff_ne, ne_eq]
        rintro rfl; exact h2 rfl
    unfold fileLine
    simp only [c1, c2, Bool.false_eq_true, if_false]
    cases hr : ruleFromLine (strip line) path with
    | error e => rw [ruleFromLine_error hr]; rfl
    | ok r =>
      exfalso
      unfold ruleFromLine at hr
      rw [splitWs_strip, hs] at hr
      split at hr
      · rename_i heq; rw [heq] at h3; exact h3 r (ruleWords_iff.1 hr)
      · simp at hr

/-- **C26.** Loading either succeeds or raises `AccessDenied` (or its subclass
`PolicySyntaxError`), except for running out of nesting, and for undecodable files. -/
theorem C26_errors (fs : FS) (legacy : Path) (dirs : List Path) (n : Nat) (e : Err)
    (h : filePolicy fs legacy dirs n = .error e) :
    e.isAccessDenied = true ∨ e = .recursion ∨ ∃ p, fs.file p = some (.error e) := by
  have hl : ErrsIn (LoadErr fs) (loadPolicyDirs fs legacy dirs n) := by
    unfold loadPolicyDirs
    refine ErrsIn.bind ?_ fun files _ => ErrsIn.collect fun f _ => loadTopFile_errs fs legacy n f
    intro e he
    rcases selectFiles_error he with rfl | rfl
    · exact Or.inr (Or.inr (Or.inl rfl))
    · exact Or.inr (Or.inl rfl)
  unfold filePolicy at h
  cases hx : loadPolicyDirs fs legacy dirs n with
  | ok r => rw [hx] at h; simp [wrapOSError] at h
  | error e' =>
    rw [hx] at h
    by_cases ho : e' = .osError
    · subst ho; simp only [wrapOSError, Except.error.injEq] at h; subst h; exact Or.inl rfl
    · have : wrapOSError (Except.error e' : Except Err (List Rule)) = .error e' := by
        unfold wrapOSError; split
        · rename_i heq; cases heq; exact absurd rfl ho
        · rfl
      rw [this] at h
      have h := Except.error.inj h
      subst h
      rcases hl e' hx with rfl | rfl | h1 | rfl | h1
      · exact Or.inl rfl
      · exact Or.inl rfl
      · exact absurd h1 ho
      · exact Or.inr (Or.inl rfl)
      · exact Or.inr (Or.inr h1)

/-- **C26.** When no policy can be loaded, no request is granted: the answer is `result=deny`
or the handler raises, whatever the request and the user's answers would be. -/
theorem C26_fail_closed (sys : Option Info) (e : Err) (agent : Agent) (mode : Mode)
    (source target sa rs : Str) :
    (∃ evs, handleRequest sys (.error e) agent mode source target sa rs = (evs, .ok denyAnswer)) ∨
    ∃ evs e', handleRequest sys (.error e) agent mode source target sa rs = (evs, .error e') := by
  cases sys with
  | none => exact Or.inl ⟨_, rfl⟩
  | some info =>
    simp only [handleRequest, tryRequest]
    split
    · rename_i h; simp at h
    · exact Or.inl ⟨_, rfl⟩
    · rename_i e' _ _
      by_cases h : e'.isAccessDenied = true
      · rw [if_pos h]
        unfold onDenied
        split
        · split
          · exact Or.inr ⟨_, _, rfl⟩
          · split
            · exact Or.inl ⟨_, rfl⟩
            · exact Or.inl ⟨_, rfl⟩
        · exact Or.inl ⟨_, rfl⟩
      · rw [if_neg h]; exact Or.inr ⟨_, _, rfl⟩

/-- **C26.** A syntax error is answered with exactly `result=deny`, without any notification. -/
theorem C26_syntax_error_denied (info : Info) (agent : Agent) (mode : Mode)
    (source target sa rs : Str) :
    handleRequest (some info) (.error .policySyntax) agent mode source target sa rs =
      ([], .ok denyAnswer) := rfl

/-- **C26.** Names a policy directory ignores (dotfiles, other suffixes) can be added to or
removed from its listing freely. -/
theorem C26_ignored_files (a b : FS) (legacy : Path) (hr : a.resolve = b.resolve)
    (hf : a.file = b.file) (hleg : a.dir legacy = b.dir legacy)
    (hdir : ∀ d, (a.dir d = none ∧ b.dir d = none) ∨
      ∃ x y, a.dir d = some x ∧ b.dir d = some y ∧
        (∃ px : Str → Bool, (∀ n, px n = true ↔ ¬ Ignored n) ∧ x.filter px = y.filter px))
    (dirs : List Path) (n : Nat) :
    filePolicy a legacy dirs n = filePolicy b legacy dirs n := by
  have hip : ∀ d, isPolicyFile a d = isPolicyFile b d := by
    intro d; funext n; unfold isPolicyFile; rw [hf]
  have hff : ∀ d x y, a.dir d = some x → b.dir d = some y →
      filterFilepaths a d x = filterFilepaths b d y := by
    intro d x y hx hy
    have hkeep : x.filter (isPolicyFile b d) = y.filter (isPolicyFile b d) := by
      rcases hdir d with ⟨h1, _⟩ | ⟨x', y', h1, h2, px, hpx, hxy⟩
      · rw [h1] at hx; simp at hx
      · rw [h1] at hx; rw [h2] at hy
        cases hx; cases hy
        have hsub : ∀ l : List Str, l.filter (isPolicyFile b d) =
            (l.filter px).filter (isPolicyFile b d) := by
          intro l
          rw [List.filter_filter]
          refine List.filter_congr fun m _ => ?_
          by_cases hb : isPolicyFile b d m = true
          · have : px m = true := by
              rw [hpx]
              unfold isPolicyFile at hb
              rw [Bool.and_eq_true, Bool.and_eq_true, endsWith_iff, Bool.not_eq_true',
                Bool.eq_false_iff, ne_eq, startsDot_iff] at hb
              rintro (h | h)
              · exact hb.2 h
              · exact h hb.1.2
            rw [hb, this]; rfl
          · simp only [Bool.not_eq_true] at hb
            rw [hb]; rfl
        rw [hsub x, hsub y, hxy]
    unfold filterFilepaths
    rw [hip, hkeep]
  have hsel : ∀ seen, selectFiles a dirs seen = selectFiles b dirs seen := by
    induction dirs with
    | nil => intro seen; rfl
    | cons d ds ih =>
      intro seen
      simp only [selectFiles]
      rcases hdir d with ⟨h1, h2⟩ | ⟨x, y, h1, h2, _⟩
      · rw [h1, h2]
      · rw [h1, h2]
        simp only [hff d x y h1 h2, ih]
  have hop : openPath a = openPath b := by funext p; unfold openPath; rw [hf]
  have hrf : resolveFilepath a = resolveFilepath b := by
    funext p i; unfold resolveFilepath; rw [hf, hr]
  have hrd : resolveDir a = resolveDir b := by
    funext base i
    unfold resolveDir
    rw [hr]
    simp only
    rcases hdir (b.resolve (joinPath base i)) with ⟨h1, h2⟩ | ⟨x, y, h1, h2, _⟩
    · rw [h1, h2]
    · rw [h1, h2]
      simp only [hff _ x y h1 h2, hop]
  have hcp : compat40 a legacy = compat40 b legacy := by
    funext n
    have hw : walkCompat a legacy = walkCompat b legacy := by
      have : isCompatFile a legacy = isCompatFile b legacy := by
        funext n; unfold isCompatFile; rw [hf]
      unfold walkCompat; rw [hleg, this]
    have hb : compatBlock a legacy n = compatBlock b legacy n := by
      funext f; unfold compatBlock; rw [hf, hr, hrf]
    unfold compat40; rw [hw, hb]
  have hl : loadTopFile a legacy n = loadTopFile b legacy n := by
    funext f
    unfold loadTopFile policyEnv
    rw [hop, hrf, hrd, hcp]
  unfold filePolicy loadPolicyDirs
  rw [hsel, hl]

example : PolicyFile exFS [c!"e"] c!"20.policy" :=
  ⟨⟨_, rfl, by decide⟩, by decide, ⟨c!"20", rfl⟩, by decide⟩
example : ¬ PolicyNameChar 'A' := by unfold PolicyNameChar; decide

/-- Every rule of a loaded policy came out of the rule parser, so the theorems about policies
made of parsed rules (C04, C05, C11, ...) apply to every loaded policy. -/
theorem C26_loaded_rules_parsed (fs : FS) (legacy : Path) (dirs : List Path) (n : Nat)
    (rules : List Rule) (h : filePolicy fs legacy dirs n = .ok rules) : ∀ r ∈ rules, IsRule r :=
  filePolicy_rules fs legacy dirs n rules h

/-! ## C27 -/

/-- **C27.** An `!include` line stands for the rules of the included file: the rules before it,
then those of the included file, then those after it. -/
theorem C27_include (env : LoadEnv) (n : Nat) (pre post : List Str) (line inc : Str) (p : Path)
    (hw : Words line [c!"!include", inc]) :
    loadFile env (n + 1) (pre ++ line :: post, p) =
      (do let a ← loadFile env (n + 1) (pre, p)
          let f ← env.openFile inc
          let b ← loadFile env n f
          let c ← loadFile env (n + 1) (post, p)
          return a ++ (b ++ c)) := by
  rw [loadFile_append]
  congr 1
  funext a
  have : loadFile env (n + 1) (line :: post, p) =
      (do let f ← env.openFile inc
          let b ← loadFile env n f
          let c ← loadFile env (n + 1) (post, p)
          return b ++ c) := by
    conv => lhs; rw [loadFile, collectRules, fileLine_directive hw]
    have : fileDirective env n (loadFile env n) [c!"!include", inc] =
        (env.openFile inc >>= fun f => loadFile env n f) := rfl
    rw [this, bind_assoc]
    rfl
  rw [this]
  cases env.openFile inc with
  | error e => rfl
  | ok f =>
    simp only [ok_bind]
    cases loadFile env n f with
    | error e => rfl
    | ok b =>
      simp only [ok_bind]
      cases loadFile env (n + 1) (post, p) with
      | error e => rfl
      | ok c => rfl

/-- **C27.** The file is looked up relative to the directory of the policy file the loading
started from. -/
theorem C27_which_file (fs : FS) (legacy base : Path) (inc text : Str)
    (h : fs.file (fs.resolve (joinPath base inc)) = some (.ok text)) :
    (policyEnv fs legacy base).openFile inc =
      .ok (fileLines text, fs.resolve (joinPath base inc)) := by
  change resolveFilepath fs base inc = _
  unfold resolveFilepath
  simp only [h]
  rfl

/-- **C27.** Including something that is not a file is a syntax error. -/
theorem C27_missing (fs : FS) (legacy base : Path) (n : Nat) (pre post : List Str)
    (line inc : Str) (p : Path) (hw : Words line [c!"!include", inc])
    (h : fs.file (fs.resolve (joinPath base inc)) = none) (a : List Rule)
    (hpre : loadFile (policyEnv fs legacy base) (n + 1) (pre, p) = .ok a) :
    loadFile (policyEnv fs legacy base) (n + 1) (pre ++ line :: post, p) =
      .error .policySyntax := by
  rw [C27_include _ _ _ _ _ _ _ hw, hpre]
  have : (policyEnv fs legacy base).openFile inc = .error .policySyntax := by
    change resolveFilepath fs base inc = _
    unfold resolveFilepath
    simp only [h]
  rw [this]
  rfl

theorem map_noPath {x : Except Err (List Rule)} {a : List Rule}
    (h : x.map (List.map Rule.noPath) = .ok a) : ∃ b, x = .ok b ∧ b.map Rule.noPath = a := by
  cases x with
  | error e => simp [Except.map] at h
  | ok b => exact ⟨b, rfl, by simpa [Except.map] using h⟩

/-- **C27.** Writing the included lines in place of the `!include` line gives the same rules,
apart from the recorded file path. -/
theorem C27_same_as_inline (fs : FS) (legacy base : Path) (n : Nat) (pre post : List Str)
    (line inc text : Str) (p : Path) (hw : Words line [c!"!include", inc])
    (h : fs.file (fs.resolve (joinPath base inc)) = some (.ok text)) (rules : List Rule)
    (hl : loadFile (policyEnv fs legacy base) (n + 1) (pre ++ line :: post, p) = .ok rules) :
    ∃ rules', loadFile (policyEnv fs legacy base) (n + 1)
        (pre ++ (fileLines text ++ post), p) = .ok rules' ∧
      List.Forall₂ Rule.sameAs rules rules' := by
  have hmono := policyEnv_compatMono fs legacy base
  have hop := C27_which_file fs legacy base inc text h
  generalize policyEnv fs legacy base = env at *
  rw [C27_include _ _ _ _ _ _ _ hw, hop] at hl
  simp only [bind_eq_ok, Except.ok.injEq, pure_ok] at hl
  obtain ⟨a, ha, f, rfl, b, hb, c, hc, rfl⟩ := hl
  have hb' : loadFile env (n + 1) (fileLines text, fs.resolve (joinPath base inc)) = .ok b := by
    rcases loadFile_succ hmono n (fileLines text, fs.resolve (joinPath base inc)) with h1 | h1
    · rw [hb] at h1; simp at h1
    · rw [← h1, hb]
  have hpath := loadFile_path env (n + 1) (fileLines text) (fs.resolve (joinPath base inc)) p
  rw [hb'] at hpath
  obtain ⟨b', hb'', heq⟩ := map_noPath hpath.symm
  refine ⟨a ++ (b' ++ c), ?_, ?_⟩
  · rw [loadFile_append, loadFile_append, ha, hb'', hc]; rfl
  · have hrefl : ∀ l : List Rule, List.Forall₂ Rule.sameAs l l := by
      intro l
      induction l with
      | nil => exact .nil
      | cons x xs ih => exact .cons rfl ih
    have happ : ∀ {l1 l2 m1 m2 : List Rule}, List.Forall₂ Rule.sameAs l1 l2 →
        List.Forall₂ Rule.sameAs m1 m2 → List.Forall₂ Rule.sameAs (l1 ++ m1) (l2 ++ m2) := by
      intro l1 l2 m1 m2 h1 h2
      induction h1 with
      | nil => exact h2
      | cons h _ ih => exact .cons h ih
    refine happ (hrefl a) (happ ?_ (hrefl c))
    clear hb hb' hb'' hpath
    induction b generalizing b' with
    | nil =>
      cases b' with
      | nil => exact .nil
      | cons => simp at heq
    | cons x xs ih =>
      cases b' with
      | nil => simp at heq
      | cons y ys =>
        simp only [List.map_cons, List.cons.injEq] at heq
        exact .cons heq.1.symm (ih ys heq.2)

/-- **C27.** `!include-dir` loads exactly the policy files of the directory, in the order of
their names. -/
theorem C27_include_dir (fs : FS) (hdn : DistinctNames fs) (legacy base : Path) (n : Nat)
    (line inc : Str) (p : Path) (hw : Words line [c!"!include-dir", inc]) (rules : List Rule)
    (hl : loadFile (policyEnv fs legacy base) (n + 1) ([line], p) = .ok rules) :
    ∃ (names : List Str) (parts : List (List Rule)),
      (names.Pairwise fun a b => strLt a b = true) ∧
      (∀ m, m ∈ names ↔ PolicyFile fs (fs.resolve (joinPath base inc)) m) ∧
      List.Forall₂ (fun m part => ∃ text,
        fs.file (fs.resolve (joinPath base inc) ++ [m]) = some (.ok text) ∧
        loadFile (policyEnv fs legacy base) n
          (fileLines text, fs.resolve (joinPath base inc) ++ [m]) = .ok part) names parts ∧
      rules = parts.flatten := by
  have e1 : loadFile (policyEnv fs legacy base) (n + 1) ([line], p) =
      (fileDirective (policyEnv fs legacy base) n (loadFile (policyEnv fs legacy base) n)
        [c!"!include-dir", inc] >>= fun a => Except.ok (a ++ [])) := by
    rw [loadFile, collectRules, fileLine_directive hw]; rfl
  rw [e1] at hl
  simp only [List.append_nil, bind_eq_ok, Except.ok.injEq] at hl
  obtain ⟨rs, hrs, rfl⟩ := hl
  have e2 : fileDirective (policyEnv fs legacy base) n (loadFile (policyEnv fs legacy base) n)
      [c!"!include-dir", inc] = (resolveDir fs base inc >>= fun l =>
        collectRules (fun f => f >>= fun f => loadFile (policyEnv fs legacy base) n f) l) := rfl
  rw [e2] at hrs
  obtain ⟨l, hdir, hc⟩ := bind_eq_ok.1 hrs
  unfold resolveDir at hdir
  simp only at hdir
  rcases Option.eq_none_or_eq_some (fs.dir (fs.resolve (joinPath base inc))) with hd | ⟨ns, hd⟩
  · rw [hd] at hdir; simp at hdir
  · rw [hd] at hdir
    simp only [bind_eq_ok, pure_ok, Except.ok.injEq] at hdir
    obtain ⟨files, hfiles, rfl⟩ := hdir
    obtain ⟨parts, hparts, rfl⟩ := collectRules_ok.1 hc
    refine ⟨files, parts, ?_, filterFilepaths_mem hd hfiles, ?_, rfl⟩
    · rw [(filterFilepaths_ok hfiles).1]
      exact sortBy_strict (key := (id : Str → Str))
        (by rw [List.map_id]; exact (hdn _ _ hd).filter (isPolicyFile fs _))
    · clear hc hfiles e1 e2 hrs
      generalize hmap : files.map (fun m => openPath fs (fs.resolve (joinPath base inc) ++ [m])) = l at hparts
      induction hparts generalizing files with
      | nil =>
        cases files with
        | nil => exact .nil
        | cons => simp at hmap
      | cons ha _ ih =>
        cases files with
        | nil => simp at hmap
        | cons m ms =>
          simp only [List.map_cons, List.cons.injEq] at hmap
          refine .cons ?_ (ih ms hmap.2)
          rw [← hmap.1] at ha
          obtain ⟨o, ho, hlo⟩ := bind_eq_ok.1 ha
          unfold openPath at ho
          rcases Option.eq_none_or_eq_some (fs.file (fs.resolve (joinPath base inc) ++ [m]))
            with hf | ⟨r, hf⟩
          · rw [hf] at ho; simp at ho
          · rw [hf] at ho
            simp only [bind_eq_ok, pure_ok, Except.ok.injEq] at ho
            obtain ⟨t, rfl, rfl⟩ := ho
            exact ⟨t, hf, hlo⟩

/-- **C27.** Once the nesting allowed by the interpreter is enough, the result does not depend
on it. -/
theorem C27_depth (fs : FS) (legacy : Path) (dirs : List Path) (n m : Nat) (hnm : n ≤ m)
    (h : filePolicy fs legacy dirs n ≠ .error .recursion) :
    filePolicy fs legacy dirs m = filePolicy fs legacy dirs n := by
  unfold filePolicy at *
  rcases loadPolicyDirs_mono fs legacy dirs hnm with h1 | h1
  · rw [h1] at h; exact absurd rfl h
  · rw [h1]

/-- **C27.** A file that includes itself fails at every depth; it never yields a policy. -/
theorem C27_self_include (fs : FS) (legacy base : Path) (text line inc : Str)
    (pre post : List Str) (ht : fileLines text = pre ++ line :: post)
    (hw : Words line [c!"!include", inc])
    (h : fs.file (fs.resolve (joinPath base inc)) = some (.ok text)) (n : Nat) (p : Path) :
    ∃ e, loadFile (policyEnv fs legacy base) n (fileLines text, p) = .error e := by
  induction n generalizing p with
  | zero => exact ⟨_, rfl⟩
  | succ n ih =>
    rw [ht, C27_include _ _ _ _ _ _ _ hw]
    cases loadFile (policyEnv fs legacy base) (n + 1) (pre, p) with
    | error e => exact ⟨e, rfl⟩
    | ok a =>
      rw [C27_which_file fs legacy base inc text h]
      obtain ⟨e, he⟩ := ih (fs.resolve (joinPath base inc))
      simp only [ok_bind, he]
      exact ⟨e, rfl⟩

example : Words c!"!include inc/x" [c!"!include", c!"inc/x"] := words_iff.2 (by decide)
example : (loadFile (policyEnv exFS [] [c!"e"]) 2
    ([c!"!include inc/x", c!"z * a b deny"], [c!"f"])).map (List.map (fun r => r.service)) =
    .ok [some c!"i", some c!"z"] := by decide

/-! ## C28 -/

/-- A legacy file name `service+argument`. -/
def legacyName (service argument : Str) : Str := service ++ '+' :: argument

/-- The file is used by `!compat-4.0`: a regular file with a clean name that is not a dotfile
or a package manager's backup. -/
def LegacyFile (fs : FS) (legacy : Path) (name : Str) : Prop :=
  (∃ names, fs.dir legacy = some names ∧ name ∈ names) ∧ fs.file (legacy ++ [name]) ≠ none ∧
  (∀ suffix ∈ [c!".rpmsave", c!".rpmnew", c!".swp"], ¬ ∃ t, name = t ++ suffix) ∧
  name.head? ≠ some '.' ∧ ∀ c ∈ name, NameChar c

theorem legacyFile_mem {fs : FS} {legacy : Path} {names : List Str}
    (hd : fs.dir legacy = some names) {name : Str} (h : LegacyFile fs legacy name) :
    name ∈ names.filter (isCompatFile fs legacy) := by
  obtain ⟨⟨ns, h1, h2⟩, h3, h4, h5, h6⟩ := h
  rw [hd] at h1; cases h1
  rw [List.mem_filter]
  refine ⟨h2, ?_⟩
  unfold isCompatFile
  have e1 : endsWith c!".rpmsave" name = false := by
    rw [Bool.eq_false_iff, ne_eq, endsWith_iff]; exact h4 _ (by simp)
  have e2 : endsWith c!".rpmnew" name = false := by
    rw [Bool.eq_false_iff, ne_eq, endsWith_iff]; exact h4 _ (by simp)
  have e3 : endsWith c!".swp" name = false := by
    rw [Bool.eq_false_iff, ne_eq, endsWith_iff]; exact h4 _ (by simp)
  have e4 : startsWith c!"." name = false := by
    rw [Bool.eq_false_iff, ne_eq, startsDot_iff]; exact h5
  rw [e1, e2, e3, e4, Option.isSome_iff_ne_none.2 h3]
  simp only [Bool.or_self, Bool.not_false, Bool.and_self, Bool.true_and]
  rw [List.all_eq_true]
  exact fun c hc => (nameChar_iff c).2 (h6 c hc)

theorem forall₂_split {α β : Type} {R : α → β → Prop} {l : List α} {ps : List β}
    (h : List.Forall₂ R l ps) {x : α} (hx : x ∈ l) :
    ∃ l1 l2 p p1 p2, l = l1 ++ x :: l2 ∧ ps = p1 ++ p :: p2 ∧ List.Forall₂ R l1 p1 ∧ R x p ∧
      List.Forall₂ R l2 p2 := by
  induction h with
  | nil => simp at hx
  | @cons a b l ps hab hrest ih =>
    rcases List.mem_cons.1 hx with rfl | hx
    · exact ⟨[], l, b, [], ps, rfl, rfl, .nil, hab, hrest⟩
    · obtain ⟨l1, l2, p, p1, p2, e1, e2, h1, h2, h3⟩ := ih hx
      exact ⟨a :: l1, l2, p, b :: p1, p2, by rw [e1]; rfl, by rw [e2]; rfl, .cons hab h1, h2, h3⟩

theorem forall₂_mem_right {α β : Type} {R : α → β → Prop} {l : List α} {ps : List β} {p : β}
    (h : List.Forall₂ R l ps) (hp : p ∈ ps) : ∃ x ∈ l, R x p := by
  induction h with
  | nil => simp at hp
  | @cons a b l ps hab _ ih =>
    rcases List.mem_cons.1 hp with rfl | hp
    · exact ⟨a, by simp, hab⟩
    · obtain ⟨t, ht, hb⟩ := ih hp
      exact ⟨t, by simp [ht], hb⟩

theorem validateSA_named {s a : Str} {p : Option Str × Option Str} (hs : s ≠ c!"*")
    (ha : a ≠ c!"*") (h : validateServiceAndArgument (some s) (some a) = .ok p) :
    p = (some s, some a) := by
  obtain ⟨h1, h2, _⟩ := validateSA_ok.1 h
  obtain ⟨p1, p2⟩ := p
  cases h1 with
  | any => exact absurd rfl hs
  | name =>
    cases h2 with
    | any => exact absurd rfl ha
    | arg => rfl

/-- **C28.** When `!compat-4.0` succeeds and there is a legacy file `service+argument`, its
rules (`own`) and two denials of every call from a qube stand in one piece; no rule that
`!compat-4.0` inserted before them is for this service and argument; and whatever precedes and
follows, a call of that service and argument from a domain other than dom0 is never decided by
a rule after them. -/
theorem C28_no_fall_through (fs : FS) (hdn : DistinctNames fs) (legacy : Path) (n : Nat)
    (rules : List Rule) (h : compat40 fs legacy n = .ok rules) (service argument : Str)
    (hs : '+' ∉ service) (hf : LegacyFile fs legacy (legacyName service argument)) :
    ∃ pre own d1 d2 post text,
      rules = pre ++ (own ++ [d1, d2]) ++ post ∧
      fs.file (fs.resolve (legacy ++ [legacyName service argument])) = some (.ok text) ∧
      loadService (resolveFilepath fs legacy) n (some service) (some ('+' :: argument))
        (fileLines text, fs.resolve (legacy ++ [legacyName service argument])) = .ok own ∧
      d1.action = .deny true ∧ d2.action = .deny true ∧
      (∀ req : Request, req.service = service → req.argument = '+' :: argument →
        (∀ r ∈ pre, ¬ RuleMatches r req) ∧
        (¬ Dom0 req.source → RuleMatches d1 req ∨ RuleMatches d2 req) ∧
        ∀ before after p r q, ¬ Dom0 req.source →
          FirstMatch (before ++ rules ++ after) p r q req →
          (∃ x, before = p ++ r :: x) ∨ r ∈ own ∨ r = d1 ∨ r = d2) := by
  obtain ⟨⟨names, hd, _⟩, _⟩ := id hf
  have hd' := hd
  unfold compat40 at h
  rw [walkCompat_eq hd] at h
  simp only [ok_bind] at h
  obtain ⟨parts, hparts, rfl⟩ := collectRules_ok.1 h
  have htriple : compatTriple (legacyName service argument) =
      (service, '+' :: argument, legacyName service argument) := by
    unfold compatTriple parseServiceAndArgument legacyName
    rw [splitOnce_append hs]
  have hmem : (service, '+' :: argument, legacyName service argument) ∈
      sortBy compatLe ((names.filter (isCompatFile fs legacy)).map compatTriple) := by
    rw [mem_sortBy, ← htriple]
    exact List.mem_map_of_mem (legacyFile_mem hd hf)
  have hsorted := compat_sorted ((hdn _ _ hd).filter (isCompatFile fs legacy))
  have hsvcs : ∀ t ∈ sortBy compatLe ((names.filter (isCompatFile fs legacy)).map compatTriple),
      t.1 ≠ c!"*" := by
    intro t ht
    rw [mem_sortBy] at ht
    obtain ⟨m, hm, rfl⟩ := List.mem_map.1 ht
    have hm := (List.mem_filter.1 hm).2
    intro he
    have hstar : '*' ∈ m := by
      unfold compatTriple parseServiceAndArgument at he
      rcases Option.eq_none_or_eq_some (splitOnce '+' m) with hx | ⟨⟨a, b⟩, hx⟩
      · rw [hx] at he; simp only at he; rw [he]; simp
      · rw [hx] at he; simp only at he
        rw [(splitOnce_eq_some.1 hx).1, he]; simp
    unfold isCompatFile at hm
    rw [Bool.and_eq_true, List.all_eq_true] at hm
    exact absurd (hm.2 '*' hstar) (by decide)
  obtain ⟨l1, l2, p, p1, p2, e1, e2, h1, h2, h3⟩ := forall₂_split hparts hmem
  have hstar : service ≠ c!"*" := hsvcs _ hmem
  rw [e1] at hsorted hsvcs
  obtain ⟨v, own, hv, hown, hcase, text, htext, hload⟩ := compatBlock_ok h2
  simp only at hv hcase htext hload
  have hv' := validateSA_named hstar (by simp) hv
  subst hv'
  rcases hcase with ⟨hbad, _⟩ | ⟨_, d1, d2, rfl, hd1, hd2, _, _⟩
  · simp at hbad
  refine ⟨p1.flatten, own, d1, d2, p2.flatten, text, ?_, htext, hload, by rw [hd1], by rw [hd2], ?_⟩
  · rw [e2]; simp
  intro req hsv harg
  have hpre : ∀ r ∈ p1.flatten, ¬ RuleMatches r req := by
    intro r hr
    obtain ⟨part, hpart, hr⟩ := List.mem_flatten.1 hr
    -- the legacy file of that rule
    obtain ⟨t, ht, hblock⟩ : ∃ t ∈ l1, compatBlock fs legacy n t = .ok part :=
      forall₂_mem_right (R := fun x p => compatBlock fs legacy n x = .ok p) h1 hpart
    have hlt : compatLt t (service, '+' :: argument, legacyName service argument) := by
      rw [List.pairwise_append] at hsorted
      exact hsorted.2.2 t ht _ (by simp)
    have htstar : t.1 ≠ c!"*" := hsvcs t (by simp [ht])
    obtain ⟨v, own', hv, hown', hcase', _⟩ := compatBlock_ok hblock
    have hfor : ForService v.1 v.2 r := by
      rcases hcase' with ⟨_, rfl⟩ | ⟨_, x1, x2, rfl, hx1, hx2, _, _⟩
      · exact (hown' r hr).1
      · rw [List.mem_append] at hr
        rcases hr with hr | hr
        · exact (hown' r hr).1
        · simp only [List.mem_cons, List.not_mem_nil, or_false] at hr
          rcases hr with rfl | rfl
          · rw [hx1]; exact ⟨rfl, rfl⟩
          · rw [hx2]; exact ⟨rfl, rfl⟩
    rintro ⟨⟨hms, hma, _⟩, _⟩
    rw [hfor.1, hsv] at hms
    rw [hfor.2, harg] at hma
    have hsrv : v.1 = some t.1 := by
      obtain ⟨hh, _⟩ := validateSA_ok.1 hv
      generalize v.1 = o at hh
      generalize t.1 = t1 at hh htstar
      cases hh with
      | any => exact absurd rfl htstar
      | name => rfl
    have hts : t.1 = service := by
      rcases hms with h | h
      · rw [hsrv] at h; simp at h
      · rw [hsrv] at h; exact Option.some.inj h
    -- same service: the argument is smaller, hence specific and different
    have hle := hlt.1
    have hne := hlt.2
    simp only [hts, true_and] at hne
    unfold compatLe at hle
    simp only [hts, beq_self_eq_true, if_true] at hle
    have hta : t.2.1 ≠ c!"*" := by
      intro hta
      rw [hta] at hle
      unfold argLe at hle
      rw [if_neg (by simp), if_pos (by rfl)] at hle
      simp at hle
    have hv2 := validateSA_named htstar hta hv
    rw [hv2] at hma
    simp only [reduceCtorEq, Option.some.injEq, false_or] at hma
    exact hne hma
  have hden : ¬ Dom0 req.source → RuleMatches d1 req ∨ RuleMatches d2 req := by
    intro hsrc
    have happ : ∀ tok, AppliesTo ⟨some service, some ('+' :: argument), .anyvm, tok, .deny true,
        legacy ++ [legacyName service argument]⟩ req := by
      intro tok
      refine ⟨Or.inr (by rw [hsv]), Or.inr (by rw [harg]), ?_⟩
      exact hsrc
    by_cases htgt : Dom0 req.target.str
    · right; rw [hd2]; exact ⟨happ _, htgt⟩
    · left; rw [hd1]; exact ⟨happ _, htgt⟩
  refine ⟨hpre, hden, ?_⟩
  intro before after p r q hsrc hfm
  have hsplit := hfm.split
  -- position of the deciding rule
  have hbefore : ∀ x ∈ p, ¬ RuleMatches x req := hfm.before
  have hhere := hfm.here
  have heq : p ++ r :: q = before ++ (p1.flatten ++ (own ++ ([d1, d2] ++ (p2.flatten ++ after)))) := by
    rw [← hsplit, e2]; simp
  rcases List.append_eq_append_iff.1 heq with ⟨x, hx1, hx2⟩ | ⟨x, hx1, hx2⟩
  · -- p is a prefix of before
    cases x with
    | nil =>
      -- r is the head of the compat part
      simp only [List.nil_append] at hx2
      right
      cases hp1 : p1.flatten with
      | cons y ys =>
        rw [hp1] at hx2
        simp only [List.cons_append, List.cons.injEq] at hx2
        exact absurd (hx2.1 ▸ hhere) (hpre y (by rw [hp1]; simp))
      | nil =>
        rw [hp1] at hx2
        cases own with
        | nil =>
          simp only [List.nil_append, List.cons_append, List.cons.injEq] at hx2
          exact Or.inr (Or.inl hx2.1)
        | cons y ys =>
          simp only [List.nil_append, List.cons_append, List.cons.injEq] at hx2
          left; rw [hx2.1]; simp
    | cons y ys =>
      simp only [List.cons_append, List.cons.injEq] at hx2
      left
      exact ⟨ys, by rw [hx1, hx2.1]⟩
  · -- before is a prefix of p
    right
    subst hx1
    -- x ++ r :: q = compat part
    rcases List.append_eq_append_iff.1 hx2 with ⟨y, hy1, hy2⟩ | ⟨y, hy1, hy2⟩
    · -- p1.flatten ++ y = x
      subst hy1
      rcases List.append_eq_append_iff.1 hy2 with ⟨z, hz1, hz2⟩ | ⟨z, hz1, hz2⟩
      · subst hz1
        cases z with
        | nil =>
          simp only [List.nil_append, List.cons_append, List.cons.injEq] at hz2
          exact Or.inr (Or.inl hz2.1.symm)
        | cons z1 zs =>
          cases zs with
          | nil =>
            simp only [List.cons_append, List.nil_append, List.cons.injEq] at hz2
            exact Or.inr (Or.inr hz2.2.1.symm)
          | cons z2 zs =>
            simp only [List.cons_append, List.nil_append, List.cons.injEq] at hz2
            exfalso
            rcases hden hsrc with hm | hm
            · exact hbefore d1 (by rw [hz2.1]; simp) hm
            · exact hbefore d2 (by rw [hz2.2.1]; simp) hm
      · cases z with
        | nil =>
          simp only [List.nil_append, List.cons_append, List.cons.injEq] at hz2
          exact Or.inr (Or.inl hz2.1)
        | cons z1 zs =>
          simp only [List.cons_append, List.cons.injEq] at hz2
          left
          rw [hz1, ← hz2.1]; simp
    · cases y with
      | nil =>
        simp only [List.nil_append] at hy2
        cases own with
        | nil =>
          simp only [List.nil_append, List.cons_append, List.cons.injEq] at hy2
          exact Or.inr (Or.inl hy2.1)
        | cons y ys =>
          simp only [List.cons_append, List.cons.injEq] at hy2
          left; rw [hy2.1]; simp
      | cons y1 ys =>
        simp only [List.cons_append, List.cons.injEq] at hy2
        exact absurd (hy2.1 ▸ hhere) (hpre y1 (by rw [hy1]; simp))

/-- Example legacy directory: a file for one argument and the general file. -/
def exLegacyFS : FS where
  resolve := id
  file p :=
    if p = [c!"old", c!"svc"] then some (.ok c!"$anyvm $anyvm allow")
    else if p = [c!"old", c!"svc+secret"] then some (.ok c!"work vault allow,user=u")
    else none
  dir p := if p = [c!"old"] then some [c!"svc", c!"svc+secret"] else none

example : (compat40 exLegacyFS [c!"old"] 1).map (List.map fun r => (r.argument, r.action)) =
    .ok [(some c!"+secret", .allow none (some c!"u") false true), (some c!"+secret", .deny true),
      (some c!"+secret", .deny true), (none, .allow none none false true)] := by decide
example : LegacyFile exLegacyFS [c!"old"] (legacyName c!"svc" c!"secret") := by
  refine ⟨⟨_, rfl, by decide⟩, by decide, ?_, by decide, ?_⟩
  · intro s hs
    rw [← endsWith_iff]
    revert s
    decide
  · intro c hc
    rw [← nameChar_iff]
    revert c
    decide

end Qrexec
