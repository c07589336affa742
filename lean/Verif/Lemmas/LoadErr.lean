import Verif.Lemmas.LoadInclude
import Verif.Lemmas.Eval

namespace Qrexec
open Spec

/-! ### Which exceptions loading can raise -/

/-- All exceptions of `x` satisfy `P`. -/
def ErrsIn {α : Type} (P : Err → Prop) (x : Except Err α) : Prop := ∀ e, x = .error e → P e

theorem ErrsIn.ok {α : Type} {P : Err → Prop} (a : α) : ErrsIn P (.ok a) := by
  intro e h; simp at h

theorem ErrsIn.bind {α β : Type} {P : Err → Prop} {x : Except Err α} {f : α → Except Err β}
    (h1 : ErrsIn P x) (h2 : ∀ a, x = .ok a → ErrsIn P (f a)) : ErrsIn P (x >>= f) := by
  intro e h
  rcases bind_eq_error.1 h with h | ⟨a, ha, h⟩
  · exact h1 e h
  · exact h2 a ha e h

theorem ErrsIn.collect {α : Type} {P : Err → Prop} {f : α → Except Err (List Rule)} {l : List α}
    (h : ∀ x ∈ l, ErrsIn P (f x)) : ErrsIn P (collectRules f l) := by
  intro e he
  obtain ⟨x, hx, h'⟩ := collectRules_error he
  exact h x hx e h'

theorem ErrsIn.error {α : Type} {P : Err → Prop} {e : Err} (h : P e) :
    ErrsIn P (.error e : Except Err α) := by
  intro e' he; cases he; exact h

theorem loadService_errs {P : Err → Prop} (hs : P .policySyntax) (hr : P .recursion)
    {op : Str → Except Err Opened} (hop : ∀ i, ErrsIn P (op i)) (n : Nat) :
    ∀ s a f, ErrsIn P (loadService op n s a f) := by
  induction n with
  | zero => intro s a f; exact ErrsIn.error hr
  | succ n ih =>
    intro s a f
    refine ErrsIn.collect fun line _ => ?_
    unfold serviceLine
    by_cases h1 : isCommentLine (strip line) = true
    · simp only [h1, if_true]; exact ErrsIn.ok _
    · simp only [if_neg h1]
      by_cases h2 : startsWith c!"!" (compatSubst (strip line)) = true
      · simp only [if_pos h2]
        unfold serviceDirective
        split
        · split
          · unfold includeService
            refine ErrsIn.bind ?_ fun sa _ => ErrsIn.bind (hop _) fun f _ => ih _ _ f
            intro e he; rw [validateSA_error he]; exact hs
          · exact ErrsIn.error hs
        · exact ErrsIn.error hs
      · simp only [if_neg h2]
        refine ErrsIn.bind ?_ fun r _ => ErrsIn.ok _
        intro e he; rw [ruleFromLineService_error he]; exact hs

theorem loadFile_errs {P : Err → Prop} (hs : P .policySyntax) (hr : P .recursion)
    {env : LoadEnv} (hop : ∀ i, ErrsIn P (env.openFile i)) (hdir : ∀ i, ErrsIn P (env.openDir i))
    (hdf : ∀ i l, env.openDir i = .ok l → ∀ x ∈ l, ErrsIn P x)
    (hc : ∀ n, ErrsIn P (env.compat n)) (n : Nat) : ∀ f, ErrsIn P (loadFile env n f) := by
  induction n with
  | zero => intro f; exact ErrsIn.error hr
  | succ n ih =>
    intro f
    refine ErrsIn.collect fun line _ => ?_
    unfold fileLine
    by_cases h1 : isCommentLine (strip line) = true
    · simp only [h1, if_true]; exact ErrsIn.ok _
    · simp only [if_neg h1]
      by_cases h2 : startsWith c!"!" (strip line) = true
      · simp only [if_pos h2]
        cases splitWs (strip line) with
        | nil => exact ErrsIn.error hs
        | cons d ps =>
          simp only [fileDirective]
          split
          · split
            · exact ErrsIn.bind (hop _) fun f _ => ih f
            · exact ErrsIn.error hs
          · split
            · split
              · refine ErrsIn.bind (hdir _) fun l hl => ErrsIn.collect fun x hx => ?_
                exact ErrsIn.bind (hdf _ l hl x hx) fun f _ => ih f
              · exact ErrsIn.error hs
            · split
              · split
                · unfold includeService
                  refine ErrsIn.bind ?_ fun sa _ => ErrsIn.bind (hop _) fun f _ =>
                    loadService_errs hs hr hop n _ _ f
                  intro e he; rw [validateSA_error he]; exact hs
                · exact ErrsIn.error hs
              · split
                · split
                  · exact hc n
                  · exact ErrsIn.error hs
                · exact ErrsIn.error hs
      · simp only [if_neg h2]
        refine ErrsIn.bind ?_ fun r _ => ErrsIn.ok _
        intro e he; rw [ruleFromLine_error he]; exact hs

/-- The exceptions loading from `fs` can raise before `OSError` is wrapped. -/
def LoadErr (fs : FS) (e : Err) : Prop :=
  e = .policySyntax ∨ e = .accessDenied true ∨ e = .osError ∨ e = .recursion ∨
    ∃ p, fs.file p = some (.error e)

theorem openText_errs {fs : FS} {p : Path} {r : Except Err Str} (h : fs.file p = some r)
    (q : Path) : ErrsIn (LoadErr fs)
      (r >>= fun t => (Except.ok (fileLines t, q) : Except Err Opened)) := by
  refine ErrsIn.bind ?_ fun t _ => ErrsIn.ok _
  intro e he
  subst he
  exact Or.inr (Or.inr (Or.inr (Or.inr ⟨p, h⟩)))

theorem resolveFilepath_errs (fs : FS) (base : Path) (i : Str) :
    ErrsIn (LoadErr fs) (resolveFilepath fs base i) := by
  unfold resolveFilepath
  simp only
  rcases Option.eq_none_or_eq_some (fs.file (fs.resolve (joinPath base i))) with h | ⟨r, h⟩
  · rw [h]; exact ErrsIn.error (Or.inl rfl)
  · rw [h]; exact openText_errs h _

theorem openPath_errs (fs : FS) (p : Path) : ErrsIn (LoadErr fs) (openPath fs p) := by
  unfold openPath
  rcases Option.eq_none_or_eq_some (fs.file p) with h | ⟨r, h⟩
  · rw [h]; exact ErrsIn.error (Or.inr (Or.inr (Or.inl rfl)))
  · rw [h]; exact openText_errs h _

theorem filterFilepaths_errs (fs : FS) (d : Path) (names : List Str) :
    ErrsIn (LoadErr fs) (filterFilepaths fs d names) := by
  intro e he; rw [filterFilepaths_error he]; exact Or.inr (Or.inl rfl)

theorem compat40_errs (fs : FS) (legacy : Path) (n : Nat) :
    ErrsIn (LoadErr fs) (compat40 fs legacy n) := by
  unfold compat40
  refine ErrsIn.bind ?_ fun files _ => ErrsIn.collect fun f _ => ?_
  · unfold walkCompat
    split
    · exact ErrsIn.error (Or.inr (Or.inr (Or.inl rfl)))
    · exact ErrsIn.ok _
  · unfold compatBlock
    simp only
    refine ErrsIn.bind ?_ fun sa _ => ?_
    · intro e he; rw [validateSA_error he]; exact Or.inl rfl
    refine ErrsIn.bind ?_ fun o _ => ?_
    · rcases Option.eq_none_or_eq_some (fs.file (fs.resolve (legacy ++ [f.2.2]))) with h | ⟨r, h⟩
      · rw [h]; exact ErrsIn.error (Or.inl rfl)
      · rw [h]; exact openText_errs h _
    refine ErrsIn.bind ?_ fun rules _ => ?_
    · exact loadService_errs (Or.inl rfl) (Or.inr (Or.inr (Or.inr (Or.inl rfl))))
        (resolveFilepath_errs fs legacy) n _ _ o
    split
    · exact ErrsIn.ok _
    · refine ErrsIn.bind ?_ fun _ _ => ErrsIn.bind ?_ fun _ _ => ErrsIn.ok _
      · intro e he; rw [ruleFromLineService_error he]; exact Or.inl rfl
      · intro e he; rw [ruleFromLineService_error he]; exact Or.inl rfl

theorem loadTopFile_errs (fs : FS) (legacy : Path) (n : Nat) (f : Path × Str) :
    ErrsIn (LoadErr fs) (loadTopFile fs legacy n f) := by
  unfold loadTopFile
  refine ErrsIn.bind (openPath_errs fs _) fun o _ => ?_
  refine loadFile_errs (Or.inl rfl) (Or.inr (Or.inr (Or.inr (Or.inl rfl))))
    (resolveFilepath_errs fs f.1) ?_ ?_ (compat40_errs fs legacy) n o
  · intro i
    change ErrsIn _ (resolveDir fs f.1 i)
    unfold resolveDir
    simp only
    split
    · exact ErrsIn.error (Or.inl rfl)
    · exact ErrsIn.bind (filterFilepaths_errs _ _ _) fun _ _ => ErrsIn.ok _
  · intro i l hl x hx
    change resolveDir fs f.1 i = .ok l at hl
    unfold resolveDir at hl
    simp only at hl
    split at hl
    · simp at hl
    · simp only [bind_eq_ok, pure_ok, Except.ok.injEq] at hl
      obtain ⟨files, _, rfl⟩ := hl
      obtain ⟨n, _, rfl⟩ := List.mem_map.1 hx
      exact openPath_errs fs _

/-! ### Every loaded rule came out of the rule parser -/

/-- All rules of a successful load satisfy `P`. -/
def RulesIn (P : Rule → Prop) (x : Except Err (List Rule)) : Prop :=
  ∀ rules, x = .ok rules → ∀ r ∈ rules, P r

theorem RulesIn.nil {P : Rule → Prop} : RulesIn P (.ok []) := by
  intro rules h r hr; cases h; simp at hr

theorem RulesIn.error {P : Rule → Prop} {e : Err} : RulesIn P (.error e) := by
  intro rules h; simp at h

theorem RulesIn.bind {α : Type} {P : Rule → Prop} {x : Except Err α}
    {f : α → Except Err (List Rule)} (h : ∀ a, x = .ok a → RulesIn P (f a)) :
    RulesIn P (x >>= f) := by
  intro rules hr
  obtain ⟨a, ha, h'⟩ := bind_eq_ok.1 hr
  exact h a ha rules h'

theorem RulesIn.collect {α : Type} {P : Rule → Prop} {f : α → Except Err (List Rule)}
    {l : List α} (h : ∀ x ∈ l, RulesIn P (f x)) : RulesIn P (collectRules f l) := by
  intro rules hr
  obtain ⟨parts, hp, rfl⟩ := collectRules_ok.1 hr
  clear hr
  induction hp with
  | nil => intro r hr; simp at hr
  | cons ha _ ih =>
    intro r hr
    rw [List.flatten_cons, List.mem_append] at hr
    rcases hr with hr | hr
    · exact h _ (by simp) _ ha r hr
    · exact ih (fun x hx => h x (by simp [hx])) r hr

theorem RulesIn.single {P : Rule → Prop} {x : Except Err Rule}
    (h : ∀ r, x = .ok r → P r) :
    RulesIn P (x >>= fun r => (.ok [r] : Except Err (List Rule))) := by
  refine RulesIn.bind fun r hr => ?_
  intro rules he r' hr'
  cases he
  rw [List.mem_singleton] at hr'
  subst hr'
  exact h r' hr

/-- The service and argument of a rule of a service file. -/
def ForService (s a : Option Str) (r : Rule) : Prop := r.service = s ∧ r.argument = a

theorem validateSA_idem {s a : Option Str} {p : Option Str × Option Str}
    (h : validateServiceAndArgument s a = .ok p) :
    validateServiceAndArgument p.1 p.2 = .ok p := by
  unfold validateServiceAndArgument at h ⊢
  simp only [bind_eq_ok, require_eq_ok, pure_ok, Except.ok.injEq, exists_and_left,
    exists_const] at h
  obtain ⟨h1, h2, h3, h4, rfl⟩ := h
  have e1 : ∀ o : Option Str, (if (if (o == some c!"*") = true then none else o) == some c!"*" then
      (none : Option Str) else (if (o == some c!"*") = true then none else o)) =
      (if (o == some c!"*") = true then none else o) := by
    intro o
    by_cases h : (o == some c!"*") = true
    · simp [h]
    · simp [h]
  simp only [e1, bind_eq_ok, require_eq_ok, pure_ok, exists_and_left, exists_const]
  exact ⟨h1, h2, h3, h4, trivial⟩

theorem mkRule_for {s a : Option Str} {p : Option Str × Option Str}
    (hv : validateServiceAndArgument s a = .ok p) {src tgt act : Str} {ps : List Str}
    {path : List Str} {r : Rule} (h : mkRule s a src tgt act ps path = .ok r) :
    ForService p.1 p.2 r ∧ IsRule r := by
  refine ⟨?_, ⟨_, _, _, _, _, _, _, h⟩⟩
  unfold mkRule at h
  rw [hv] at h
  simp only [ok_bind, bind_eq_ok, pure_ok, Except.ok.injEq] at h
  obtain ⟨_, _, _, _, _, _, _, _, rfl⟩ := h
  exact ⟨rfl, rfl⟩

theorem loadService_rules {op : Str → Except Err Opened} (n : Nat) :
    ∀ {s a : Option Str} (_ : validateServiceAndArgument s a = .ok (s, a)) (f : Opened),
      RulesIn (fun r => ForService s a r ∧ IsRule r) (loadService op n s a f) := by
  induction n with
  | zero => intro s a _ f; exact RulesIn.error
  | succ n ih =>
    intro s a hv f
    refine RulesIn.collect fun line _ => ?_
    unfold serviceLine
    by_cases h1 : isCommentLine (strip line) = true
    · simp only [h1, if_true]; exact RulesIn.nil
    · simp only [if_neg h1]
      by_cases h2 : startsWith c!"!" (compatSubst (strip line)) = true
      · simp only [if_pos h2]
        unfold serviceDirective
        split
        · split
          · unfold includeService
            rw [hv]
            exact RulesIn.bind fun sa hsa => RulesIn.bind fun f _ => by
              cases hsa; exact ih hv f
          · exact RulesIn.error
        · exact RulesIn.error
      · simp only [if_neg h2]
        refine RulesIn.single fun r hr => ?_
        unfold ruleFromLineService at hr
        split at hr
        · split at hr
          · exact mkRule_for hv hr
          · simp at hr
        · simp at hr

theorem RulesIn.mono {P Q : Rule → Prop} (h : ∀ r, P r → Q r) {x : Except Err (List Rule)}
    (hx : RulesIn P x) : RulesIn Q x := fun rules hr r hm => h r (hx rules hr r hm)

theorem loadFile_rules {env : LoadEnv} (hc : ∀ n, RulesIn IsRule (env.compat n)) (n : Nat) :
    ∀ f, RulesIn IsRule (loadFile env n f) := by
  induction n with
  | zero => intro f; exact RulesIn.error
  | succ n ih =>
    intro f
    refine RulesIn.collect fun line _ => ?_
    unfold fileLine
    by_cases h1 : isCommentLine (strip line) = true
    · simp only [h1, if_true]; exact RulesIn.nil
    · simp only [if_neg h1]
      by_cases h2 : startsWith c!"!" (strip line) = true
      · simp only [if_pos h2]
        cases splitWs (strip line) with
        | nil => exact RulesIn.error
        | cons d ps =>
          simp only [fileDirective]
          split
          · split
            · exact RulesIn.bind fun f _ => ih f
            · exact RulesIn.error
          · split
            · split
              · exact RulesIn.bind fun l _ => RulesIn.collect fun x _ => RulesIn.bind fun f _ => ih f
              · exact RulesIn.error
            · split
              · split
                · unfold includeService
                  refine RulesIn.bind fun sa hsa => RulesIn.bind fun f _ => ?_
                  exact (loadService_rules n (validateSA_idem hsa) f).mono fun r h => h.2
                · exact RulesIn.error
              · split
                · split
                  · exact hc n
                  · exact RulesIn.error
                · exact RulesIn.error
      · simp only [if_neg h2]
        refine RulesIn.single fun r hr => ?_
        unfold ruleFromLine at hr
        split at hr
        · exact ⟨_, _, _, _, _, _, _, hr⟩
        · simp at hr

/-- The parts of a successfully loaded legacy file: its rules and, for a specific argument,
two deny rules. -/
theorem compatBlock_ok {fs : FS} {legacy : Path} {n : Nat} {f : Str × Str × Str}
    {rules : List Rule} (h : compatBlock fs legacy n f = .ok rules) :
    ∃ p own, validateServiceAndArgument (some f.1) (some f.2.1) = .ok p ∧
      (∀ r ∈ own, ForService p.1 p.2 r ∧ IsRule r) ∧
      ((f.2.1 = c!"*" ∧ rules = own) ∨
       (f.2.1 ≠ c!"*" ∧ ∃ d1 d2, rules = own ++ [d1, d2] ∧
          d1 = ⟨p.1, p.2, .anyvm, .anyvm, .deny true, legacy ++ [f.2.2]⟩ ∧
          d2 = ⟨p.1, p.2, .anyvm, .adminvm, .deny true, legacy ++ [f.2.2]⟩ ∧
          IsRule d1 ∧ IsRule d2)) ∧
      ∃ text, fs.file (fs.resolve (legacy ++ [f.2.2])) = some (.ok text) ∧
        loadService (resolveFilepath fs legacy) n p.1 p.2
          (fileLines text, fs.resolve (legacy ++ [f.2.2])) = .ok own := by
  unfold compatBlock at h
  simp only [bind_eq_ok, pure_ok] at h
  obtain ⟨p, hp, o, ho, own, hown, h⟩ := h
  have hr := loadService_rules n (validateSA_idem hp) o own hown
  have ho' : ∃ text, fs.file (fs.resolve (legacy ++ [f.2.2])) = some (.ok text) ∧
      o = (fileLines text, fs.resolve (legacy ++ [f.2.2])) := by
    rcases Option.eq_none_or_eq_some (fs.file (fs.resolve (legacy ++ [f.2.2]))) with hf | ⟨r, hf⟩
    · rw [hf] at ho; simp at ho
    · rw [hf] at ho
      simp only [bind_eq_ok, Except.ok.injEq] at ho
      obtain ⟨t, rfl, rfl⟩ := ho
      exact ⟨t, hf, rfl⟩
  obtain ⟨text, htext, rfl⟩ := ho'
  refine ⟨p, own, hp, hr, ?_, text, htext, hown⟩
  by_cases hs : f.2.1 = c!"*"
  · left
    rw [if_pos (by simpa using hs)] at h
    exact ⟨hs, (Except.ok.inj h).symm⟩
  · right
    rw [if_neg (by simpa using hs)] at h
    simp only [bind_eq_ok, Except.ok.injEq] at h
    obtain ⟨d1, h1, d2, h2, rfl⟩ := h
    refine ⟨hs, d1, d2, rfl, ?_⟩
    have e1 : ruleFromLineService (some f.1) (some f.2.1) c!"@anyvm @anyvm deny"
        (legacy ++ [f.2.2]) = mkRule (some f.1) (some f.2.1) c!"@anyvm" c!"@anyvm" c!"deny" []
        (legacy ++ [f.2.2]) := rfl
    have e2 : ruleFromLineService (some f.1) (some f.2.1) c!"@anyvm @adminvm deny"
        (legacy ++ [f.2.2]) = mkRule (some f.1) (some f.2.1) c!"@anyvm" c!"@adminvm" c!"deny" []
        (legacy ++ [f.2.2]) := rfl
    rw [e1] at h1
    rw [e2] at h2
    refine ⟨?_, ?_, ⟨_, _, _, _, _, _, _, h1⟩, ⟨_, _, _, _, _, _, _, h2⟩⟩
    · unfold mkRule at h1
      rw [hp] at h1
      exact (Except.ok.inj h1).symm
    · unfold mkRule at h2
      rw [hp] at h2
      exact (Except.ok.inj h2).symm

theorem compat40_rules (fs : FS) (legacy : Path) (n : Nat) :
    RulesIn IsRule (compat40 fs legacy n) := by
  unfold compat40
  refine RulesIn.bind fun files _ => RulesIn.collect fun f _ => ?_
  intro rules h r hr
  obtain ⟨p, own, _, h1, h2, _⟩ := compatBlock_ok h
  rcases h2 with ⟨_, rfl⟩ | ⟨_, d1, d2, rfl, _, _, i1, i2⟩
  · exact (h1 r hr).2
  · rw [List.mem_append] at hr
    rcases hr with hr | hr
    · exact (h1 r hr).2
    · simp only [List.mem_cons, List.not_mem_nil, or_false] at hr
      rcases hr with rfl | rfl
      · exact i1
      · exact i2

theorem wrapOSError_ok {α : Type} {x : Except Err α} {a : α} : wrapOSError x = .ok a ↔ x = .ok a := by
  unfold wrapOSError
  split <;> simp_all

theorem filePolicy_rules (fs : FS) (legacy : Path) (dirs : List Path) (n : Nat) :
    RulesIn IsRule (filePolicy fs legacy dirs n) := by
  intro rules h
  suffices hx : RulesIn IsRule (loadPolicyDirs fs legacy dirs n) from
    hx rules (wrapOSError_ok.1 h)
  unfold loadPolicyDirs
  refine RulesIn.bind fun files _ => RulesIn.collect fun f _ => ?_
  unfold loadTopFile
  exact RulesIn.bind fun o _ => loadFile_rules (compat40_rules fs legacy) n o

end Qrexec
