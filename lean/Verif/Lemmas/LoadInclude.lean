import Verif.Lemmas.LoadDir

namespace Qrexec
open Spec

/-! ### Fuel -/

/-- `b` is `a`, unless `a` ran out of nesting. -/
def Refines {α : Type} (a b : Except Err α) : Prop := a = .error .recursion ∨ a = b

theorem Refines.refl {α : Type} (a : Except Err α) : Refines a a := Or.inr rfl

theorem Refines.trans {α : Type} {a b c : Except Err α} (h1 : Refines a b) (h2 : Refines b c) :
    Refines a c := by
  rcases h1 with h | rfl
  · exact Or.inl h
  · exact h2

theorem Refines.bind {α β : Type} {a b : Except Err α} {f g : α → Except Err β}
    (h : Refines a b) (hfg : ∀ x, Refines (f x) (g x)) : Refines (a >>= f) (b >>= g) := by
  rcases h with rfl | rfl
  · exact Or.inl rfl
  · cases a with
    | error e => exact Or.inr rfl
    | ok x => exact hfg x

theorem Refines.collect {α : Type} {f g : α → Except Err (List Rule)}
    (hfg : ∀ x, Refines (f x) (g x)) (l : List α) :
    Refines (collectRules f l) (collectRules g l) := by
  induction l with
  | nil => exact Refines.refl _
  | cons x xs ih =>
    simp only [collectRules]
    exact Refines.bind (hfg x) fun a => Refines.bind ih fun b => Refines.refl _

theorem includeService_mono {op : Str → Except Err Opened}
    {l1 l2 : Option Str → Option Str → Opened → Except Err (List Rule)}
    (hl : ∀ s a f, Refines (l1 s a f) (l2 s a f)) (s a : Option Str) (i : Str) :
    Refines (includeService op l1 s a i) (includeService op l2 s a i) := by
  unfold includeService
  exact Refines.bind (Refines.refl _) fun sa => Refines.bind (Refines.refl _) fun f => hl _ _ f

theorem serviceLine_mono {op : Str → Except Err Opened}
    {l1 l2 : Option Str → Option Str → Opened → Except Err (List Rule)}
    (hl : ∀ s a f, Refines (l1 s a f) (l2 s a f)) (s a : Option Str) (p : Path) (line : Str) :
    Refines (serviceLine op l1 s a p line) (serviceLine op l2 s a p line) := by
  unfold serviceLine
  by_cases h1 : isCommentLine (strip line) = true
  · simp only [h1, if_true]; exact Refines.refl _
  · simp only [if_neg h1]
    by_cases h2 : startsWith c!"!" (compatSubst (strip line)) = true
    · simp only [if_pos h2]
      unfold serviceDirective
      split
      · split
        · exact includeService_mono hl _ _ _
        · exact Refines.refl _
      · exact Refines.refl _
    · simp only [if_neg h2]; exact Refines.refl _

theorem loadService_succ (op : Str → Except Err Opened) (n : Nat) :
    ∀ s a f, Refines (loadService op n s a f) (loadService op (n + 1) s a f) := by
  induction n with
  | zero => intro s a f; exact Or.inl rfl
  | succ n ih =>
    intro s a f
    rw [loadService, loadService]
    exact Refines.collect (fun line => serviceLine_mono ih s a f.2 line) f.1

theorem loadService_mono (op : Str → Except Err Opened) {n m : Nat} (h : n ≤ m) (s a : Option Str)
    (f : Opened) : Refines (loadService op n s a f) (loadService op m s a f) := by
  induction h with
  | refl => exact Refines.refl _
  | step _ ih => exact ih.trans (loadService_succ op _ s a f)

/-- More nesting never changes what `!compat-4.0` inserts. -/
def CompatMono (env : LoadEnv) : Prop := ∀ n, Refines (env.compat n) (env.compat (n + 1))

theorem fileLine_mono {env : LoadEnv} (hc : CompatMono env) {n : Nat}
    {l1 l2 : Opened → Except Err (List Rule)} (hl : ∀ f, Refines (l1 f) (l2 f)) (p : Path)
    (line : Str) : Refines (fileLine env n l1 p line) (fileLine env (n + 1) l2 p line) := by
  unfold fileLine
  by_cases h1 : isCommentLine (strip line) = true
  · simp only [h1, if_true]; exact Refines.refl _
  · simp only [if_neg h1]
    by_cases h2 : startsWith c!"!" (strip line) = true
    · simp only [if_pos h2]
      cases splitWs (strip line) with
      | nil => exact Refines.refl _
      | cons d ps =>
        simp only [fileDirective]
        split
        · split
          · exact Refines.bind (Refines.refl _) hl
          · exact Refines.refl _
        · split
          · split
            · exact Refines.bind (Refines.refl _) fun fs =>
                Refines.collect (fun f => Refines.bind (Refines.refl _) hl) fs
            · exact Refines.refl _
          · split
            · split
              · exact includeService_mono (loadService_succ env.openFile n) _ _ _
              · exact Refines.refl _
            · split
              · split
                · exact hc n
                · exact Refines.refl _
              · exact Refines.refl _
    · simp only [if_neg h2]; exact Refines.refl _

theorem loadFile_succ {env : LoadEnv} (hc : CompatMono env) (n : Nat) :
    ∀ f, Refines (loadFile env n f) (loadFile env (n + 1) f) := by
  induction n with
  | zero => intro f; exact Or.inl rfl
  | succ n ih =>
    intro f
    rw [loadFile, loadFile]
    exact Refines.collect (fun line => fileLine_mono hc ih f.2 line) f.1

theorem loadFile_mono {env : LoadEnv} (hc : CompatMono env) {n m : Nat} (h : n ≤ m) (f : Opened) :
    Refines (loadFile env n f) (loadFile env m f) := by
  induction h with
  | refl => exact Refines.refl _
  | step _ ih => exact ih.trans (loadFile_succ hc _ f)

theorem compat40_succ (fs : FS) (legacy : Path) (n : Nat) :
    Refines (compat40 fs legacy n) (compat40 fs legacy (n + 1)) := by
  unfold compat40
  refine Refines.bind (Refines.refl _) fun files => Refines.collect (fun f => ?_) files
  unfold compatBlock
  exact Refines.bind (Refines.refl _) fun sa => Refines.bind (Refines.refl _) fun o =>
    Refines.bind (loadService_succ _ n _ _ o) fun rules => Refines.refl _

theorem policyEnv_compatMono (fs : FS) (legacy base : Path) :
    CompatMono (policyEnv fs legacy base) := fun n => compat40_succ fs legacy n

theorem loadPolicyDirs_mono (fs : FS) (legacy : Path) (dirs : List Path) {n m : Nat} (h : n ≤ m) :
    Refines (loadPolicyDirs fs legacy dirs n) (loadPolicyDirs fs legacy dirs m) := by
  unfold loadPolicyDirs
  refine Refines.bind (Refines.refl _) fun files => Refines.collect (fun f => ?_) _
  unfold loadTopFile
  exact Refines.bind (Refines.refl _) fun o => loadFile_mono (policyEnv_compatMono _ _ _) h o

/-! ### The file path does not matter -/

/-- The rule without its file path. -/
def Rule.noPath (r : Rule) : Rule := { r with filepath := [] }

theorem mkRule_path (s a : Option Str) (src tgt act : Str) (ps : List Str) (p q : List Str) :
    (mkRule s a src tgt act ps p).map Rule.noPath =
      (mkRule s a src tgt act ps q).map Rule.noPath := by
  unfold mkRule
  cases validateServiceAndArgument s a with
  | error e => rfl
  | ok sa =>
    simp only [ok_bind]
    cases parseToken .source src with
    | error e => rfl
    | ok src =>
      simp only [ok_bind]
      cases parseToken .target tgt with
      | error e => rfl
      | ok tgt =>
        simp only [ok_bind]
        cases parseAction act ps with
        | error e => rfl
        | ok act =>
          simp only [ok_bind]
          cases require (!(tgt == .default && allowWithoutTarget act)) .policySyntax with
          | error e => rfl
          | ok u => rfl

theorem ruleFromLine_path (line : Str) (p q : List Str) :
    (ruleFromLine line p).map Rule.noPath = (ruleFromLine line q).map Rule.noPath := by
  unfold ruleFromLine
  split
  · exact mkRule_path _ _ _ _ _ _ _ _
  · rfl

theorem collect_path {f g : Str → Except Err (List Rule)}
    (h : ∀ l, (f l).map (List.map Rule.noPath) = (g l).map (List.map Rule.noPath))
    (ls : List Str) :
    (collectRules f ls).map (List.map Rule.noPath) =
      (collectRules g ls).map (List.map Rule.noPath) := by
  induction ls with
  | nil => rfl
  | cons l ls ih =>
    have h1 := h l
    simp only [collectRules]
    generalize f l = a at *
    generalize g l = b at *
    generalize collectRules f ls = x at *
    generalize collectRules g ls = y at *
    cases a <;> cases b <;> cases x <;> cases y <;> simp_all [Except.map]

theorem fileLine_path {env : LoadEnv} {n : Nat} {load : Opened → Except Err (List Rule)}
    (p q : Path) (l : Str) :
    (fileLine env n load p l).map (List.map Rule.noPath) =
      (fileLine env n load q l).map (List.map Rule.noPath) := by
  unfold fileLine
  by_cases h1 : isCommentLine (strip l) = true
  · simp only [h1, if_true]
  · simp only [if_neg h1]
    by_cases h2 : startsWith c!"!" (strip l) = true
    · simp only [if_pos h2]
    · simp only [if_neg h2]
      have := ruleFromLine_path (strip l) p q
      generalize ruleFromLine (strip l) p = a at *
      generalize ruleFromLine (strip l) q = b at *
      cases a <;> cases b <;> simp_all [Except.map]

/-- Apart from the recorded path, a file's rules do not depend on the path it is loaded
under. -/
theorem loadFile_path (env : LoadEnv) (n : Nat) (ls : List Str) (p q : Path) :
    (loadFile env n (ls, p)).map (List.map Rule.noPath) =
      (loadFile env n (ls, q)).map (List.map Rule.noPath) := by
  cases n with
  | zero => rfl
  | succ n => exact collect_path (fileLine_path p q) ls

/-! ### Directive lines -/

theorem words_bang {line d : Str} {ws : List Str} (h : Words line (('!' :: d) :: ws)) :
    isCommentLine (strip line) = false ∧ startsWith c!"!" (strip line) = true := by
  rw [isCommentLine_strip, startsBang_strip, splitWs_of_words h]
  exact ⟨rfl, by simp [startsWith, List.isPrefixOf]⟩

theorem fileLine_directive {env : LoadEnv} {n : Nat} {load : Opened → Except Err (List Rule)}
    {p : Path} {line d : Str} {ws : List Str} (h : Words line (('!' :: d) :: ws)) :
    fileLine env n load p line = fileDirective env n load (('!' :: d) :: ws) := by
  unfold fileLine
  simp only [(words_bang h).1, (words_bang h).2, splitWs_strip, splitWs_of_words h, if_true]
  rfl

theorem loadFile_append (env : LoadEnv) (n : Nat) (l1 l2 : List Str) (p : Path) :
    loadFile env (n + 1) (l1 ++ l2, p) =
      (do let a ← loadFile env (n + 1) (l1, p)
          let b ← loadFile env (n + 1) (l2, p)
          return a ++ b) := collectRules_append _ l1 l2

end Qrexec
