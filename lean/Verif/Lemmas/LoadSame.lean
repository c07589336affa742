import Verif.Lemmas.Load

namespace Qrexec
open Spec

/-- Two opened files with the same path and content. -/
def SameOpened (a b : Opened) : Prop :=
  a.2 = b.2 ∧ ∃ c, Content a.1 c ∧ Content b.1 c

/-- The same exception, or related values. -/
def SameRes {α : Type} (R : α → α → Prop) (a b : Except Err α) : Prop :=
  (∃ e, a = .error e ∧ b = .error e) ∨ ∃ x y, a = .ok x ∧ b = .ok y ∧ R x y

theorem sameOpened_refl (a : Opened) : SameOpened a a := by
  obtain ⟨c, hc⟩ := content_exists a.1
  exact ⟨rfl, c, hc, hc⟩

theorem sameRes_bind {α β : Type} {R : α → α → Prop} {a b : Except Err α}
    {f g : α → Except Err β} (h : SameRes R a b) (hfg : ∀ x y, R x y → f x = g y) :
    (a >>= f) = (b >>= g) := by
  rcases h with ⟨e, rfl, rfl⟩ | ⟨x, y, rfl, rfl, hr⟩
  · rfl
  · exact hfg x y hr

theorem includeService_same {op1 op2 : Str → Except Err Opened}
    {load1 load2 : Option Str → Option Str → Opened → Except Err (List Rule)}
    (hop : ∀ i, SameRes SameOpened (op1 i) (op2 i))
    (hl : ∀ s a f g, SameOpened f g → load1 s a f = load2 s a g) (s a : Option Str) (i : Str) :
    includeService op1 load1 s a i = includeService op2 load2 s a i := by
  unfold includeService
  cases validateServiceAndArgument s a with
  | error e => rfl
  | ok sa =>
    simp only [ok_bind]
    exact sameRes_bind (hop i) fun x y hxy => hl _ _ x y hxy

theorem serviceDirective_same {op1 op2 : Str → Except Err Opened}
    {load1 load2 : Option Str → Option Str → Opened → Except Err (List Rule)}
    (hop : ∀ i, SameRes SameOpened (op1 i) (op2 i))
    (hl : ∀ s a f g, SameOpened f g → load1 s a f = load2 s a g) (s a : Option Str)
    (ws : List Str) :
    serviceDirective op1 load1 s a ws = serviceDirective op2 load2 s a ws := by
  unfold serviceDirective
  split
  · rw [includeService_same hop hl]
  · rfl

theorem loadService_same {op1 op2 : Str → Except Err Opened}
    (hop : ∀ i, SameRes SameOpened (op1 i) (op2 i)) (n : Nat) :
    ∀ s a f g, SameOpened f g → loadService op1 n s a f = loadService op2 n s a g := by
  induction n with
  | zero => intros; rfl
  | succ n ih =>
    rintro s a ⟨fl, fp⟩ ⟨gl, gp⟩ ⟨hp, c, h1, h2⟩
    simp only at hp h1 h2
    subst hp
    simp only [loadService]
    refine collect_content (fun l hl => serviceLine_comment hl)
      (fun l hl => serviceLine_comment hl) ?_ h1 h2
    intro x y hxy
    rw [serviceLine_words hxy]
    unfold serviceLine
    simp only [serviceDirective_same hop ih]

/-- Two loaders that behave the same up to spacing and comments. -/
structure SameEnv (e1 e2 : LoadEnv) : Prop where
  openFile : ∀ i, SameRes SameOpened (e1.openFile i) (e2.openFile i)
  openDir : ∀ i, SameRes (List.Forall₂ (SameRes SameOpened)) (e1.openDir i) (e2.openDir i)
  compat : ∀ n, e1.compat n = e2.compat n

theorem collectRules_forall₂ {α β : Type} {R : α → β → Prop} {f : α → Except Err (List Rule)}
    {g : β → Except Err (List Rule)} (h : ∀ a b, R a b → f a = g b) {l1 : List α} {l2 : List β}
    (hl : List.Forall₂ R l1 l2) : collectRules f l1 = collectRules g l2 := by
  induction hl with
  | nil => rfl
  | cons hab _ ih => simp only [collectRules, h _ _ hab, ih]

theorem fileDirective_same {e1 e2 : LoadEnv} (he : SameEnv e1 e2) (n : Nat)
    {load1 load2 : Opened → Except Err (List Rule)}
    (hl : ∀ f g, SameOpened f g → load1 f = load2 g) (ws : List Str) :
    fileDirective e1 n load1 ws = fileDirective e2 n load2 ws := by
  cases ws with
  | nil => rfl
  | cons d ps =>
    simp only [fileDirective]
    by_cases h1 : (d == c!"!include") = true
    · rw [if_pos h1, if_pos h1]
      split
      · exact sameRes_bind (he.openFile _) hl
      · rfl
    · rw [if_neg h1, if_neg h1]
      by_cases h2 : (d == c!"!include-dir") = true
      · rw [if_pos h2, if_pos h2]
        split
        · refine sameRes_bind (he.openDir _) fun x y hxy => ?_
          exact collectRules_forall₂ (fun a b hab => sameRes_bind hab hl) hxy
        · rfl
      · rw [if_neg h2, if_neg h2]
        by_cases h3 : (d == c!"!include-service") = true
        · rw [if_pos h3, if_pos h3]
          split
          · exact includeService_same he.openFile (loadService_same he.openFile n) _ _ _
          · rfl
        · rw [if_neg h3, if_neg h3]
          simp only [he.compat]

theorem loadFile_same {e1 e2 : LoadEnv} (he : SameEnv e1 e2) (n : Nat) :
    ∀ f g, SameOpened f g → loadFile e1 n f = loadFile e2 n g := by
  induction n with
  | zero => intros; rfl
  | succ n ih =>
    rintro ⟨fl, fp⟩ ⟨gl, gp⟩ ⟨hp, c, h1, h2⟩
    simp only at hp h1 h2
    subst hp
    simp only [loadFile]
    refine collect_content (fun l hl => fileLine_comment hl)
      (fun l hl => fileLine_comment hl) ?_ h1 h2
    intro x y hxy
    rw [fileLine_words hxy]
    unfold fileLine
    simp only [fileDirective_same he n ih]

/-- Opening a file of two file systems that differ in spacing only. -/
theorem openText_same {x y : Except Err Str} {p : Path} (h : SameContent x y) :
    SameRes SameOpened (x >>= fun t => Except.ok (fileLines t, p))
      (y >>= fun t => Except.ok (fileLines t, p)) := by
  rcases h with rfl | ⟨ta, tb, c, rfl, rfl, h1, h2⟩
  · cases x with
    | error e => exact Or.inl ⟨e, rfl, rfl⟩
    | ok t => exact Or.inr ⟨_, _, rfl, rfl, sameOpened_refl _⟩
  · exact Or.inr ⟨_, _, rfl, rfl, rfl, c, h1, h2⟩

theorem resolveFilepath_same {a b : FS} (h : SameFiles a b) (base : Path) (i : Str) :
    SameRes SameOpened (resolveFilepath a base i) (resolveFilepath b base i) := by
  unfold resolveFilepath
  simp only [h.resolve]
  rcases h.file (b.resolve (joinPath base i)) with ⟨h1, h2⟩ | ⟨x, y, h1, h2, h3⟩
  · rw [h1, h2]; exact Or.inl ⟨_, rfl, rfl⟩
  · rw [h1, h2]; exact openText_same h3

theorem openPath_same {a b : FS} (h : SameFiles a b) (p : Path) :
    SameRes SameOpened (openPath a p) (openPath b p) := by
  unfold openPath
  rcases h.file p with ⟨h1, h2⟩ | ⟨x, y, h1, h2, h3⟩
  · rw [h1, h2]; exact Or.inl ⟨_, rfl, rfl⟩
  · rw [h1, h2]; exact openText_same h3

theorem file_isSome_same {a b : FS} (h : SameFiles a b) (p : Path) :
    (a.file p).isSome = (b.file p).isSome := by
  rcases h.file p with ⟨h1, h2⟩ | ⟨x, y, h1, h2, h3⟩ <;> rw [h1, h2] <;> rfl

theorem filterFilepaths_same {a b : FS} (h : SameFiles a b) (d : Path) (names : List Str) :
    filterFilepaths a d names = filterFilepaths b d names := by
  have : isPolicyFile a d = isPolicyFile b d := by
    funext n; unfold isPolicyFile; rw [file_isSome_same h]
  unfold filterFilepaths; rw [this]

theorem forall₂_map_same {α β : Type} {R : β → β → Prop} {f g : α → β} (h : ∀ x, R (f x) (g x))
    (l : List α) : List.Forall₂ R (l.map f) (l.map g) := by
  induction l with
  | nil => exact .nil
  | cons x xs ih => exact .cons (h x) ih

theorem resolveDir_same {a b : FS} (h : SameFiles a b) (base : Path) (i : Str) :
    SameRes (List.Forall₂ (SameRes SameOpened)) (resolveDir a base i) (resolveDir b base i) := by
  unfold resolveDir
  rw [h.resolve, h.dir]
  simp only
  cases b.dir (b.resolve (joinPath base i)) with
  | none => exact Or.inl ⟨_, rfl, rfl⟩
  | some names =>
    simp only
    rw [filterFilepaths_same h]
    cases filterFilepaths b (b.resolve (joinPath base i)) names with
    | error e => exact Or.inl ⟨_, rfl, rfl⟩
    | ok files => exact Or.inr ⟨_, _, rfl, rfl, forall₂_map_same (fun n => openPath_same h _) _⟩

theorem compat40_same {a b : FS} (h : SameFiles a b) (legacy : Path) (n : Nat) :
    compat40 a legacy n = compat40 b legacy n := by
  have h1 : isCompatFile a legacy = isCompatFile b legacy := by
    funext n; unfold isCompatFile; rw [file_isSome_same h]
  have h2 : walkCompat a legacy = walkCompat b legacy := by
    unfold walkCompat; rw [h1, h.dir]
  have h3 : compatBlock a legacy n = compatBlock b legacy n := by
    funext f
    unfold compatBlock
    simp only
    cases validateServiceAndArgument (some f.1) (some f.2.1) with
    | error e => rfl
    | ok sa =>
      simp only [ok_bind]
      refine sameRes_bind (R := SameOpened) ?_ fun x y hxy => ?_
      · rw [h.resolve]
        rcases h.file (b.resolve (legacy ++ [f.2.2])) with ⟨h1, h2⟩ | ⟨x, y, h1, h2, h3⟩
        · rw [h1, h2]; exact Or.inl ⟨_, rfl, rfl⟩
        · rw [h1, h2]; exact openText_same h3
      · rw [loadService_same (resolveFilepath_same h legacy) n _ _ x y hxy]
  unfold compat40; rw [h2, h3]

theorem policyEnv_same {a b : FS} (h : SameFiles a b) (legacy base : Path) :
    SameEnv (policyEnv a legacy base) (policyEnv b legacy base) :=
  ⟨resolveFilepath_same h base, resolveDir_same h base, compat40_same h legacy⟩

theorem selectFiles_same {a b : FS} (h : SameFiles a b) (dirs : List Path) (seen : List Str) :
    selectFiles a dirs seen = selectFiles b dirs seen := by
  induction dirs generalizing seen with
  | nil => rfl
  | cons d ds ih =>
    simp only [selectFiles, h.dir]
    cases b.dir d with
    | none => rfl
    | some names => simp only [filterFilepaths_same h, ih]

theorem filePolicy_same {a b : FS} (h : SameFiles a b) (legacy : Path) (dirs : List Path)
    (n : Nat) : filePolicy a legacy dirs n = filePolicy b legacy dirs n := by
  have hl : loadTopFile a legacy n = loadTopFile b legacy n := by
    funext f
    unfold loadTopFile
    exact sameRes_bind (openPath_same h _) (loadFile_same (policyEnv_same h legacy f.1) n)
  unfold filePolicy loadPolicyDirs
  rw [selectFiles_same h, hl]

end Qrexec
