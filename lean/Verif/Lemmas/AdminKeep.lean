import Verif.Lemmas.AdminValid

namespace Qrexec
open Spec

/-- If the first succeeds, the second succeeds with the same result. -/
def Keeps {α : Type} (x y : Except Err α) : Prop := ∀ r, x = .ok r → y = .ok r

theorem Keeps.refl {α : Type} (x : Except Err α) : Keeps x x := fun _ h => h

theorem Keeps.bind {α β : Type} {x y : Except Err α} {f g : α → Except Err β} (h : Keeps x y)
    (hfg : ∀ a, x = .ok a → Keeps (f a) (g a)) : Keeps (x >>= f) (y >>= g) := by
  intro r hr
  obtain ⟨a, ha, hr⟩ := bind_eq_ok.1 hr
  exact bind_eq_ok.2 ⟨a, h a ha, hfg a ha r hr⟩

theorem Keeps.collect {α : Type} {f g : α → Except Err (List Rule)} {l : List α}
    (h : ∀ x ∈ l, Keeps (f x) (g x)) : Keeps (collectRules f l) (collectRules g l) := by
  induction l with
  | nil => exact Keeps.refl _
  | cons x xs ih =>
    simp only [collectRules]
    exact (h x (by simp)).bind fun a _ => (ih fun y hy => h y (by simp [hy])).bind fun _ _ => Keeps.refl _

theorem loadService_keeps {op1 op2 : Str → Except Err Opened} (hop : ∀ i, Keeps (op1 i) (op2 i))
    (n : Nat) : ∀ s a f, Keeps (loadService op1 n s a f) (loadService op2 n s a f) := by
  induction n with
  | zero => intro s a f; exact Keeps.refl _
  | succ n ih =>
    intro s a f
    simp only [loadService]
    refine Keeps.collect fun line _ => ?_
    unfold serviceLine
    simp only
    split
    · exact Keeps.refl _
    · split
      · unfold serviceDirective
        split
        · split
          · unfold includeService
            exact (Keeps.refl _).bind fun sa _ => (hop _).bind fun o _ => ih _ _ o
          · exact Keeps.refl _
        · exact Keeps.refl _
      · exact Keeps.refl _

/-- The second loader does what the first does. -/
structure KeepsEnv (e1 e2 : LoadEnv) : Prop where
  openFile : ∀ i, Keeps (e1.openFile i) (e2.openFile i)
  openDir : ∀ i l, e1.openDir i = .ok l → (∀ x ∈ l, ∃ g, x = .ok g) → e2.openDir i = .ok l
  compat : ∀ n, Keeps (e1.compat n) (e2.compat n)

theorem loadFile_keeps {e1 e2 : LoadEnv} (he : KeepsEnv e1 e2) (n : Nat) :
    ∀ f, Keeps (loadFile e1 n f) (loadFile e2 n f) := by
  induction n with
  | zero => intro f; exact Keeps.refl _
  | succ n ih =>
    intro f
    simp only [loadFile]
    refine Keeps.collect fun line _ => ?_
    unfold fileLine
    simp only
    split
    · exact Keeps.refl _
    · split
      · cases splitWs (strip line) with
        | nil => exact Keeps.refl _
        | cons d ps =>
          simp only [fileDirective]
          split
          · split
            · exact (he.openFile _).bind fun o _ => ih o
            · exact Keeps.refl _
          · split
            · split
              · intro r hr
                obtain ⟨l, hl, hr⟩ := bind_eq_ok.1 hr
                have hall : ∀ x ∈ l, ∃ g, x = .ok g := by
                  intro x hx
                  have h1 : Loads (collectRules (fun f => f >>= fun f => loadFile e1 n f) l) := ⟨r, hr⟩
                  obtain ⟨g, hg, _⟩ := loads_bind.1 (loads_collect.1 h1 x hx)
                  exact ⟨g, hg⟩
                refine bind_eq_ok.2 ⟨l, he.openDir _ l hl hall, ?_⟩
                exact Keeps.collect (fun x _ => (Keeps.refl x).bind fun o _ => ih o) r hr
              · exact Keeps.refl _
            · split
              · split
                · unfold includeService
                  exact (Keeps.refl _).bind fun sa _ => (he.openFile _).bind fun o _ =>
                    loadService_keeps he.openFile n _ _ o
                · exact Keeps.refl _
              · split
                · split
                  · exact he.compat n
                  · exact Keeps.refl _
                · exact Keeps.refl _
      · exact Keeps.refl _

/-- `f'` is `f` with one more file `t`, which is not a policy file by its name. -/
structure Extended (f f' : FS) (t : Path) : Prop where
  resolve : f'.resolve = f.resolve
  idem : ∀ q, f.resolve (f.resolve q) = f.resolve q
  file : ∀ q, f.resolve q ≠ t → f'.file q = f.file q
  absent : ∀ q, f.resolve q = t → f.file q = none
  dirs : ∀ q, (f'.dir q).isSome = (f.dir q).isSome
  names : ∀ q ns ns', f.dir q = some ns → f'.dir q = some ns' →
    ns' = ns ∨ ns' = ns ++ [fileName t]
  links : ∀ q ns m, f.dir q = some ns → m ∈ ns → f.resolve (q ++ [m]) = t → ¬ ∃ stem, m = stem ++ c!".policy"
  name : ¬ ∃ stem, fileName t = stem ++ c!".policy"

theorem extended_filter {f f' : FS} {t : Path} (h : Extended f f' t) {q : Path} {ns ns' : List Str}
    (hd : f.dir q = some ns) (hd' : f'.dir q = some ns') :
    ns'.filter (isPolicyFile f' q) = ns.filter (isPolicyFile f q) := by
  have hkeep : ns.filter (isPolicyFile f' q) = ns.filter (isPolicyFile f q) := by
    apply List.filter_congr
    intro m hm
    by_cases ht : f.resolve (q ++ [m]) = t
    · have := h.links q ns m hd hm ht
      have he : endsWith c!".policy" m = false := by
        rw [Bool.eq_false_iff, ne_eq, endsWith_iff]; exact this
      unfold isPolicyFile
      rw [he]
      simp
    · unfold isPolicyFile
      rw [h.file _ ht]
  rcases h.names q ns ns' hd hd' with rfl | rfl
  · exact hkeep
  · rw [List.filter_append, hkeep]
    have he : endsWith c!".policy" (fileName t) = false := by
      rw [Bool.eq_false_iff, ne_eq, endsWith_iff]; exact h.name
    have : [fileName t].filter (isPolicyFile f' q) = [] := by
      rw [List.filter_eq_nil_iff]
      intro m hm
      simp only [List.mem_singleton] at hm
      subst hm
      unfold isPolicyFile
      rw [he]
      simp
    rw [this, List.append_nil]

theorem extended_filepaths {f f' : FS} {t : Path} (h : Extended f f' t) {q : Path}
    {ns ns' : List Str} (hd : f.dir q = some ns) (hd' : f'.dir q = some ns') :
    filterFilepaths f' q ns' = filterFilepaths f q ns := by
  unfold filterFilepaths
  rw [extended_filter h hd hd']

theorem extended_dir {f f' : FS} {t : Path} (h : Extended f f' t) (q : Path) :
    (f.dir q = none ∧ f'.dir q = none) ∨ ∃ ns ns', f.dir q = some ns ∧ f'.dir q = some ns' := by
  have := h.dirs q
  cases h1 : f.dir q <;> cases h2 : f'.dir q <;> simp [h1, h2] at this ⊢

theorem extended_resolveFilepath {f f' : FS} {t : Path} (h : Extended f f' t) (base : Path)
    (i : Str) : Keeps (resolveFilepath f base i) (resolveFilepath f' base i) := by
  intro r hr
  unfold resolveFilepath at hr ⊢
  simp only at hr ⊢
  rw [h.resolve]
  by_cases ht : f.resolve (joinPath base i) = t
  · rw [h.absent _ (by rw [h.idem]; exact ht)] at hr
    simp at hr
  · rw [h.file _ (by rw [h.idem]; exact ht)]
    exact hr

theorem extended_openPath {f f' : FS} {t : Path} (h : Extended f f' t) (q : Path) :
    Keeps (openPath f q) (openPath f' q) := by
  intro r hr
  rw [openPath_ok] at hr ⊢
  obtain ⟨text, h1, h2⟩ := hr
  refine ⟨text, ?_, h2⟩
  rw [h.file _ (fun ht => by rw [h.absent _ ht] at h1; simp at h1)]
  exact h1

theorem extended_compat {f f' : FS} {t : Path} (h : Extended f f' t) {legacy : Path}
    (hleg : f'.dir legacy = f.dir legacy)
    (hlinks : ∀ ns m, f.dir legacy = some ns → m ∈ ns → f.resolve (legacy ++ [m]) ≠ t) (n : Nat) :
    Keeps (compat40 f legacy n) (compat40 f' legacy n) := by
  unfold compat40 walkCompat
  rw [hleg]
  cases hd : f.dir legacy with
  | none => exact Keeps.refl _
  | some ns =>
    simp only [ok_bind]
    have hfilter : ns.filter (isCompatFile f' legacy) = ns.filter (isCompatFile f legacy) := by
      apply List.filter_congr
      intro m hm
      unfold isCompatFile
      rw [h.file _ (hlinks ns m hd hm)]
    rw [hfilter]
    refine Keeps.collect fun x hx => ?_
    rw [mem_sortBy] at hx
    obtain ⟨m, hm, rfl⟩ := List.mem_map.1 hx
    have hm := (List.mem_filter.1 hm).1
    unfold compatBlock
    simp only
    rw [h.resolve, h.file _ (by rw [h.idem]; exact hlinks ns m hd hm)]
    refine (Keeps.refl _).bind fun sa _ => (Keeps.refl _).bind fun o _ => ?_
    exact (loadService_keeps (extended_resolveFilepath h legacy) n _ _ o).bind fun _ _ => Keeps.refl _

theorem extended_policy {f f' : FS} {t : Path} (h : Extended f f' t) {legacy base : Path}
    (hleg : f'.dir legacy = f.dir legacy)
    (hlinks : ∀ ns m, f.dir legacy = some ns → m ∈ ns → f.resolve (legacy ++ [m]) ≠ t) (n : Nat) :
    Keeps (filePolicy f legacy [base] n) (filePolicy f' legacy [base] n) := by
  have henv : KeepsEnv (policyEnv f legacy base) (policyEnv f' legacy base) :=
    { openFile := extended_resolveFilepath h base
      openDir := by
        intro i l hl hall
        simp only [policyEnv] at hl ⊢
        unfold resolveDir at hl ⊢
        simp only at hl ⊢
        rw [h.resolve]
        rcases extended_dir h (f.resolve (joinPath base i)) with ⟨h1, h2⟩ | ⟨ns, ns', h1, h2⟩
        · rw [h1] at hl; simp at hl
        · rw [h1] at hl
          rw [h2]
          simp only at hl ⊢
          rw [extended_filepaths h h1 h2]
          obtain ⟨files, hf, hl⟩ := bind_eq_ok.1 hl
          rw [hf]
          simp only [ok_bind, pure_ok, Except.ok.injEq] at hl ⊢
          rw [← hl]
          apply List.map_congr_left
          intro m hm
          obtain ⟨g, hg⟩ := hall _ (by rw [← hl]; exact List.mem_map_of_mem hm)
          rw [hg]
          exact extended_openPath h _ g hg
      compat := extended_compat h hleg hlinks }
  suffices key : Keeps (loadPolicyDirs f legacy [base] n) (loadPolicyDirs f' legacy [base] n) from
    fun r hr => wrapOSError_ok.2 (key r (wrapOSError_ok.1 hr))
  unfold loadPolicyDirs
  have hsel : selectFiles f' [base] [] = selectFiles f [base] [] := by
    simp only [selectFiles]
    rcases extended_dir h base with ⟨h1, h2⟩ | ⟨ns, ns', h1, h2⟩
    · rw [h1, h2]
    · rw [h1, h2]
      simp only
      rw [extended_filepaths h h1 h2]
  rw [hsel]
  refine (Keeps.refl _).bind fun files hfiles => Keeps.collect fun x hx => ?_
  unfold loadTopFile
  have hb : x.1 = base := by
    rw [mem_sortBy] at hx
    simp only [selectFiles] at hfiles
    rcases extended_dir h base with ⟨h1, h2⟩ | ⟨ns, ns', h1, h2⟩
    · rw [h1] at hfiles; simp at hfiles
    · rw [h1] at hfiles
      simp only at hfiles
      obtain ⟨fl, _, hfiles⟩ := bind_eq_ok.1 hfiles
      simp only [ok_bind, pure_ok, List.append_nil, Except.ok.injEq] at hfiles
      rw [← hfiles] at hx
      obtain ⟨m, _, rfl⟩ := List.mem_map.1 hx
      rfl
  rw [hb]
  exact (extended_openPath h _).bind fun o _ => loadFile_keeps henv n o

end Qrexec
