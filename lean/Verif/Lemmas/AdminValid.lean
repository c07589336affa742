import Verif.Lemmas.AdminLoad

namespace Qrexec
open Spec

/-- `f'` is `f` with the file `p` replaced by `o` (removed when `none`). -/
structure Changed (f f' : FS) (p : Path) (o : Option Str) : Prop where
  resolve : f'.resolve = f.resolve
  idem : ∀ q, f.resolve (f.resolve q) = f.resolve q
  file : ∀ q, f.resolve q = q → q ≠ p → f'.file q = f.file q
  new : f'.file p = o.map .ok
  crlf : ∀ text, o = some text → CrLfOnly text
  dirs : ∀ q, (f'.dir q).isSome = (f.dir q).isSome
  names : ∀ q ns ns' m, f.resolve q = q → f.dir q = some ns → f'.dir q = some ns' → m ∈ ns' →
    m ∈ ns ∨ q ++ [m] = p
  real : ∀ q ns' m, f.resolve q = q → f'.dir q = some ns' → m ∈ ns' →
    f.resolve (q ++ [m]) = q ++ [m]
  name : o ≠ none → (∃ stem, fileName p = stem ++ c!".policy") →
    ∀ ch ∈ fileName p, PolicyNameChar ch

theorem filterFilepaths_of {fs : FS} {d : Path} {names : List Str}
    (h : ∀ n ∈ names, isPolicyFile fs d n = true → ∀ c ∈ n, PolicyNameChar c) :
    filterFilepaths fs d names = .ok (sortBy strLe (names.filter (isPolicyFile fs d))) := by
  unfold filterFilepaths
  have : (names.filter (isPolicyFile fs d)).all (fun n => n.all fileNameChar) = true := by
    rw [List.all_eq_true]
    intro n hn
    rw [List.all_eq_true]
    intro ch hch
    rw [List.mem_filter] at hn
    exact (policyNameChar_iff ch).2 (h n hn.1 hn.2 ch hch)
  simp only [this, require, if_true]
  rfl

theorem openPath_ok {fs : FS} {q : Path} {g : Opened} :
    openPath fs q = .ok g ↔ ∃ text, fs.file q = some (.ok text) ∧ g = (fileLines text, q) := by
  unfold openPath
  cases hq : fs.file q with
  | none => simp
  | some r =>
    cases r with
    | error e => simp [bind, Except.bind]
    | ok text => simp [bind, Except.bind, pure, Except.pure, eq_comm]

/-- The files of a directory after the change, compared with what was validated. -/
theorem changed_dir {f f' : FS} {p : Path} {o : Option Str} (hc : Changed f f' p o) (hp : p ≠ [])
    {P : Path} (hP : f.resolve P = P) {l : List (Except Err Opened)}
    (hv : validateDirFiles f [(p, o)] P = .ok l) (hl : ∀ x ∈ l, ∃ g, x = .ok g) :
    ∃ ns' files, f'.dir P = some ns' ∧ filterFilepaths f' P ns' = .ok files ∧
      ∀ m ∈ files, ∃ x ∈ l, ∃ a g, x = .ok a ∧ openPath f' (P ++ [m]) = .ok g ∧ SameOpened a g := by
  unfold validateDirFiles at hv
  cases hd : f.dir P with
  | none => rw [hd] at hv; simp at hv
  | some ns =>
    rw [hd] at hv
    simp only at hv
    obtain ⟨vf, hvf, hv⟩ := bind_eq_ok.1 hv
    simp only [pure_ok, Except.ok.injEq] at hv
    obtain ⟨ns', hd'⟩ : ∃ ns', f'.dir P = some ns' := by
      have := hc.dirs P
      rw [hd] at this
      exact Option.isSome_iff_exists.1 this
    obtain ⟨hvf1, hvf2⟩ := filterFilepaths_ok hvf
    -- a policy file of the new directory, other than `p`, was one before
    have hold : ∀ m ∈ ns', isPolicyFile f' P m = true → P ++ [m] ≠ p →
        m ∈ ns ∧ isPolicyFile f P m = true := by
      intro m hm hpf hne
      rcases hc.names P ns ns' m hP hd hd' hm with h | h
      · refine ⟨h, ?_⟩
        unfold isPolicyFile at hpf ⊢
        rwa [← hc.file _ (hc.real P ns' m hP hd' hm) hne]
      · exact absurd h hne
    have hnew : ∀ m, isPolicyFile f' P m = true → P ++ [m] = p →
        (∃ text, o = some text) ∧ fileName p = m ∧ p.dropLast = P ∧
          ∃ stem, m = stem ++ c!".policy" := by
      intro m hpf he
      unfold isPolicyFile at hpf
      simp only [Bool.and_eq_true] at hpf
      rw [he, hc.new] at hpf
      refine ⟨?_, by rw [← he]; simp [fileName], by rw [← he]; simp, endsWith_iff.1 hpf.1.2⟩
      cases o with
      | none => simp at hpf
      | some text => exact ⟨text, rfl⟩
    have hnames : ∀ m ∈ ns', isPolicyFile f' P m = true → ∀ ch ∈ m, PolicyNameChar ch := by
      intro m hm hpf
      by_cases he : P ++ [m] = p
      · obtain ⟨⟨text, ht⟩, hfn, _, hs⟩ := hnew m hpf he
        rw [← hfn]
        exact hc.name (by rw [ht]; simp) (by rw [hfn]; exact hs)
      · obtain ⟨h1, h2⟩ := hold m hm hpf he
        exact hvf2 m h1 h2
    refine ⟨ns', _, hd', filterFilepaths_of hnames, fun m hm => ?_⟩
    rw [mem_sortBy, List.mem_filter] at hm
    by_cases he : P ++ [m] = p
    · obtain ⟨⟨text, ht⟩, hfn, hdl, hs⟩ := hnew m hm.2 he
      refine ⟨.ok (stringIOLines text, p), ?_, _, (fileLines text, p), rfl, ?_,
        crlf_same (hc.crlf text ht) p⟩
      · rw [← hv, List.mem_append]
        right
        simp [ht, hdl, hp]
      · rw [openPath_ok, he, hc.new, ht]
        exact ⟨text, rfl, rfl⟩
    · obtain ⟨h1, h2⟩ := hold m hm.1 hm.2 he
      have hmem : openPath f (P ++ [m]) ∈ l := by
        rw [← hv, List.mem_append]
        left
        refine List.mem_map.2 ⟨m, List.mem_filter.2 ⟨?_, ?_⟩, rfl⟩
        · rw [hvf1, mem_sortBy, List.mem_filter]; exact ⟨h1, h2⟩
        · simp only [Overrides.get?]
          rw [if_neg (fun hh => he hh.symm)]
          rfl
      obtain ⟨g, hg⟩ := hl _ hmem
      refine ⟨_, hmem, g, g, hg, ?_, sameOpened_refl g⟩
      rw [← hg]
      unfold openPath
      rw [hc.file _ (hc.real P ns' m hP hd' hm.1) he]

theorem changed_loads {f f' : FS} {p : Path} {o : Option Str} (hc : Changed f f' p o)
    (hp : p ≠ []) {legacy base : Path}
    (hcompat : ∀ n, Loads (compat40 f legacy n) → Loads (compat40 f' legacy n)) :
    LoadsToo (validateEnv f legacy [(p, o)] base) (policyEnv f' legacy base) where
  openFile := by
    intro i g hg
    simp only [validateEnv, policyEnv] at hg ⊢
    unfold validateFilepath at hg
    simp only [Overrides.get?] at hg
    by_cases he : p = f.resolve (joinPath base i)
    · rw [if_pos he] at hg
      cases o with
      | none => simp at hg
      | some text =>
        simp only [Except.ok.injEq] at hg
        refine ⟨(fileLines text, f.resolve (joinPath base i)), ?_, ?_⟩
        · unfold resolveFilepath
          simp only
          rw [hc.resolve, ← he, hc.new]
          rfl
        · rw [← hg]
          exact crlf_same (hc.crlf text rfl) _
    · rw [if_neg he] at hg
      simp only at hg
      refine ⟨g, ?_, sameOpened_refl g⟩
      rw [← hg]
      unfold resolveFilepath
      simp only
      rw [hc.resolve, hc.file _ (hc.idem _) (fun h => he h.symm)]
  openDir := by
    intro i l hl hall
    simp only [validateEnv, policyEnv] at hl ⊢
    unfold validateDir at hl
    simp only at hl
    split at hl
    · simp at hl
    · obtain ⟨ns', files, hd', hfiles, hm⟩ := changed_dir hc hp (hc.idem _) hl hall
      refine ⟨files.map fun m => openPath f' (f'.resolve (joinPath base i) ++ [m]), ?_, ?_⟩
      · unfold resolveDir
        simp only
        rw [hc.resolve, hd']
        simp only [hfiles, ok_bind]
        rfl
      · intro y hy
        obtain ⟨m, hmem, rfl⟩ := List.mem_map.1 hy
        obtain ⟨x, hx, a, g, h1, h2, h3⟩ := hm m hmem
        rw [hc.resolve]
        exact ⟨x, hx, a, g, h1, h2, h3⟩
  compat := hcompat

/-- A validated change loads. -/
theorem validated_loads {f f' : FS} {p : Path} {o : Option Str} (hc : Changed f f' p o)
    (hp : p ≠ []) {legacy base : Path} (hbase : f.resolve base = base)
    (hcompat : ∀ n, Loads (compat40 f legacy n) → Loads (compat40 f' legacy n)) (n : Nat)
    (hv : validatePolicy f legacy [(p, o)] base n = .ok ()) :
    Loads (filePolicy f' legacy [base] n) := by
  have hv := wrapOSError_ok.1 hv
  obtain ⟨l, hl, hv⟩ := bind_eq_ok.1 hv
  obtain ⟨rules, hr, _⟩ := bind_eq_ok.1 hv
  have hloads : Loads (collectRules (fun x => x >>= fun x =>
      loadFile (validateEnv f legacy [(p, o)] base) n x) l) := ⟨rules, hr⟩
  rw [loads_collect] at hloads
  have hall : ∀ x ∈ l, ∃ g, x = .ok g ∧
      Loads (loadFile (validateEnv f legacy [(p, o)] base) n g) :=
    fun x hx => loads_bind.1 (hloads x hx)
  obtain ⟨ns', files, hd', hfiles, hm⟩ := changed_dir hc hp hbase hl
    (fun x hx => by obtain ⟨g, hg, _⟩ := hall x hx; exact ⟨g, hg⟩)
  have hsel : selectFiles f' [base] [] = .ok (files.map fun m => (base, m)) := by
    simp only [selectFiles, hd', hfiles, ok_bind, List.append_nil, pure_ok]
    rw [List.filter_eq_self.2 (by simp)]
  have hl2 : Loads (loadPolicyDirs f' legacy [base] n) := by
    unfold loadPolicyDirs
    rw [hsel]
    simp only [ok_bind]
    rw [loads_collect]
    intro t ht
    rw [mem_sortBy] at ht
    obtain ⟨m, hmem, rfl⟩ := List.mem_map.1 ht
    obtain ⟨x, hx, a, g, rfl, h2, h3⟩ := hm m hmem
    obtain ⟨a', ha', hload⟩ := hall _ hx
    cases ha'
    unfold loadTopFile
    refine loads_bind.2 ⟨g, h2, ?_⟩
    rw [← loadFile_same (sameEnv_refl _) n a g h3]
    exact loadFile_loads (changed_loads hc hp hcompat) n a hload
  obtain ⟨r, hr⟩ := hl2
  exact ⟨r, wrapOSError_ok.2 hr⟩

end Qrexec
