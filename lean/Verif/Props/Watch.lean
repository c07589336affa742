import Verif.Spec.Watch
import Verif.Props.Lint
import Verif.Props.Load
import Verif.Props.Shipped

/-! # C99: changes of the policy are noticed -/
namespace Qrexec
open Spec

/-! ### Loading looks only at what may be read -/

theorem collectRules_congr' {α : Type} {f g : α → Except Err (List Rule)} (l : List α) (h : ∀ x ∈ l, f x = g x) :
    collectRules f l = collectRules g l := by
  induction l with
  | nil => rfl
  | cons x xs ih => simp only [collectRules, h x List.mem_cons_self, ih fun y hy => h y (List.mem_cons_of_mem _ hy)]

theorem bind_congr_ok {α β : Type} {x : Except Err α} {f g : α → Except Err β} (h : ∀ a, x = .ok a → f a = g a) : (x >>= f) = (x >>= g) := by
  cases x with
  | error e => rfl
  | ok a => exact h a rfl

/-- The two file systems agree on all that may be read for a directory. -/
structure Agree (fs fs' : FS) (base : Path) : Prop where
  resolve : fs'.resolve = fs.resolve
  listing : fs'.dir base = fs.dir base
  file : ∀ p, MayRead fs base p → fs'.file p = fs.file p
  dir : ∀ p, MayRead fs base p → fs'.dir p = fs.dir p

/-- A file opened from `fs` that may be read. -/
def GoodFile (fs : FS) (base : Path) (f : Opened) : Prop :=
  ∃ text, MayRead fs base f.2 ∧ fs.file f.2 = some (.ok text) ∧ f.1 = fileLines text

theorem resolveFilepath_read {fs fs' : FS} {base : Path} (h : Agree fs fs' base) {f : Opened} (hf : GoodFile fs base f) {line inc : Str}
    (hl : line ∈ f.1) (ha : AsksFor line inc) :
    resolveFilepath fs' base inc = resolveFilepath fs base inc ∧ ∀ g, resolveFilepath fs base inc = .ok g → GoodFile fs base g := by
  obtain ⟨text, hm, ht, he⟩ := hf
  have hm' : MayRead fs base (fs.resolve (joinPath base inc)) := .file hm ht (he ▸ hl) ha
  refine ⟨?_, fun g hg => ?_⟩
  · unfold resolveFilepath
    simp only [h.resolve, h.file _ hm']
  · obtain ⟨t, ht', rfl⟩ := resolveFilepath_ok hg
    exact ⟨t, hm', ht', rfl⟩

theorem loadService_read {fs fs' : FS} {base : Path} (h : Agree fs fs' base) (n : Nat) : ∀ (s a : Option Str) (f : Opened), GoodFile fs base f →
    loadService (resolveFilepath fs' base) n s a f = loadService (resolveFilepath fs base) n s a f := by
  induction n with
  | zero => intros; rfl
  | succ n ih =>
    intro s a f hf
    rw [loadService, loadService]
    refine collectRules_congr' _ fun line hl => ?_
    unfold serviceLine
    by_cases h1 : isCommentLine (strip line) = true
    · simp only [h1, if_true]
    · simp only [if_neg h1]
      by_cases h2 : startsWith c!"!" (compatSubst (strip line)) = true
      · simp only [if_pos h2]
        unfold serviceDirective
        split
        · rename_i d inc hw
          split
          · rename_i hd
            have hd : d = c!"!include" := by simpa using hd
            subst hd
            have ha : AsksFor line inc := ⟨_, Or.inr (words_iff.2 (by rw [← splitWs_subst_strip, hw])), ⟨_, List.mem_cons_self, rfl⟩, rfl⟩
            obtain ⟨e1, e2⟩ := resolveFilepath_read h hf hl ha
            unfold includeService
            rw [e1]
            cases validateServiceAndArgument s a with
            | error e => rfl
            | ok sa =>
              simp only [ok_bind]
              cases hg : resolveFilepath fs base inc with
              | error e => rfl
              | ok g => exact ih _ _ g (e2 g hg)
          · rfl
        · rfl
      · simp only [if_neg h2]

theorem isPolicyFile_read {fs fs' : FS} {d : Path} {n : Str} (h : fs'.file (d ++ [n]) = fs.file (d ++ [n])) :
    isPolicyFile fs' d n = isPolicyFile fs d n := by
  unfold isPolicyFile; rw [h]

theorem filterFilepaths_read {fs fs' : FS} {d : Path} {names : List Str} (h : ∀ n ∈ names, fs'.file (d ++ [n]) = fs.file (d ++ [n])) :
    filterFilepaths fs' d names = filterFilepaths fs d names := by
  unfold filterFilepaths
  rw [List.filter_congr (fun n hn => isPolicyFile_read (h n hn))]

theorem filterFilepaths_sub {fs : FS} {d : Path} {names files : List Str} (h : filterFilepaths fs d names = .ok files) {n : Str} (hn : n ∈ files) :
    n ∈ names := by
  unfold filterFilepaths at h
  obtain ⟨_, _, h⟩ := bind_eq_ok.1 h
  cases h
  rw [mem_sortBy, List.mem_filter] at hn
  exact hn.1

theorem openPath_good {fs : FS} {base p : Path} {f : Opened} (hm : MayRead fs base p) (h : openPath fs p = .ok f) : GoodFile fs base f := by
  unfold openPath at h
  split at h
  · cases h
  · rename_i r hr
    obtain ⟨text, ht, hf⟩ := bind_eq_ok.1 h
    subst ht
    cases hf
    exact ⟨text, hm, hr, rfl⟩

theorem openPath_read {fs fs' : FS} {p : Path} (h : fs'.file p = fs.file p) : openPath fs' p = openPath fs p := by
  unfold openPath; rw [h]

theorem resolveDir_read {fs fs' : FS} {base : Path} (h : Agree fs fs' base) {f : Opened} (hf : GoodFile fs base f) {line inc : Str}
    (hl : line ∈ f.1) (ha : AsksFor line inc) :
    resolveDir fs' base inc = resolveDir fs base inc ∧ ∀ l, resolveDir fs base inc = .ok l → ∀ x ∈ l, ∀ g, x = .ok g → GoodFile fs base g := by
  obtain ⟨text, hm, ht, he⟩ := hf
  have hm' : MayRead fs base (fs.resolve (joinPath base inc)) := .file hm ht (he ▸ hl) ha
  constructor
  · unfold resolveDir
    simp only [h.resolve, h.dir _ hm']
    cases hd : fs.dir (fs.resolve (joinPath base inc)) with
    | none => rfl
    | some names =>
      have hin : ∀ n ∈ names, MayRead fs base (fs.resolve (joinPath base inc) ++ [n]) := fun n hn => .inDir hm ht (he ▸ hl) ha hd hn
      simp only
      rw [filterFilepaths_read fun n hn => h.file _ (hin n hn)]
      cases hff : filterFilepaths fs (fs.resolve (joinPath base inc)) names with
      | error e => rfl
      | ok files =>
        simp only [ok_bind]
        refine congrArg Except.ok (List.map_congr_left fun n hn => ?_)
        exact openPath_read (h.file _ (hin n (filterFilepaths_sub hff hn)))
  · intro l hl' x hx g hg
    unfold resolveDir at hl'
    simp only at hl'
    cases hd : fs.dir (fs.resolve (joinPath base inc)) with
    | none => rw [hd] at hl'; cases hl'
    | some names =>
      rw [hd] at hl'
      obtain ⟨files, hff, hl'⟩ := bind_eq_ok.1 hl'
      cases hl'
      obtain ⟨n, hn, rfl⟩ := List.mem_map.1 hx
      exact openPath_good (.inDir hm ht (he ▸ hl) ha hd (filterFilepaths_sub hff hn)) hg

theorem loadFile_read {fs fs' : FS} {legacy base : Path} (h : Agree fs fs' base) (hc : ∀ n, compat40 fs' legacy n = compat40 fs legacy n) (n : Nat) :
    ∀ (f : Opened), GoodFile fs base f → loadFile (policyEnv fs' legacy base) n f = loadFile (policyEnv fs legacy base) n f := by
  induction n with
  | zero => intros; rfl
  | succ n ih =>
    intro f hf
    rw [loadFile, loadFile]
    refine collectRules_congr' _ fun line hl => ?_
    unfold fileLine
    by_cases h1 : isCommentLine (strip line) = true
    · simp only [h1, if_true]
    · simp only [if_neg h1]
      by_cases h2 : startsWith c!"!" (strip line) = true
      · simp only [if_pos h2]
        have hw : ∀ ws, splitWs (strip line) = ws → Words line ws := fun ws e => words_iff.2 (by rw [← splitWs_strip, e])
        cases hs : splitWs (strip line) with
        | nil => simp only [fileDirective]
        | cons d ps =>
          have hws := hw _ hs
          simp only [fileDirective]
          split
          · rename_i hd
            have hd : d = c!"!include" := by simpa using hd
            subst hd
            split
            · rename_i inc
              obtain ⟨e1, e2⟩ := resolveFilepath_read (inc := inc) h hf hl ⟨_, Or.inl hws, ⟨_, List.mem_cons_self, rfl⟩, rfl⟩
              have e1' : (policyEnv fs' legacy base).openFile inc = (policyEnv fs legacy base).openFile inc := e1
              rw [e1']
              exact bind_congr_ok fun g hg => ih g (e2 g hg)
            · rfl
          · split
            · rename_i hd
              have hd : d = c!"!include-dir" := by simpa using hd
              subst hd
              split
              · rename_i inc
                obtain ⟨e1, e2⟩ := resolveDir_read (inc := inc) h hf hl ⟨_, Or.inl hws, ⟨_, List.mem_cons_of_mem _ List.mem_cons_self, rfl⟩, rfl⟩
                have e1' : (policyEnv fs' legacy base).openDir inc = (policyEnv fs legacy base).openDir inc := e1
                rw [e1']
                refine bind_congr_ok fun l hg => collectRules_congr' _ fun x hx => bind_congr_ok fun g hxg => ?_
                exact ih g (e2 l hg _ hx g hxg)
              · rfl
            · split
              · rename_i hd
                have hd : d = c!"!include-service" := by simpa using hd
                subst hd
                split
                · rename_i svc arg inc
                  obtain ⟨e1, e2⟩ := resolveFilepath_read (inc := inc) h hf hl
                    ⟨_, Or.inl hws, ⟨_, List.mem_cons_of_mem _ (List.mem_cons_of_mem _ List.mem_cons_self), rfl⟩, rfl⟩
                  unfold includeService
                  refine bind_congr_ok fun sa _ => ?_
                  have e1' : (policyEnv fs' legacy base).openFile inc = (policyEnv fs legacy base).openFile inc := e1
                  rw [e1']
                  exact bind_congr_ok fun g hg => loadService_read h n _ _ g (e2 g hg)
                · rfl
              · split
                · split
                  · exact hc n
                  · rfl
                · rfl
      · simp only [if_neg h2]

theorem compat40_read {fs fs' : FS} {legacy : Path} (h : Agree fs fs' legacy) (n : Nat) : compat40 fs' legacy n = compat40 fs legacy n := by
  unfold compat40 walkCompat
  rw [h.listing]
  cases hd : fs.dir legacy with
  | none => rfl
  | some names =>
    have hk : names.filter (isCompatFile fs' legacy) = names.filter (isCompatFile fs legacy) := by
      refine List.filter_congr fun x hx => ?_
      unfold isCompatFile
      rw [h.file _ (.entry hd hx)]
    simp only [hk, ok_bind]
    refine collectRules_congr' _ fun t ht => ?_
    rw [mem_sortBy, List.mem_map] at ht
    obtain ⟨name, hname, rfl⟩ := ht
    have hmem := (List.mem_filter.1 hname).1
    have hr : MayRead fs legacy (fs.resolve (legacy ++ [name])) := .linked hd hmem
    unfold compatBlock
    simp only [h.resolve, h.file _ hr]
    cases validateServiceAndArgument (some (parseServiceAndArgument name).1) (some (parseServiceAndArgument name).2) with
    | error e => rfl
    | ok sa =>
      simp only [ok_bind]
      cases hfl : fs.file (fs.resolve (legacy ++ [name])) with
      | none => rfl
      | some r =>
        cases r with
        | error e => rfl
        | ok text =>
          simp only [ok_bind, pure_bind]
          rw [loadService_read h n _ _ _ ⟨text, hr, hfl, rfl⟩]

theorem filePolicy_read {fs fs' : FS} {legacy : Path} {dirs : List Path} (hl : Agree fs fs' legacy) (hd : ∀ d ∈ dirs, Agree fs fs' d) (n : Nat) :
    filePolicy fs' legacy dirs n = filePolicy fs legacy dirs n := by
  unfold filePolicy loadPolicyDirs
  have hsel : ∀ (ds : List Path), (∀ d ∈ ds, Agree fs fs' d) → ∀ seen, selectFiles fs' ds seen = selectFiles fs ds seen := by
    intro ds
    induction ds with
    | nil => intros; rfl
    | cons d ds ih =>
      intro hds seen
      have h := hds d List.mem_cons_self
      unfold selectFiles
      rw [h.listing]
      cases hdd : fs.dir d with
      | none => rfl
      | some names =>
        simp only
        rw [filterFilepaths_read fun n hn => h.file _ (.entry hdd hn)]
        simp only [ih fun x hx => hds x (List.mem_cons_of_mem _ hx)]
  rw [hsel dirs hd []]
  refine congrArg wrapOSError (bind_congr_ok fun files hs => collectRules_congr' _ fun f hf => ?_)
  · 
    rw [mem_sortBy] at hf
    have hin : ∀ (ds : List Path), (∀ d ∈ ds, d ∈ dirs) → ∀ seen fl, selectFiles fs ds seen = .ok fl → ∀ f ∈ fl,
        f.1 ∈ dirs ∧ ∃ names, fs.dir f.1 = some names ∧ f.2 ∈ names := by
      intro ds
      induction ds with
      | nil => intro _ seen fl hfl f hf; cases hfl; cases hf
      | cons d ds ih =>
        intro hds seen fl hfl f hf
        unfold selectFiles at hfl
        cases hdd : fs.dir d with
        | none => rw [hdd] at hfl; cases hfl
        | some names =>
          rw [hdd] at hfl
          obtain ⟨kept, hk, hfl⟩ := bind_eq_ok.1 hfl
          obtain ⟨rest, hr, hfl⟩ := bind_eq_ok.1 hfl
          cases hfl
          rcases List.mem_append.1 hf with hf | hf
          · obtain ⟨n, hn, rfl⟩ := List.mem_map.1 hf
            exact ⟨hds d List.mem_cons_self, names, hdd, filterFilepaths_sub hk (List.mem_filter.1 hn).1⟩
          · exact ih (fun x hx => hds x (List.mem_cons_of_mem _ hx)) _ _ hr f hf
    obtain ⟨h1, names, h2, h3⟩ := hin dirs (fun _ h => h) [] files hs f hf
    have h := hd _ h1
    have hm : MayRead fs f.1 (f.1 ++ [f.2]) := .entry h2 h3
    unfold loadTopFile
    rw [openPath_read (h.file _ hm)]
    exact bind_congr_ok fun g ho => loadFile_read h (compat40_read hl) n g (openPath_good hm ho)

/-! ### The notifications -/

theorem mem_watchRoots {paths defaults : List Path} {there : Path → Bool} {p : Path} :
    p ∈ watchRoots paths defaults there ↔ (p ∈ paths ∨ p ∈ defaults) ∧ there p = true := by
  unfold watchRoots
  simp only [List.mem_append, List.mem_filter, Bool.and_eq_true, Bool.not_eq_true', List.contains_eq_mem, decide_eq_false_iff_not]
  by_cases hd : p ∈ defaults
  · simp [hd]
  · simp [hd]

/-- **C99, what is watched.** Exactly the policy directories and the default ones that exist when the watcher starts. -/
theorem C99_roots (paths : List Path) (there : Path → Bool) (p : Path) :
    p ∈ watchRoots paths defaultPolicyPaths there ↔
      (p ∈ paths ∨ p = [c!"etc", c!"qubes", c!"policy.d"] ∨ p = [c!"etc", c!"qubes-rpc", c!"policy"]) ∧ there p = true := by
  rw [mem_watchRoots]
  simp only [defaultPolicyPaths, List.mem_cons, List.not_mem_nil, or_false]

/-- **C99, the daemon.** If the policy could be loaded when the daemon started, every policy directory is watched. -/
theorem C99_daemon_watches (fs : FS) (legacy : Path) (paths : List Path) (n : Nat) (rules : List Rule)
    (h : filePolicy fs legacy paths n = .ok rules) (there : Path → Bool) (ht : ∀ p, fs.dir p ≠ none → there p = true) (defaults : List Path) :
    ∀ p ∈ paths, p ∈ watchRoots paths defaults there := by
  intro p hp
  refine mem_watchRoots.2 ⟨Or.inl hp, ht p ?_⟩
  have h := wrapOSError_ok.1 h
  obtain ⟨files, hs, _⟩ := bind_eq_ok.1 h
  have key : ∀ (ds : List Path) seen fl, selectFiles fs ds seen = .ok fl → ∀ d ∈ ds, fs.dir d ≠ none := by
    intro ds
    induction ds with
    | nil => intro _ _ _ d hd; cases hd
    | cons x ds ih =>
      intro seen fl hfl d hd
      unfold selectFiles at hfl
      cases hdd : fs.dir x with
      | none => rw [hdd] at hfl; cases hfl
      | some names =>
        rw [hdd] at hfl
        obtain ⟨kept, hk, hfl⟩ := bind_eq_ok.1 hfl
        obtain ⟨rest, hr, hfl⟩ := bind_eq_ok.1 hfl
        rcases List.mem_cons.1 hd with rfl | hd
        · rw [hdd]; intro hc; cases hc
        · exact ih _ _ hr d hd
  exact key paths [] files hs p hp

theorem belowRoot_iff {roots : List Path} {p : Path} : belowRoot roots p = true ↔ ∃ r ∈ roots, ∃ x rest, p = r ++ x :: rest := by
  unfold belowRoot
  rw [List.any_eq_true]
  constructor
  · rintro ⟨r, hr, h⟩
    rw [Bool.and_eq_true, List.isPrefixOf_iff_prefix] at h
    obtain ⟨⟨t, rfl⟩, h2⟩ := h
    cases t with
    | nil => simp at h2
    | cons x rest => exact ⟨r, hr, x, rest, rfl⟩
  · rintro ⟨r, hr, x, rest, rfl⟩
    refine ⟨r, hr, ?_⟩
    rw [Bool.and_eq_true, List.isPrefixOf_iff_prefix]
    exact ⟨⟨_, rfl⟩, by simp⟩

theorem watcherHandle_keeps {P : Type} (c : Cache P) (k : NoteKind) (h : c.outdated = true) : (watcherHandle c k).outdated = true := by
  cases k <;> first | exact h | rfl

theorem watcherHandle_foldl {P : Type} : ∀ (l : List NoteKind) (c : Cache P), (c.outdated = true ∨ ∃ k ∈ l, k ∈ watchMask) →
    (l.foldl watcherHandle c).outdated = true := by
  intro l
  induction l with
  | nil =>
    rintro c (h | ⟨k, hk, _⟩)
    · exact h
    · cases hk
  | cons k l ih =>
    intro c h
    refine ih _ ?_
    rcases h with h | ⟨k', hk', hm⟩
    · exact Or.inl (watcherHandle_keeps c k h)
    · rcases List.mem_cons.1 hk' with rfl | hk'
      · left
        have : ∀ k ∈ watchMask, k = .create ∨ k = .delete ∨ k = .modify ∨ k = .movedFrom ∨ k = .movedTo := by decide
        rcases this _ hm with rfl | rfl | rfl | rfl | rfl <;> rfl
      · exact Or.inr ⟨k', hk', hm⟩

theorem op_noted {op : FsOp} {x : Path} (hx : x ∈ op.paths) : ∃ k ∈ watchMask, (k, x) ∈ op.notes := by
  cases op with
  | make p => simp only [FsOp.paths, List.mem_singleton] at hx; subst hx; exact ⟨.create, by decide, by simp [FsOp.notes]⟩
  | write p => simp only [FsOp.paths, List.mem_singleton] at hx; subst hx; exact ⟨.modify, by decide, by simp [FsOp.notes]⟩
  | remove p => simp only [FsOp.paths, List.mem_singleton] at hx; subst hx; exact ⟨.delete, by decide, by simp [FsOp.notes]⟩
  | rename p q =>
    simp only [FsOp.paths, List.mem_cons, List.not_mem_nil, or_false] at hx
    rcases hx with rfl | rfl
    · exact ⟨.movedFrom, by decide, by simp [FsOp.notes]⟩
    · exact ⟨.movedTo, by decide, by simp [FsOp.notes]⟩

theorem outdated_of_below {P : Type} {roots : List Path} {op : FsOp} {x : Path} (hx : x ∈ op.paths) (hb : ∃ r ∈ roots, ∃ y rest, x = r ++ y :: rest)
    (c : Cache P) : (cacheAfter roots op c).outdated = true := by
  obtain ⟨k, hk, hn⟩ := op_noted hx
  refine watcherHandle_foldl _ _ (Or.inr ⟨k, ?_, hk⟩)
  refine List.mem_map.2 ⟨(k, x), List.mem_filter.2 ⟨hn, ?_⟩, rfl⟩
  rw [Bool.and_eq_true]
  exact ⟨belowRoot_iff.2 hb, by simpa [List.contains_iff_mem] using hk⟩

theorem prefix_below {roots : List Path} {x p : Path} (hp : ∃ r ∈ roots, ∃ y rest, p = r ++ y :: rest) (hx : x <+: p) :
    (∃ r ∈ roots, x <+: r) ∨ ∃ r ∈ roots, ∃ y rest, x = r ++ y :: rest := by
  obtain ⟨r, hr, y, rest, rfl⟩ := hp
  rcases List.prefix_or_prefix_of_prefix hx (List.prefix_append r (y :: rest)) with h | ⟨t, rfl⟩
  · exact Or.inl ⟨r, hr, h⟩
  · cases t with
    | nil => exact Or.inl ⟨r, hr, by simp⟩
    | cons z t => exact Or.inr ⟨r, hr, z, t, rfl⟩

/-- **C99.** An operation on the file system that changes what the policy says — and does not take away or put in place one of the
watched directories itself — makes the daemon load the policy again for the next request: if the policy directories and the legacy
directory are watched and all that may be read for the policy lies in watched directories. -/
theorem C99_noticed_partial {P : Type} (fs fs' : FS) (op : FsOp) (hm : Makes fs op fs') (roots : List Path) (legacy : Path) (dirs : List Path)
    (n : Nat) (hr : ∀ d ∈ legacy :: dirs, d ∈ roots) (he : ∀ d ∈ legacy :: dirs, Enclosed roots fs d) (hu : ¬ Uproots roots op)
    (hne : filePolicy fs' legacy dirs n ≠ filePolicy fs legacy dirs n) (c : Cache P) :
    (cacheAfter roots op c).outdated = true := by
  by_contra hc
  have hno : ∀ x ∈ op.paths, ¬ ∃ r ∈ roots, ∃ y rest, x = r ++ y :: rest := fun x hx hb => hc (outdated_of_below hx hb c)
  have hnop : ∀ x ∈ op.paths, ∀ p, (∃ r ∈ roots, ∃ y rest, p = r ++ y :: rest) → ¬ x <+: p := by
    intro x hx p hp hxp
    rcases prefix_below hp hxp with ⟨r, hr, h⟩ | h
    · exact hu ⟨x, hx, r, hr, h⟩
    · exact hno x hx h
  have hnil : ∀ x ∈ op.paths, ∀ r ∈ roots, x ≠ [] := by
    rintro x hx r hr rfl
    exact hu ⟨[], hx, r, hr, List.nil_prefix⟩
  have hdrop : ∀ x ∈ op.paths, ∀ p, (∃ r ∈ roots, ∃ rest, p = r ++ rest) → x.dropLast ≠ p := by
    rintro x hx p ⟨r, hr, rest, rfl⟩ hd
    have h1 := List.dropLast_append_getLast (hnil x hx r hr)
    rw [hd] at h1
    generalize x.getLast (hnil x hx r hr) = z at h1
    refine hno x hx ⟨r, hr, ?_⟩
    cases rest with
    | nil => exact ⟨z, [], by rw [← h1]; simp⟩
    | cons y rest => exact ⟨y, rest ++ [z], by rw [← h1]; simp⟩
  have hagree : ∀ d ∈ legacy :: dirs, Agree fs fs' d := by
    intro d hd
    refine ⟨hm.links, hm.dirs d ?_, fun p hp => hm.files p ?_, fun p hp => hm.dirs p ?_⟩
    · intro x hx
      exact ⟨fun h => hu ⟨x, hx, d, hr d hd, h⟩, hdrop x hx d ⟨d, hr d hd, [], by simp⟩⟩
    · intro x hx
      obtain ⟨h1, h2⟩ := he d hd p hp
      exact ⟨hnop x hx p h1, hnop x hx _ h2⟩
    · intro x hx
      obtain ⟨h1, _⟩ := he d hd p hp
      refine ⟨hnop x hx p h1, hdrop x hx p ?_⟩
      obtain ⟨r, hr, y, rest, e⟩ := h1
      exact ⟨r, hr, _, e⟩
  exact hne (filePolicy_read (hagree legacy List.mem_cons_self) (fun d hd => hagree d (List.mem_cons_of_mem _ hd)) n)

/-- **C99, only there.** An operation away from the watched directories does not make the daemon load the policy again. -/
theorem C99_only {P : Type} (roots : List Path) (op : FsOp) (c : Cache P) (h : ∀ x ∈ op.paths, ¬ ∃ r ∈ roots, ∃ y rest, x = r ++ y :: rest) :
    cacheAfter roots op c = c := by
  have : delivered roots op = [] := by
    unfold delivered
    rw [List.map_eq_nil_iff, List.filter_eq_nil_iff]
    rintro ⟨k, x⟩ hx hb
    rw [Bool.and_eq_true] at hb
    refine h x ?_ (belowRoot_iff.1 hb.1)
    cases op <;> simp [FsOp.notes, FsOp.paths] at hx ⊢ <;> tauto
  unfold cacheAfter
  rw [this]
  rfl

/-! ### A concrete case, and the gaps -/

/-- A policy directory `/p` with one file, an empty legacy directory `/l`, and a file `/x/f`; `/p` and `/l` are there or not. -/
def watchFS (policy other : Str) (p l : Bool) : FS where
  resolve := id
  file := fun q => if q = [c!"p", c!"a.policy"] ∧ p = true then some (.ok policy) else if q = [c!"x", c!"f"] then some (.ok other)
    else if q = [c!"l", c!"s"] ∧ l = true then some (.ok other) else none
  dir := fun q => if q = [c!"p"] ∧ p = true then some [c!"a.policy"] else if q = [c!"l"] then some (if l then [c!"s"] else []) else none

/-- A file without directives asks for nothing. -/
theorem enclosed_plain {fs : FS} {roots : List Path} {base : Path} (hid : fs.resolve = id) (hb : base ∈ roots)
    (hplain : ∀ p text line, fs.file p = some (.ok text) → line ∈ fileLines text →
      ∀ d ∈ [c!"!include", c!"!include-dir", c!"!include-service"], (splitWs line).head? ≠ some d ∧ (splitWs (compatSubst line)).head? ≠ some d) :
    Enclosed roots fs base := by
  have hask : ∀ {p text line inc}, fs.file p = some (.ok text) → line ∈ fileLines text → ¬ AsksFor line inc := by
    rintro p text line inc hf hl ⟨ws, hw, ⟨d, hd, hh⟩, _⟩
    obtain ⟨h1, h2⟩ := hplain p text line hf hl d hd
    rcases hw with hw | hw
    · exact h1 (by rw [splitWs_of_words hw]; exact hh)
    · exact h2 (by rw [splitWs_of_words hw]; exact hh)
  intro p hp
  have : ∃ name, p = base ++ [name] := by
    cases hp with
    | @entry _ name _ _ => exact ⟨name, rfl⟩
    | @linked _ name _ _ => exact ⟨name, by rw [hid]; rfl⟩
    | file _ hf hl ha => exact absurd ha (hask hf hl)
    | inDir _ hf hl ha _ _ => exact absurd ha (hask hf hl)
  obtain ⟨name, rfl⟩ := this
  exact ⟨⟨base, hb, name, [], rfl⟩, base, hb, name, [], by rw [hid]; rfl⟩

/-- The policy file is rewritten: the hypotheses of `C99_noticed_partial` hold, and the daemon loads again. -/
example : (cacheAfter [[c!"p"], [c!"l"]] (.write [c!"p", c!"a.policy"]) (⟨false, some 7⟩ : Cache Nat)).outdated = true := by
  refine C99_noticed_partial (watchFS c!"* * work vault allow" c!"" true false) (watchFS c!"* * work vault deny" c!"" true false) _ ?_
    [[c!"p"], [c!"l"]] [c!"l"] [[c!"p"]] 3 (by decide) ?_ ?_ (by decide) _
  · refine ⟨rfl, ?_, fun p _ => rfl⟩
    intro p hp
    have : p ≠ [c!"p", c!"a.policy"] := by
      rintro rfl
      exact (hp _ List.mem_cons_self).1 (List.prefix_refl _)
    simp [watchFS, this]
  · intro d hd
    refine enclosed_plain rfl (by simpa [or_comm] using hd) ?_
    intro p text line hf hl
    simp only [watchFS] at hf
    split at hf
    · cases hf
      revert line
      decide
    · split at hf
      · cases hf
        revert line
        decide
      · simp at hf
  · rintro ⟨x, hx, r, hr, h⟩
    simp only [FsOp.paths, List.mem_singleton] at hx
    subst hx
    simp only [List.mem_cons, List.not_mem_nil, or_false] at hr
    rcases hr with rfl | rfl <;> exact absurd h (by decide)

/-- **C99, a gap: a file included from elsewhere.** It is read for the policy, but its changes are not noticed. -/
theorem C99_gap_elsewhere : ∃ (fs fs' : FS) (op : FsOp), Makes fs op fs' ∧
    filePolicy fs' [c!"l"] [[c!"p"]] 3 ≠ filePolicy fs [c!"l"] [[c!"p"]] 3 ∧ ¬ Uproots [[c!"p"], [c!"l"]] op ∧
    ∀ c : Cache Nat, cacheAfter [[c!"p"], [c!"l"]] op c = c := by
  refine ⟨watchFS c!"!include /x/f" c!"* * work vault allow" true false, watchFS c!"!include /x/f" c!"* * work vault deny" true false,
    .write [c!"x", c!"f"], ⟨rfl, ?_, fun p _ => rfl⟩, by decide, ?_, fun c => rfl⟩
  · intro p hp
    have : p ≠ [c!"x", c!"f"] := by
      rintro rfl
      exact (hp _ List.mem_cons_self).1 (List.prefix_refl _)
    simp [watchFS, this]
  · rintro ⟨x, hx, r, hr, h⟩
    simp only [FsOp.paths, List.mem_singleton] at hx
    subst hx
    simp only [List.mem_cons, List.not_mem_nil, or_false] at hr
    rcases hr with rfl | rfl <;> exact absurd h (by decide)

/-- **C99, a gap: the directory itself is replaced.** Renaming the policy directory is not noticed. -/
theorem C99_gap_replaced : ∃ (fs fs' : FS) (op : FsOp), Makes fs op fs' ∧ Uproots [[c!"p"], [c!"l"]] op ∧
    (∀ d ∈ [[c!"l"], [c!"p"]], Enclosed [[c!"p"], [c!"l"]] fs d) ∧
    filePolicy fs' [c!"l"] [[c!"p"]] 3 ≠ filePolicy fs [c!"l"] [[c!"p"]] 3 ∧
    ∀ c : Cache Nat, cacheAfter [[c!"p"], [c!"l"]] op c = c := by
  refine ⟨watchFS c!"* * work vault allow" c!"" true false, watchFS c!"* * work vault allow" c!"" false false, .rename [c!"p"] [c!"old"],
    ⟨rfl, ?_, ?_⟩, ⟨_, List.mem_cons_self, _, List.mem_cons_self, List.prefix_refl _⟩, ?_, by decide, fun c => rfl⟩
  · intro p hp
    have : p ≠ [c!"p", c!"a.policy"] := by
      rintro rfl
      exact (hp _ List.mem_cons_self).1 ⟨[c!"a.policy"], rfl⟩
    simp [watchFS, this]
  · intro p hp
    have : p ≠ [c!"p"] := by
      rintro rfl
      exact (hp _ List.mem_cons_self).1 (List.prefix_refl _)
    simp [watchFS, this]
  · intro d hd
    refine enclosed_plain rfl (by simpa [or_comm] using hd) ?_
    intro p text line hf hl
    simp only [watchFS] at hf
    split at hf
    · cases hf
      revert line
      decide
    · split at hf
      · cases hf
        revert line
        decide
      · simp at hf

/-- **C99, a gap: a legacy directory that was not there at the start.** If `/l` did not exist when the watcher started it is not
watched; a file put into it later changes the policy unnoticed. -/
theorem C99_gap_late : ∃ (fs fs' : FS) (op : FsOp) (there : Path → Bool), there [c!"p"] = true ∧ there [c!"l"] = false ∧ Makes fs op fs' ∧
    filePolicy fs' [c!"l"] [[c!"p"]] 3 ≠ filePolicy fs [c!"l"] [[c!"p"]] 3 ∧
    ∀ c : Cache Nat, cacheAfter (watchRoots [[c!"p"]] [[c!"l"]] there) op c = c := by
  refine ⟨watchFS c!"!compat-4.0" c!"work vault allow" true false, watchFS c!"!compat-4.0" c!"work vault allow" true true, .make [c!"l", c!"s"],
    fun p => p == [c!"p"], by decide, by decide, ⟨rfl, ?_, ?_⟩, by decide, fun c => rfl⟩
  · intro p hp
    have : p ≠ [c!"l", c!"s"] := by
      rintro rfl
      exact (hp _ List.mem_cons_self).1 (List.prefix_refl _)
    simp [watchFS, this]
  · intro p hp
    have : p ≠ [c!"l"] := by
      rintro rfl
      exact (hp _ List.mem_cons_self).2 rfl
    simp [watchFS, this]

end Qrexec
