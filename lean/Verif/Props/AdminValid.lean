import Verif.Lemmas.AdminValid
import Verif.Props.Admin
import Verif.Props.Load

/-! # C35: a validated change keeps the policy loadable -/
namespace Qrexec
open Spec

/-- What C35 needs of the disk, the area `a` and the file `p` that is changed: see
`C35_replace_partial`. -/
structure Regular (h : Host) (c : AdminConf) (d : Disk) (a : Area) (n : Str) : Prop where
  real : RealDisk d
  /-- no symbolic links in the listed directories -/
  noLinks : NoLinks d
  noLink : NoLink c d a n
  /-- a file of the policy directory has a name the loader accepts -/
  lower : a = .policy → ∀ ch ∈ n, PolicyNameChar ch
  /-- no temporary file is left over from a crash -/
  noTemp : d.content (tempOf (fileOf c d a n)) = none
  /-- the legacy directory is another one, and the legacy policy does not include the file -/
  legacyDir : d.resolve c.legacy ≠ a.dir c
  legacy : ¬ LegacyReads (d.fs h) c.legacy (fileOf c d a n)

theorem legacyReads_real {f : FS} {legacy q : Path} (hi : ∀ q, f.resolve (f.resolve q) = f.resolve q)
    (h : LegacyReads f legacy q) : f.resolve q = q := by
  cases h <;> exact hi _

theorem regular_name {h : Host} {c : AdminConf} {d : Disk} {a : Area} {n : Str}
    (hr : Regular h c d a n) (hn : AdminName n)
    (hs : ∃ stem, fileName (fileOf c d a n) = stem ++ c!".policy") :
    ∀ ch ∈ fileName (fileOf c d a n), PolicyNameChar ch := by
  have hf : fileName (fileOf c d a n) = n ++ a.suffix := by rw [hr.noLink]; simp [fileName]
  rw [hf] at hs ⊢
  cases a with
  | policy =>
    intro ch hch
    rw [List.mem_append] at hch
    rcases hch with hch | hch
    · exact hr.lower rfl ch hch
    · simp only [Area.suffix] at hch
      revert hch ch
      unfold PolicyNameChar
      decide
  | incl =>
    obtain ⟨stem, hs⟩ := hs
    simp only [Area.suffix, List.append_nil] at hs
    exfalso
    have : ('.' : Char) ∈ n := by rw [hs]; simp
    exact absurd (hn.2 _ this) (by decide)

theorem changed_compat {h : Host} {c : AdminConf} {d d' : Disk} {a : Area} {n : Str}
    (hr : Regular h c d a n) (hres : d'.resolve = d.resolve)
    (hleg : d'.entries (d.resolve c.legacy) = d.entries (d.resolve c.legacy))
    (hcont : ∀ q, q ≠ fileOf c d a n → d'.content q = d.content q) (k : Nat) :
    compat40 (d'.fs h) c.legacy k = compat40 (d.fs h) c.legacy k := by
  symm
  apply compat40_agree
  · exact hres.symm
  · simp only [Disk.fs]; rw [hres, hleg]
  · intro q; simp only [Disk.fs]; rw [hr.real.idem]
  · intro q; simp only [Disk.fs]; rw [hres, hr.real.idem]
  · intro q hq
    have hq' : d.resolve q = q := legacyReads_real (f := d.fs h) hr.real.idem hq
    simp only [Disk.fs]
    rw [hres, hq', hcont q (fun e => hr.legacy (e ▸ hq))]

theorem afterReplace_other {c : AdminConf} {d : Disk} {a : Area} {n : Str} {x : Bytes}
    (hp : fileOf c d a n ≠ []) (ht : d.content (tempOf (fileOf c d a n)) = none) (q : Path)
    (hq : q ≠ fileOf c d a n) :
    (afterReplace d (fileOf c d a n) x).content q = d.content q := by
  rw [afterReplace_content hp]
  split
  · rename_i h; rw [h, ht]
  · rfl

theorem afterReplace_entries_other {d : Disk} {p q : Path} {x : Bytes} (hq : q ≠ p.dropLast) :
    (afterReplace d p x).entries q = d.entries q := by
  unfold afterReplace Disk.removeFile Disk.setFile
  simp only [tempPath_dropLast, if_neg hq]

theorem replace_changed {h : Host} {c : AdminConf} {d : Disk} {a : Area} {n : Str} {x : Bytes}
    {text : Str} (hr : Regular h c d a n) (hn : AdminName n)
    (hp : fileOf c d a n ≠ []) (htext : h.decode x = some text) (hcr : CrLfOnly text) :
    Changed (d.fs h) ((afterReplace d (fileOf c d a n) x).fs h) (fileOf c d a n) (some text) where
  resolve := rfl
  idem := hr.real.idem
  file := by
    intro q hq hne
    simp only [Disk.fs] at hq ⊢
    rw [afterReplace_resolve, hq, afterReplace_other hp hr.noTemp q hne]
  new := by
    have hpr : d.resolve (fileOf c d a n) = fileOf c d a n := hr.real.idem _
    simp only [Disk.fs]
    rw [afterReplace_resolve, hpr, afterReplace_content hp, tempOf_eq,
      if_neg (fun e => tempPath_ne _ hp e.symm), if_pos rfl]
    simp [decodeText, htext]
  crlf := by rintro t ⟨⟩; exact hcr
  dirs := by intro q; simp only [Disk.fs]; exact afterReplace_isSome _ _ _ _
  names := by
    intro q ns ns' m hq h1 h2 hm
    simp only [Disk.fs] at hq h1 h2
    rw [afterReplace_resolve, hq] at h2
    rw [hq] at h1
    rcases (afterReplace_entries_mem.1 ⟨ns', h2, hm⟩).1 with ⟨ns2, h3, h4⟩ | ⟨h3, _, h4⟩
    · rw [h1] at h3; cases h3; exact Or.inl h4
    · right; rw [h3, h4]; exact dropLast_append_fileName hp
  real := by
    intro q ns' m hq h2 hm
    simp only [Disk.fs] at hq h2 ⊢
    rw [afterReplace_resolve, hq] at h2
    rcases (afterReplace_entries_mem.1 ⟨ns', h2, hm⟩).1 with ⟨ns2, h3, h4⟩ | ⟨h3, _, h4⟩
    · exact hr.noLinks q m ns2 h3 h4
    · rw [h3, h4, dropLast_append_fileName hp]; exact hr.real.idem _
  name := fun _ hs => regular_name hr hn hs

theorem remove_changed {h : Host} {c : AdminConf} {d : Disk} {a : Area} {n : Str}
    (hr : Regular h c d a n) :
    Changed (d.fs h) ((d.removeFile (fileOf c d a n)).fs h) (fileOf c d a n) none where
  resolve := rfl
  idem := hr.real.idem
  file := by
    intro q hq hne
    simp only [Disk.fs, removeFile_resolve] at hq ⊢
    rw [hq, removeFile_content, if_neg hne]
  new := by
    have hpr : d.resolve (fileOf c d a n) = fileOf c d a n := hr.real.idem _
    simp only [Disk.fs, removeFile_resolve]
    rw [hpr, removeFile_content, if_pos rfl]
    rfl
  crlf := by rintro t ⟨⟩
  dirs := by intro q; simp only [Disk.fs]; exact removeFile_entries_isSome _ _ _
  names := by
    intro q ns ns' m hq h1 h2 hm
    simp only [Disk.fs, removeFile_resolve] at hq h1 h2
    rw [hq] at h1 h2
    obtain ⟨ns2, h3, h4⟩ := (removeFile_entries_mem.1 ⟨ns', h2, hm⟩).1
    rw [h1] at h3; cases h3; exact Or.inl h4
  real := by
    intro q ns' m hq h2 hm
    simp only [Disk.fs, removeFile_resolve] at hq h2 ⊢
    rw [hq] at h2
    obtain ⟨ns2, h3, h4⟩ := (removeFile_entries_mem.1 ⟨ns', h2, hm⟩).1
    exact hr.noLinks q m ns2 h3 h4
  name := fun h => absurd rfl h

theorem policy_real {c : AdminConf} {d : Disk} {a : Area} {n : Str} (hd : RealDisk d)
    (h : (fileOf c d a n).dropLast = a.dir c) : d.resolve c.policy = c.policy := by
  have h1 := dir_real hd h
  cases a with
  | policy => exact h1
  | incl =>
    have := hd.parent _ h1
    simpa [Area.dir] using this

theorem adminValidate_ok {h : Host} {c : AdminConf} {d : Disk} {p : Path} {o : Option Str}
    (hv : adminValidate h c d p o = .ok ()) :
    validatePolicy (d.fs h) c.legacy [(p, o)] c.policy c.depth = .ok () := by
  unfold adminValidate at hv
  split at hv
  · assumption
  · simp at hv
  · simp at hv

/-- **C35, partial.** After a successful Replace the policy directory loads, when every carriage
return of the new text is part of a CR LF, and `Regular` holds: no symbolic links, no left-over
temporary file, a lower-case name for a policy file, and the legacy policy does not read the
file.  Missing: each of these cases, where the claim is false of the code:
`C35_uppercase_violation`, `C35_cr_violation`, `C35_legacy_violation`. -/
theorem C35_replace_partial (h : Host) (c : AdminConf) (d d' : Disk) (a : Area) (n : Str)
    (t x : Bytes) (text : Str) (r : Option Bytes) (ht : '\n' ∉ t)
    (hr : (Call.replace a n t x).run h c d = (d', .ok r))
    (htext : h.decode x = some text) (hcr : CrLfOnly text) (hreg : Regular h c d a n) :
    ∃ rules, filePolicy (d'.fs h) c.legacy [c.policy] c.depth = .ok rules := by
  obtain ⟨_, h2, h3, h4, _, ⟨text', htx', hv⟩, rfl, rfl, h5, h6⟩ := replace_run ht hr
  rw [htext] at htx'
  cases htx'
  refine validated_loads (replace_changed hreg h2 h4 htext hcr) h4 (policy_real hreg.real h3)
    ?_ _ (adminValidate_ok hv)
  intro k
  rw [changed_compat hreg (afterReplace_resolve _ _ _)
    (afterReplace_entries_other (by rw [h3]; exact hreg.legacyDir))
    (afterReplace_other h4 hreg.noTemp)]
  exact id

/-- **C35, partial.** The same for Remove. -/
theorem C35_remove_partial (h : Host) (c : AdminConf) (d d' : Disk) (a : Area) (n : Str)
    (t : Bytes) (r : Option Bytes)
    (hr : (Call.remove a n t).run h c d = (d', .ok r)) (hreg : Regular h c d a n) :
    ∃ rules, filePolicy (d'.fs h) c.legacy [c.policy] c.depth = .ok rules := by
  obtain ⟨_, h2, h3, h4, _, _, hv, rfl, rfl⟩ := remove_run hr
  refine validated_loads (remove_changed hreg) h4 (policy_real hreg.real h3)
    ?_ _ (adminValidate_ok hv)
  intro k
  rw [changed_compat hreg (removeFile_resolve _ _) ?_ ?_]
  · exact id
  · unfold Disk.removeFile
    simp only
    rw [if_neg (by rw [h3]; exact hreg.legacyDir)]
  · intro q hq
    rw [removeFile_content, if_neg hq]

/-- C35 is false of the code for names with capital letters: every successful Replace of a policy
file with a name the loader does not accept leaves a policy that no longer loads, so that every
call is refused. -/
theorem C35_uppercase_violation (h : Host) (c : AdminConf) (d d' : Disk) (hd : RealDisk d)
    (n : Str) (t x : Bytes) (r : Option Bytes) (ht : '\n' ∉ t) (hl : NoLink c d .policy n)
    (hr : (Call.replace .policy n t x).run h c d = (d', .ok r))
    (ch : Char) (hch : ch ∈ n) (hbad : ¬ PolicyNameChar ch) :
    filePolicy (d'.fs h) c.legacy [c.policy] c.depth = .error (.accessDenied true) := by
  obtain ⟨_, h2, h3, h4, _, _, rfl, rfl, h5, h6⟩ := replace_run ht hr
  have hpol := policy_real hd h3
  have hfn : fileName (fileOf c d .policy n) = n ++ c!".policy" := by
    rw [hl]; simp [fileName, Area.suffix]
  have hne : n ++ c!".policy" ≠ '!' :: (n ++ c!".policy") := by
    intro e; have := congrArg List.length e; simp at this
  refine C26_bad_name _ _ _ _ c.policy (by simp) (n ++ c!".policy") ⟨?_, ?_, ⟨n, rfl⟩, ?_⟩ ch
    (by simp [hch]) hbad
  · simp only [Disk.fs]
    rw [afterReplace_resolve, hpol]
    refine afterReplace_entries_mem.2 ⟨Or.inr ⟨h3.symm, h6, hfn.symm⟩, fun e => ?_⟩
    rw [hfn] at e
    exact hne e.2
  · simp only [Disk.fs]
    have e : c.policy ++ [n ++ c!".policy"] = fileOf c d .policy n := hl.symm
    have hpr : d.resolve (fileOf c d .policy n) = fileOf c d .policy n := hd.idem _
    rw [afterReplace_resolve, e, hpr, afterReplace_content h4, tempOf_eq,
      if_neg (fun e => tempPath_ne _ h4 e.symm), if_pos rfl]
    simp
  · obtain ⟨h20, h21⟩ := h2
    cases n with
    | nil => exact absurd rfl h20
    | cons b bs =>
      simp only [List.cons_append, List.head?_cons, ne_eq, Option.some.injEq]
      rintro rfl
      exact absurd (h21 '.' (by simp)) (by decide)

/-! ### A concrete disk -/

/-- A disk without symbolic links, from a list of files and a list of directories. -/
def exampleDisk (files : List (Path × Bytes)) (dirs : List (Path × List Str)) : Disk where
  resolve p := p
  content p := (files.find? fun f => f.1 == p).map (·.2)
  entries p := (dirs.find? fun f => f.1 == p).map (·.2)

/-- All bytes are characters, and the hash is the identity. -/
def exampleHost : Host := ⟨fun b => b, fun b => some b⟩

def exampleConf : AdminConf := ⟨[c!"p"], [c!"l"], 4⟩

/-- A policy directory with the file `a.policy` and an empty include directory. -/
def diskA : Disk := exampleDisk
  [([c!"p", c!"a.policy"], c!"* * @anyvm @anyvm deny")]
  [([c!"p"], [c!"a.policy", c!"include"]), ([c!"p", c!"include"], []), ([c!"l"], [])]

/-- The hypotheses of `C35_replace_partial` can be met. -/
example : ((Call.replace .policy c!"b" c!"new" c!"s * @anyvm @anyvm allow\r\n").run exampleHost
    exampleConf diskA).2 = .ok none := by rfl

/-- The hypotheses of `C35_uppercase_violation` can be met. -/
example : ((Call.replace .policy c!"B" c!"new" c!"s * @anyvm @anyvm allow").run exampleHost
    exampleConf diskA).2 = .ok none := by rfl

theorem find_entries {l : List (Path × List Str)} {q : Path} {ns : List Str}
    (h : (l.find? fun f => f.1 == q).map (·.2) = some ns) : (q, ns) ∈ l := by
  cases hf : l.find? fun f => f.1 == q with
  | none => rw [hf] at h; simp at h
  | some x =>
    rw [hf] at h
    have h1 := List.find?_some hf
    have h2 := List.mem_of_find?_eq_some hf
    simp only [Option.map_some, Option.some.injEq] at h
    rw [beq_iff_eq] at h1
    obtain ⟨a, b⟩ := x
    simp only at h h1
    rw [← h, ← h1]
    exact h2

theorem find_content {l : List (Path × Bytes)} {q : Path} {ns : Bytes}
    (h : (l.find? fun f => f.1 == q).map (·.2) = some ns) : (q, ns) ∈ l := by
  cases hf : l.find? fun f => f.1 == q with
  | none => rw [hf] at h; simp at h
  | some x =>
    rw [hf] at h
    have h1 := List.find?_some hf
    have h2 := List.mem_of_find?_eq_some hf
    simp only [Option.map_some, Option.some.injEq] at h
    rw [beq_iff_eq] at h1
    obtain ⟨a, b⟩ := x
    simp only at h h1
    rw [← h, ← h1]
    exact h2

/-- `diskA` is regular. -/
example : Regular exampleHost exampleConf diskA .policy c!"b" where
  real := by
    refine ⟨fun _ => rfl, fun _ _ => rfl, fun _ _ => rfl, ?_, ?_⟩
    · intro p n b ns h1 h2
      have h1 := find_content h1
      have h2 := find_entries h2
      simp only [List.mem_cons, List.not_mem_nil, or_false, Prod.mk.injEq] at h1 h2
      obtain ⟨h1, -⟩ := h1
      have hp : p = [c!"p"] := by
        have := congrArg List.dropLast h1
        simpa using this
      have hn : n = c!"a.policy" := by
        have := congrArg List.getLast? h1
        simpa using this
      rcases h2 with ⟨h2, rfl⟩ | ⟨h2, _⟩ | ⟨h2, _⟩
      · rw [hn]; decide
      · rw [hp] at h2; simp at h2
      · rw [hp] at h2; exact absurd h2 (by decide)
    · intro p ns h2
      have h2 := find_entries h2
      simp only [List.mem_cons, List.not_mem_nil, or_false, Prod.mk.injEq] at h2
      rcases h2 with ⟨_, rfl⟩ | ⟨_, rfl⟩ | ⟨_, rfl⟩ <;> decide
  noLinks := fun _ _ _ _ _ => rfl
  noLink := rfl
  lower := by intro _; unfold PolicyNameChar; decide
  noTemp := rfl
  legacyDir := by decide
  legacy := by
    intro h
    have : ∀ q, LegacyReads (diskA.fs exampleHost) exampleConf.legacy q → False := by
      intro q hq
      induction hq with
      | file h1 h2 => cases h1; simp at h2
      | incl _ _ _ _ ih => exact ih
    exact this _ h

/-- C35 is false of the code for a carriage return in a comment: validation reads one comment
line, the policy loader reads a second line that is not a rule. -/
theorem C35_cr_violation :
    let after := (Call.replace .policy c!"b" c!"new" c!"# \r junk").run exampleHost exampleConf diskA
    after.2 = .ok none ∧
    (∃ rules, filePolicy (diskA.fs exampleHost) exampleConf.legacy [exampleConf.policy]
      exampleConf.depth = .ok rules) ∧
    filePolicy (after.1.fs exampleHost) exampleConf.legacy [exampleConf.policy]
      exampleConf.depth = .error .policySyntax := ⟨rfl, ⟨_, rfl⟩, rfl⟩

/-- A policy that uses the legacy directory, where the file `s` includes a file of the include
directory. -/
def diskB : Disk := exampleDisk
  [([c!"p", c!"a.policy"], c!"!compat-4.0"), ([c!"p", c!"include", c!"foo"], c!"@anyvm @anyvm deny"),
   ([c!"l", c!"s"], c!"$include:/p/include/foo")]
  [([c!"p"], [c!"a.policy", c!"include"]), ([c!"p", c!"include"], [c!"foo"]), ([c!"l"], [c!"s"])]

/-- C35 is false of the code for a file that is only included by the legacy policy: validation
does not look at the new content. -/
theorem C35_legacy_violation :
    let after := (Call.replace .incl c!"foo" c!"any" c!"junk").run exampleHost exampleConf diskB
    after.2 = .ok none ∧
    (∃ rules, filePolicy (diskB.fs exampleHost) exampleConf.legacy [exampleConf.policy]
      exampleConf.depth = .ok rules) ∧
    filePolicy (after.1.fs exampleHost) exampleConf.legacy [exampleConf.policy]
      exampleConf.depth = .error .policySyntax := ⟨rfl, ⟨_, rfl⟩, rfl⟩

end Qrexec
