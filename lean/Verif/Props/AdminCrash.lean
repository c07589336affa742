import Verif.Lemmas.AdminKeep
import Verif.Props.AdminValid

/-! # C36: crashes during a change -/
namespace Qrexec
open Spec

/-- The disk after some of the operations of a Replace. -/
theorem replace_prefix (d : Disk) (p : Path) (x : Bytes) (k : Nat) :
    (runWrites d ((replaceWrites p x).take k)).1 = d ∨
    (d.entries (tempPath p).dropLast ≠ none ∧
      ∃ j, (runWrites d ((replaceWrites p x).take k)).1 = d.setFile (tempPath p) (x.take j)) ∨
    ((runWrites d ((replaceWrites p x).take k)).1 = afterReplace d p x ∧ d.entries p = none ∧
      runWrites d (replaceWrites p x) = (afterReplace d p x, none)) := by
  cases k with
  | zero => left; rfl
  | succ k =>
    by_cases hc : d.entries (tempPath p) = none ∧ d.entries (tempPath p).dropLast ≠ none
    · right
      have hfull := runWrites_replace d p x
      rw [if_pos hc] at hfull
      have e : (replaceWrites p x).take (k + 1) = .create (tempPath p) ::
          ((x.take k).map (Write.append (tempPath p)) ++
            [Write.setOwner (tempPath p), .rename (tempPath p) p].take (k - x.length)) := by
        unfold replaceWrites
        rw [List.cons_append, List.take_succ_cons, List.take_append, List.map_take, List.length_map]
      rw [e]
      simp only [runWrites, create_ok hc.1 hc.2]
      rw [runWrites_append, runWrites_appends]
      simp only [List.nil_append]
      match hk : k - x.length with
      | 0 => exact Or.inl ⟨hc.2, k, rfl⟩
      | 1 =>
        left
        refine ⟨hc.2, k, ?_⟩
        simp [runWrites, Disk.apply, setFile_self_content]
      | m + 2 =>
        have hx : x.take k = x := List.take_of_length_le (by omega)
        rw [hx]
        simp only [List.take_succ_cons, List.take_nil, runWrites, Disk.apply, setFile_self_content,
          Option.isSome_some, if_true]
        rw [setFile_entries_isSome]
        by_cases hp : d.entries p = none
        · right
          rw [if_pos hp] at hfull
          refine ⟨?_, hp, hfull⟩
          rw [hp]
          simp [afterReplace]
        · left
          obtain ⟨y, hy⟩ := Option.ne_none_iff_exists'.1 hp
          refine ⟨hc.2, x.length, ?_⟩
          simp [hy]
    · left
      unfold replaceWrites
      simp only [List.cons_append, List.take_succ_cons, runWrites, create_error hc]

/-- What a crash during Replace leaves. -/
theorem crashed_replace (h : Host) (c : AdminConf) (d : Disk) (a : Area) (n : Str) (t x : Bytes)
    (ht : '\n' ∉ t) (k : Nat) :
    crashed h c d (.replace a n t x) k = d ∨
    (AdminName n ∧ fileOf c d a n ≠ [] ∧ (fileOf c d a n).dropLast = a.dir c ∧
      d.entries (a.dir c) ≠ none ∧
      ∃ j, crashed h c d (.replace a n t x) k = d.setFile (tempOf (fileOf c d a n)) (x.take j)) ∨
    (fileOf c d a n ≠ [] ∧ crashed h c d (.replace a n t x) k = afterReplace d (fileOf c d a n) x ∧
      (Call.replace a n t x).run h c d = (afterReplace d (fileOf c d a n) x, .ok none)) := by
  unfold crashed
  cases hp : adminPlan h c d (Call.replace a n t x).service (Call.replace a n t x).arg
      (Call.replace a n t x).payload with
  | error e => left; rfl
  | ok plan =>
    obtain ⟨token, data, text, h1, h2, h3, h4, h5, h6, h7, h8, rfl⟩ := replace_ok.1 hp
    simp only [Call.payload, splitOnce_append' ht, Option.some.injEq, Prod.mk.injEq] at h5
    obtain ⟨rfl, rfl⟩ := h5
    have harg : (Call.replace a n t x).arg = n := rfl
    rw [harg] at h2 h3 h4 hp ⊢
    simp only
    rcases replace_prefix d (fileOf c d a n) x k with h0 | ⟨h0, j, hj⟩ | ⟨h0, h01, h02⟩
    · exact Or.inl h0
    · rw [tempPath_dropLast, h3] at h0
      exact Or.inr (Or.inl ⟨h2, h4, h3, h0, j, hj⟩)
    · refine Or.inr (Or.inr ⟨h4, h0, ?_⟩)
      unfold Call.run
      exact handleAdmin_ok.2 ⟨_, hp, h02⟩

/-- **C36.** Wherever the machine stops during a Replace, the file holds its complete old content
or the complete new content, and no other file, except the temporary one, has changed. -/
theorem C36_old_or_new (h : Host) (c : AdminConf) (d : Disk) (a : Area) (n : Str) (t x : Bytes)
    (ht : '\n' ∉ t) (k : Nat) :
    ((crashed h c d (.replace a n t x) k).content (fileOf c d a n) = d.content (fileOf c d a n) ∨
      (crashed h c d (.replace a n t x) k).content (fileOf c d a n) = some x) ∧
    ∀ q, q ≠ fileOf c d a n → q ≠ tempOf (fileOf c d a n) →
      (crashed h c d (.replace a n t x) k).content q = d.content q := by
  rcases crashed_replace h c d a n t x ht k with h0 | ⟨_, hp, _, _, j, h0⟩ | ⟨hp, h0, _⟩
  · rw [h0]; exact ⟨Or.inl rfl, fun _ _ _ => rfl⟩
  · rw [h0]
    refine ⟨Or.inl ?_, fun q _ hq => ?_⟩
    · rw [setFile_content, tempOf_eq, if_neg (fun e => tempPath_ne _ hp e.symm)]
    · rw [setFile_content, if_neg hq]
  · rw [h0]
    refine ⟨Or.inr ?_, fun q hq1 hq2 => ?_⟩
    · rw [afterReplace_content hp, tempOf_eq, if_neg (fun e => tempPath_ne _ hp e.symm), if_pos rfl]
    · rw [afterReplace_content hp, if_neg hq2, if_neg hq1]

/-- **C36.** The same for Remove: the file is untouched or gone, and nothing else has changed. -/
theorem C36_remove (h : Host) (c : AdminConf) (d : Disk) (a : Area) (n : Str) (t : Bytes)
    (k : Nat) :
    crashed h c d (.remove a n t) k = d ∨
    (crashed h c d (.remove a n t) k).content (fileOf c d a n) = none ∧
    ∀ q, q ≠ fileOf c d a n → (crashed h c d (.remove a n t) k).content q = d.content q := by
  unfold crashed
  cases hp : adminPlan h c d (Call.remove a n t).service (Call.remove a n t).arg
      (Call.remove a n t).payload with
  | error e => left; rfl
  | ok plan =>
    obtain ⟨h1, h2, h3, h4, h5, h6, h7, rfl⟩ := remove_ok.1 hp
    have harg : (Call.remove a n t).arg = n := rfl
    rw [harg] at h6 ⊢
    cases k with
    | zero => left; rfl
    | succ k =>
      right
      obtain ⟨b, hb⟩ := Option.ne_none_iff_exists'.1 h6
      simp only [List.take_succ_cons, List.take_nil, runWrites, Disk.apply, hb, Option.isSome_some,
        if_true]
      exact ⟨by rw [removeFile_content, if_pos rfl], fun q hq => by
        rw [removeFile_content, if_neg hq]⟩

/-- The temporary file of a policy file counts as a policy file with a bad name. -/
theorem temp_policyFile {h : Host} {c : AdminConf} {d : Disk} {n : Str} {b : Bytes}
    (hd : RealDisk d) (hl : NoLink c d .policy n)
    (htl : d.resolve (tempOf (fileOf c d .policy n)) = tempOf (fileOf c d .policy n))
    (h3 : (fileOf c d .policy n).dropLast = c.policy) (h4 : d.entries c.policy ≠ none) :
    PolicyFile ((d.setFile (tempOf (fileOf c d .policy n)) b).fs h) c.policy
      ('!' :: (n ++ c!".policy")) := by
  have hpol := policy_real hd h3
  have ht : tempOf (fileOf c d .policy n) = c.policy ++ ['!' :: (n ++ c!".policy")] :=
    (C34_which c d .policy n hl).2
  refine ⟨?_, ?_, ⟨'!' :: n, rfl⟩, by simp⟩
  · simp only [Disk.fs, setFile_resolve]
    rw [hpol]
    refine setFile_entries_mem.2 (Or.inr ⟨?_, h4, ?_⟩)
    · rw [ht]; simp
    · rw [ht]; simp [fileName]
  · simp only [Disk.fs, setFile_resolve]
    rw [← ht, htl, setFile_self_content]
    simp

/-- **C36.** A crash while a policy file is replaced: either the disk is the one before, or the
one after a successful Replace, or the policy does not load and (`C26_fail_closed`) every call is
refused. -/
theorem C36_policy (h : Host) (c : AdminConf) (d : Disk) (hd : RealDisk d) (n : Str)
    (hl : NoLink c d .policy n)
    (htl : d.resolve (tempOf (fileOf c d .policy n)) = tempOf (fileOf c d .policy n))
    (t x : Bytes) (ht : '\n' ∉ t) (k : Nat) :
    crashed h c d (.replace .policy n t x) k = d ∨
    (Call.replace .policy n t x).run h c d = (crashed h c d (.replace .policy n t x) k, .ok none) ∨
    filePolicy ((crashed h c d (.replace .policy n t x) k).fs h) c.legacy [c.policy] c.depth =
      .error (.accessDenied true) := by
  rcases crashed_replace h c d .policy n t x ht k with h0 | ⟨_, hp, h3, h4, j, h0⟩ | ⟨hp, h0, h1⟩
  · exact Or.inl h0
  · right; right
    rw [h0]
    exact C26_bad_name _ _ _ _ c.policy (by simp) _ (temp_policyFile hd hl htl h3 h4) '!'
      (by simp) (by unfold PolicyNameChar; decide)
  · right; left
    rw [h1, h0]

theorem filterFilepaths_bad {fs : FS} {d : Path} {names : List Str} {name : Str}
    (hd : fs.dir d = some names) (hp : PolicyFile fs d name) {ch : Char} (hc : ch ∈ name)
    (hbad : ¬ PolicyNameChar ch) : filterFilepaths fs d names = .error (.accessDenied true) := by
  unfold filterFilepaths
  have : (names.filter (isPolicyFile fs d)).all (fun n => n.all fileNameChar) = false := by
    rw [List.all_eq_false]
    refine ⟨name, List.mem_filter.2 ⟨?_, ?_⟩, ?_⟩
    · obtain ⟨ns, h1, h2⟩ := hp.1
      rw [hd] at h1; cases h1; exact h2
    · unfold isPolicyFile
      rw [Option.isSome_iff_ne_none.2 hp.2.1]
      simp only [Bool.true_and, Bool.and_eq_true, Bool.not_eq_true']
      refine ⟨endsWith_iff.2 hp.2.2.1, ?_⟩
      cases hn : name with
      | nil => rfl
      | cons b bs =>
        have := hp.2.2.2
        rw [hn] at this
        simp only [List.head?_cons, ne_eq, Option.some.injEq] at this
        simp [startsWith, List.isPrefixOf, Ne.symm this]
    · intro hall
      rw [List.all_eq_true] at hall
      exact hbad ((policyNameChar_iff ch).1 (hall ch hc))
  simp only [this, require]
  rfl

/-- After such a crash in the middle of a Replace in the policy directory, the API is stuck: no
request changes anything, and no Replace or Remove succeeds, until the temporary file is removed
by other means. -/
theorem C36_stuck (h : Host) (c : AdminConf) (d : Disk) (hd : RealDisk d) (n : Str)
    (hl : NoLink c d .policy n)
    (htl : d.resolve (tempOf (fileOf c d .policy n)) = tempOf (fileOf c d .policy n))
    (t x : Bytes) (ht : '\n' ∉ t) (k : Nat)
    (hmid : (crashed h c d (.replace .policy n t x) k).content (tempOf (fileOf c d .policy n)) ≠ none)
    (hne : crashed h c d (.replace .policy n t x) k ≠ d) (call : Call) :
    (call.run h c (crashed h c d (.replace .policy n t x) k)).1 =
      crashed h c d (.replace .policy n t x) k ∧
    (∀ a m t' x', call = .replace a m t' x' ∨ call = .remove a m t' →
      ∃ e, (call.run h c (crashed h c d (.replace .policy n t x) k)).2 = .error e) := by
  rcases crashed_replace h c d .policy n t x ht k with h0 | ⟨_, hp, h3, h4, j, h0⟩ | ⟨hp, h0, h1⟩
  · exact absurd h0 hne
  · rw [h0]
    have hpf := temp_policyFile (h := h) (b := x.take j) hd hl htl h3 h4
    have hval : ∀ p o, adminValidate h c (d.setFile (tempOf (fileOf c d .policy n)) (x.take j)) p o
        ≠ .ok () := by
      intro p o hv
      have hv := wrapOSError_ok.1 (adminValidate_ok hv)
      obtain ⟨l, hl, -⟩ := bind_eq_ok.1 hv
      unfold validateDirFiles at hl
      obtain ⟨names, hn, -⟩ := hpf.1
      rw [hn] at hl
      simp only at hl
      rw [filterFilepaths_bad hn hpf (ch := '!') (by simp) (by unfold PolicyNameChar; decide)] at hl
      simp [bind, Except.bind] at hl
    have hplan : ∀ r ws, adminPlan h c (d.setFile (tempOf (fileOf c d .policy n)) (x.take j))
        call.service call.arg call.payload = .ok (r, ws) → ws = [] ∧
        ∀ a m t' x', ¬ (call = .replace a m t' x' ∨ call = .remove a m t') := by
      intro r ws hp
      cases call with
      | replace a m t' x' =>
        obtain ⟨token, data, text, h1, h2, h3, h4, h5, h6, h7, h8, _⟩ := replace_ok.1 hp
        exact absurd h8 (hval _ _)
      | remove a m t' =>
        obtain ⟨h1, h2, h3, h4, h5, h6, h7, _⟩ := remove_ok.1 hp
        exact absurd h7 (hval _ _)
      | list b =>
        refine ⟨?_, by simp⟩
        rcases plan_cases hp with hw | ⟨a, n, t, x, he⟩ | ⟨a, n, t, he⟩
        · exact hw
        all_goals exact absurd he (by cases a <;> cases b <;> simp [Call.service, Area.prefix])
      | get b m =>
        refine ⟨?_, by simp⟩
        rcases plan_cases hp with hw | ⟨a, n, t, x, he⟩ | ⟨a, n, t, he⟩
        · exact hw
        all_goals exact absurd he (by cases a <;> cases b <;> simp [Call.service, Area.prefix])
      | getFiles s =>
        refine ⟨?_, by simp⟩
        rcases plan_cases hp with hw | ⟨a, n, t, x, he⟩ | ⟨a, n, t, he⟩
        · exact hw
        all_goals exact absurd he (by cases a <;> simp [Call.service, Area.prefix])
    unfold Call.run handleAdmin
    cases hpl : adminPlan h c (d.setFile (tempOf (fileOf c d .policy n)) (x.take j)) call.service
        call.arg call.payload with
    | error e => exact ⟨rfl, fun _ _ _ _ _ => ⟨e, rfl⟩⟩
    | ok plan =>
      obtain ⟨r, ws⟩ := plan
      obtain ⟨rfl, hno⟩ := hplan r ws hpl
      exact ⟨rfl, fun a m t' x' hcall => absurd hcall (hno a m t' x')⟩
  · rw [h0, afterReplace_content hp, if_pos rfl] at hmid
    exact absurd rfl hmid

/-- **C36.** A crash while an include file is replaced: the disk is the one before, or the one
after a successful Replace, or the policy loads with the same rules as before.  (When it loaded
before, there was no temporary file, and no symbolic links.) -/
theorem C36_include (h : Host) (c : AdminConf) (d : Disk) (hd : RealDisk d) (hnl : NoLinks d)
    (n : Str) (hl : NoLink c d .incl n)
    (hnt : d.content (tempOf (fileOf c d .incl n)) = none)
    (hunlisted : ∀ ns, d.entries (c.policy ++ [c!"include"]) = some ns → ('!' :: n) ∉ ns)
    (hleg : d.resolve c.legacy ≠ c.policy ++ [c!"include"])
    (t x : Bytes) (ht : '\n' ∉ t) (k : Nat) (rules : List Rule)
    (hload : filePolicy (d.fs h) c.legacy [c.policy] c.depth = .ok rules) :
    crashed h c d (.replace .incl n t x) k = d ∨
    (Call.replace .incl n t x).run h c d = (crashed h c d (.replace .incl n t x) k, .ok none) ∨
    filePolicy ((crashed h c d (.replace .incl n t x) k).fs h) c.legacy [c.policy] c.depth =
      .ok rules := by
  rcases crashed_replace h c d .incl n t x ht k with h0 | ⟨hn, hp, h3, h4, j, h0⟩ | ⟨hp, h0, h1⟩
  · exact Or.inl h0
  · right; right
    rw [h0]
    have htemp : tempOf (fileOf c d .incl n) = c.policy ++ [c!"include"] ++ ['!' :: n] := by
      have := (C34_which c d .incl n hl).2
      simpa [Area.dir, Area.suffix] using this
    have hfn : fileName (tempOf (fileOf c d .incl n)) = '!' :: n := by
      rw [htemp]; simp [fileName]
    have hdl : (tempOf (fileOf c d .incl n)).dropLast = c.policy ++ [c!"include"] := by
      rw [htemp]; simp
    have hnp : ¬ ∃ stem, '!' :: n = stem ++ c!".policy" := by
      rintro ⟨stem, hs⟩
      have hmem : ('.' : Char) ∈ '!' :: n := by rw [hs]; simp
      rw [List.mem_cons] at hmem
      rcases hmem with hmem | hmem
      · exact absurd hmem (by decide)
      · exact absurd (hn.2 _ hmem) (by decide)
    have hlisted : ∀ q m ns, d.entries q = some ns → m ∈ ns →
        q ++ [m] ≠ tempOf (fileOf c d .incl n) := by
      intro q m ns hq hm e
      rw [htemp] at e
      have e1 : q = c.policy ++ [c!"include"] := by
        have := congrArg List.dropLast e; simpa using this
      have e2 : m = '!' :: n := by
        have := congrArg List.getLast? e; simpa using this
      rw [e1] at hq; rw [e2] at hm
      exact hunlisted ns hq hm
    have hreal : d.resolve (c.policy ++ [c!"include"]) = c.policy ++ [c!"include"] := dir_real hd h3
    refine extended_policy (f := d.fs h) (t := tempOf (fileOf c d .incl n)) ?_ ?_ ?_ _ rules hload
    · refine ⟨rfl, hd.idem, ?_, ?_, ?_, ?_, ?_, by rw [hfn]; exact hnp⟩
      · intro q hq
        simp only [Disk.fs, setFile_resolve] at hq ⊢
        rw [setFile_content, if_neg hq]
      · intro q hq
        simp only [Disk.fs] at hq ⊢
        rw [hq, hnt]
        rfl
      · intro q
        simp only [Disk.fs, setFile_resolve]
        exact setFile_entries_isSome _ _ _ _
      · intro q ns ns' h1 h2
        simp only [Disk.fs, setFile_resolve, Disk.setFile] at h1 h2
        split at h2
        · rw [h1] at h2
          simp only [Option.map_some, Option.some.injEq] at h2
          split at h2
          · exact Or.inl h2.symm
          · exact Or.inr h2.symm
        · rw [h1] at h2; cases h2; exact Or.inl rfl
      · intro q ns m h1 hm he
        simp only [Disk.fs] at h1 he
        rw [← hd.through, hnl _ _ _ h1 hm] at he
        exact absurd he (hlisted _ _ _ h1 hm)
    · simp only [Disk.fs, setFile_resolve, Disk.setFile]
      rw [if_neg (by rw [hdl]; exact hleg)]
    · intro ns m h1 hm he
      simp only [Disk.fs] at h1 he
      rw [← hd.through, hnl _ _ _ h1 hm] at he
      exact hlisted _ _ _ h1 hm he
  · right; left
    rw [h1, h0]

/-- A crash point of `C36_stuck`: the temporary file exists, incomplete. -/
example : (crashed exampleHost exampleConf diskA (.replace .policy c!"b" c!"new" c!"# comment") 4).content
    (tempOf (fileOf exampleConf diskA .policy c!"b")) = some c!"# c" := by rfl

/-- A crash point of `C36_include` in the middle. -/
example : (crashed exampleHost exampleConf diskA (.replace .incl c!"b" c!"new" c!"# comment") 3).content
    (tempOf (fileOf exampleConf diskA .incl c!"b")) = some c!"# " ∧
    (∃ rules, filePolicy (diskA.fs exampleHost) exampleConf.legacy [exampleConf.policy]
      exampleConf.depth = .ok rules) := ⟨rfl, _, rfl⟩

end Qrexec
