import Verif.Lemmas.Admin

/-! # C31-C34: the policy admin API -/
namespace Qrexec
open Spec

/-! ### Executing a request -/

theorem handleAdmin_ok {h : Host} {c : AdminConf} {d d' : Disk} {service arg : Str}
    {payload : Bytes} {r : Option Bytes} :
    handleAdmin h c d service arg payload = (d', .ok r) ↔
      ∃ ws, adminPlan h c d service arg payload = .ok (r, ws) ∧ runWrites d ws = (d', none) := by
  unfold handleAdmin
  cases hp : adminPlan h c d service arg payload with
  | error e => simp
  | ok x =>
    obtain ⟨reply, ws⟩ := x
    simp only [Except.ok.injEq, Prod.mk.injEq]
    rcases hw : runWrites d ws with ⟨d1, o⟩
    cases o with
    | none =>
      simp only [Prod.mk.injEq, Except.ok.injEq]
      constructor
      · rintro ⟨rfl, rfl⟩; exact ⟨ws, ⟨rfl, rfl⟩, hw⟩
      · rintro ⟨ws', ⟨rfl, rfl⟩, h2⟩
        rw [hw] at h2
        simp only [Prod.mk.injEq, and_true] at h2
        exact ⟨h2, rfl⟩
    | some e =>
      simp only [Prod.mk.injEq, reduceCtorEq, and_false, false_iff]
      rintro ⟨ws', ⟨rfl, rfl⟩, h2⟩
      rw [hw] at h2
      simp at h2

theorem splitOnce_append' {t x : Bytes} (ht : '\n' ∉ t) :
    splitOnce '\n' (t ++ '\n' :: x) = some (t, x) := splitOnce_append ht

/-- A successful Replace, in terms of what it saw and what it left. -/
theorem replace_run {h : Host} {c : AdminConf} {d d' : Disk} {a : Area} {n : Str} {t x : Bytes}
    {r : Option Bytes} (ht : '\n' ∉ t) (hr : (Call.replace a n t x).run h c d = (d', .ok r)) :
    d.entries (d.resolve c.policy) ≠ none ∧ AdminName n ∧
    (fileOf c d a n).dropLast = a.dir c ∧ fileOf c d a n ≠ [] ∧
    checkToken h d (fileOf c d a n) t = .ok () ∧
    (∃ text, h.decode x = some text ∧
      adminValidate h c d (fileOf c d a n) (some text) = .ok ()) ∧
    r = none ∧ d' = afterReplace d (fileOf c d a n) x ∧
    d.entries (fileOf c d a n) = none ∧ d.entries (a.dir c) ≠ none := by
  obtain ⟨ws, hp, hw⟩ := handleAdmin_ok.1 hr
  obtain ⟨token, data, text, h1, h2, h3, h4, h5, h6, h7, h8, h9⟩ := replace_ok.1 hp
  simp only [Call.payload, splitOnce_append' ht, Option.some.injEq, Prod.mk.injEq] at h5
  obtain ⟨rfl, rfl⟩ := h5
  simp only [Prod.mk.injEq] at h9
  obtain ⟨rfl, rfl⟩ := h9
  simp only [Call.arg] at *
  rw [runWrites_replace] at hw
  by_cases hc : d.entries (tempPath (fileOf c d a n)) = none ∧
      d.entries (tempPath (fileOf c d a n)).dropLast ≠ none
  · rw [if_pos hc] at hw
    rw [tempPath_dropLast, h3] at hc
    by_cases hc2 : d.entries (fileOf c d a n) = none
    · rw [if_pos hc2] at hw
      simp only [Prod.mk.injEq, and_true] at hw
      exact ⟨h1, h2, h3, h4, h6, ⟨text, h7, h8⟩, trivial, hw.symm, hc2, hc.2⟩
    · rw [if_neg hc2] at hw; simp at hw
  · rw [if_neg hc] at hw; simp at hw

/-- A successful Remove. -/
theorem remove_run {h : Host} {c : AdminConf} {d d' : Disk} {a : Area} {n : Str} {t : Bytes}
    {r : Option Bytes} (hr : (Call.remove a n t).run h c d = (d', .ok r)) :
    d.entries (d.resolve c.policy) ≠ none ∧ AdminName n ∧
    (fileOf c d a n).dropLast = a.dir c ∧ fileOf c d a n ≠ [] ∧
    checkToken h d (fileOf c d a n) t = .ok () ∧
    d.content (fileOf c d a n) ≠ none ∧
    adminValidate h c d (fileOf c d a n) none = .ok () ∧
    r = none ∧ d' = d.removeFile (fileOf c d a n) := by
  obtain ⟨ws, hp, hw⟩ := handleAdmin_ok.1 hr
  obtain ⟨h1, h2, h3, h4, h5, h6, h7, h8⟩ := remove_ok.1 hp
  simp only [Call.arg, Call.payload] at *
  simp only [Prod.mk.injEq] at h8
  obtain ⟨rfl, rfl⟩ := h8
  simp only [runWrites, Disk.apply] at hw
  obtain ⟨b, hb⟩ := Option.ne_none_iff_exists'.1 h6
  rw [hb] at hw
  simp only [Option.isSome_some, if_true, Prod.mk.injEq, and_true] at hw
  exact ⟨h1, h2, h3, h4, h5, h6, h7, rfl, hw.symm⟩

theorem get_run {h : Host} {c : AdminConf} {d d' : Disk} {a : Area} {n : Str}
    {r : Option Bytes} : (Call.get a n).run h c d = (d', .ok r) ↔
    d.entries (d.resolve c.policy) ≠ none ∧ AdminName n ∧
    (fileOf c d a n).dropLast = a.dir c ∧ fileOf c d a n ≠ [] ∧ d' = d ∧
    ∃ data, d.content (fileOf c d a n) = some data ∧ r = some (tokenOf h data ++ '\n' :: data) := by
  unfold Call.run
  rw [handleAdmin_ok]
  constructor
  · rintro ⟨ws, hp, hw⟩
    obtain ⟨_, h1, h2, h3, h4, data, h5, h6⟩ := get_ok.1 hp
    simp only [Prod.mk.injEq] at h6
    obtain ⟨rfl, rfl⟩ := h6
    simp only [runWrites, Prod.mk.injEq, and_true] at hw
    exact ⟨h1, h2, h3, h4, hw.symm, data, h5, rfl⟩
  · rintro ⟨h1, h2, h3, h4, rfl, data, h5, rfl⟩
    exact ⟨[], get_ok.2 ⟨rfl, h1, h2, h3, h4, data, h5, rfl⟩, rfl⟩

theorem afterReplace_content {d : Disk} {p : Path} (_ : p ≠ []) (x : Bytes) (q : Path) :
    (afterReplace d p x).content q =
      if q = tempOf p then none else if q = p then some x else d.content q := by
  unfold afterReplace
  rw [removeFile_content, tempOf_eq]
  split
  · rfl
  · rename_i h
    rw [setFile_content, setFile_content, if_neg h]

theorem afterReplace_resolve (d : Disk) (p : Path) (x : Bytes) :
    (afterReplace d p x).resolve = d.resolve := rfl

theorem afterReplace_isSome (d : Disk) (p : Path) (x : Bytes) (q : Path) :
    ((afterReplace d p x).entries q).isSome = (d.entries q).isSome := by
  unfold afterReplace
  rw [removeFile_entries_isSome, setFile_entries_isSome, setFile_entries_isSome]

theorem ne_none_of_isSome {α : Type} {a b : Option α} (h : a.isSome = b.isSome) (hb : b ≠ none) :
    a ≠ none := by
  cases a
  · cases b
    · exact absurd rfl hb
    · simp at h
  · simp

/-! ## C31 -/

/-- **C31.** A Replace succeeds only with the token `any`, with `new` when nothing has that
name, or with the token of the content the file has at that moment. -/
theorem C31_replace (h : Host) (c : AdminConf) (d d' : Disk) (a : Area) (n : Str) (t x : Bytes)
    (r : Option Bytes) (ht : '\n' ∉ t) (hr : (Call.replace a n t x).run h c d = (d', .ok r)) :
    t = c!"any" ∨ (t = c!"new" ∧ d.exists (fileOf c d a n) = false) ∨
      ∃ current, d.content (fileOf c d a n) = some current ∧ t = tokenOf h current := by
  obtain ⟨_, _, _, _, hc, _⟩ := replace_run ht hr
  rcases checkToken_ok.1 hc with h | ⟨h1, h2, h3⟩ | h
  · exact Or.inl h
  · exact Or.inr (Or.inl ⟨h1, by unfold Disk.exists; rw [h2, h3]; rfl⟩)
  · exact Or.inr (Or.inr h)

/-- **C31.** The same for Remove, which moreover needs the file to exist. -/
theorem C31_remove (h : Host) (c : AdminConf) (d d' : Disk) (a : Area) (n : Str) (t : Bytes)
    (r : Option Bytes) (hr : (Call.remove a n t).run h c d = (d', .ok r)) :
    ∃ current, d.content (fileOf c d a n) = some current ∧
      (t = c!"any" ∨ t = tokenOf h current) := by
  obtain ⟨_, _, _, _, hc, hx, _⟩ := remove_run hr
  obtain ⟨cur, hcur⟩ := Option.ne_none_iff_exists'.1 hx
  refine ⟨cur, hcur, ?_⟩
  rcases checkToken_ok.1 hc with h | ⟨_, h2, _⟩ | ⟨data, h1, h2⟩
  · exact Or.inl h
  · rw [h2] at hcur; simp at hcur
  · rw [h1] at hcur; cases hcur; exact Or.inr h2

/-- **C31.** No update is lost.  A client gets a file, anything at all may happen in between
(`d2` is any later state), and the client replaces the file with the token it got: if that
succeeds, then what is overwritten is what the client had read, or collides with it under
SHA-256. -/
theorem C31_no_lost_update (h : Host) (hhex : ∀ b, '\n' ∉ h.hash b) (c : AdminConf)
    (d d1 d2 d3 : Disk) (a : Area) (n : Str) (reply token data x : Bytes) (r : Option Bytes)
    (hget : (Call.get a n).run h c d = (d1, .ok (some reply)))
    (hsplit : splitOnce '\n' reply = some (token, data))
    (hrep : (Call.replace a n token x).run h c d2 = (d3, .ok r)) :
    d.content (fileOf c d a n) = some data ∧
    ∃ overwritten, d2.content (fileOf c d2 a n) = some overwritten ∧
      h.hash overwritten = h.hash data := by
  obtain ⟨_, _, _, _, rfl, data', hd', hr'⟩ := get_run.1 hget
  have hnl : '\n' ∉ tokenOf h data' := by
    unfold tokenOf
    rw [List.mem_append, not_or]
    exact ⟨by decide, hhex _⟩
  simp only [Option.some.injEq] at hr'
  rw [hr', splitOnce_append' hnl] at hsplit
  simp only [Option.some.injEq, Prod.mk.injEq] at hsplit
  obtain ⟨rfl, rfl⟩ := hsplit
  refine ⟨hd', ?_⟩
  rcases C31_replace h c d2 d3 a n _ x r hnl hrep with h1 | ⟨h1, _⟩ | ⟨cur, h1, h2⟩
  · simp [tokenOf] at h1
  · simp [tokenOf] at h1
  · refine ⟨cur, h1, ?_⟩
    unfold tokenOf at h2
    exact (List.append_cancel_left h2).symm

/-- **C31.** The same when the client's own update is a Remove. -/
theorem C31_no_lost_update_remove (h : Host) (hhex : ∀ b, '\n' ∉ h.hash b) (c : AdminConf)
    (d d1 d2 d3 : Disk) (a : Area) (n : Str) (reply token data : Bytes) (r : Option Bytes)
    (hget : (Call.get a n).run h c d = (d1, .ok (some reply)))
    (hsplit : splitOnce '\n' reply = some (token, data))
    (hrep : (Call.remove a n token).run h c d2 = (d3, .ok r)) :
    ∃ removed, d2.content (fileOf c d2 a n) = some removed ∧ h.hash removed = h.hash data := by
  obtain ⟨_, _, _, _, rfl, data', hd', hr'⟩ := get_run.1 hget
  have hnl : '\n' ∉ tokenOf h data' := by
    unfold tokenOf
    rw [List.mem_append, not_or]
    exact ⟨by decide, hhex _⟩
  simp only [Option.some.injEq] at hr'
  rw [hr', splitOnce_append' hnl] at hsplit
  simp only [Option.some.injEq, Prod.mk.injEq] at hsplit
  obtain ⟨rfl, rfl⟩ := hsplit
  obtain ⟨cur, h1, h2⟩ := C31_remove h c d2 d3 a n _ r hrep
  refine ⟨cur, h1, ?_⟩
  rcases h2 with h2 | h2
  · simp [tokenOf] at h2
  · unfold tokenOf at h2
    exact (List.append_cancel_left h2).symm

/-! ## C32 -/

/-- **C32.** After a successful Replace, Get of that name returns the token and exactly the
bytes stored, and no other file changed. -/
theorem C32_replace_get (h : Host) (c : AdminConf) (d d' : Disk) (a : Area) (n : Str)
    (t x : Bytes) (r : Option Bytes) (ht : '\n' ∉ t)
    (hr : (Call.replace a n t x).run h c d = (d', .ok r)) :
    (Call.get a n).run h c d' = (d', .ok (some (tokenOf h x ++ '\n' :: x))) ∧
    (∀ q, q ≠ fileOf c d a n → q ≠ tempOf (fileOf c d a n) → d'.content q = d.content q) ∧
    d'.content (tempOf (fileOf c d a n)) = none := by
  obtain ⟨h1, h2, h3, h4, _, _, rfl, rfl, h5, h6⟩ := replace_run ht hr
  have hf : fileOf c (afterReplace d (fileOf c d a n) x) a n = fileOf c d a n := rfl
  refine ⟨get_run.2 ⟨?_, h2, by rw [hf]; exact h3, by rw [hf]; exact h4, rfl, x, ?_, rfl⟩, ?_, ?_⟩
  · exact ne_none_of_isSome (afterReplace_isSome d _ x _) h1
  · rw [hf, afterReplace_content h4, if_neg, if_pos rfl]
    rw [tempOf_eq]; exact (tempPath_ne _ h4).symm
  · intro q hq1 hq2
    rw [afterReplace_content h4, if_neg hq2, if_neg hq1]
  · rw [afterReplace_content h4, if_pos rfl]

/-- **C32.** After a successful Remove, Get fails with "not found", and no other file
changed. -/
theorem C32_remove_get (h : Host) (c : AdminConf) (d d' : Disk) (a : Area) (n : Str)
    (t : Bytes) (r : Option Bytes)
    (hr : (Call.remove a n t).run h c d = (d', .ok r)) :
    (Call.get a n).run h c d' = (d', .error .notFound) ∧
    d'.content (fileOf c d a n) = none ∧
    ∀ q, q ≠ fileOf c d a n → d'.content q = d.content q := by
  obtain ⟨h1, h2, h3, h4, _, _, _, _, rfl⟩ := remove_run hr
  have hf : fileOf c (d.removeFile (fileOf c d a n)) a n = fileOf c d a n := rfl
  refine ⟨?_, by rw [removeFile_content, if_pos rfl],
    fun q hq => by rw [removeFile_content, if_neg hq]⟩
  unfold Call.run handleAdmin
  simp only [Call.arg, Call.payload]
  rw [plan_get, adminName_rpc h2]
  simp only [Bool.not_true, Bool.false_eq_true, if_false, noneGiven, locked, List.isEmpty_nil,
    if_true]
  rw [removeFile_resolve, removeFile_entries_isSome]
  obtain ⟨ns, hns⟩ := Option.ne_none_iff_exists'.1 h1
  rw [hns]
  simp only [Option.isSome_some, if_true]
  rw [(adminPath_ok (c := c) (a := a) (p := fileOf c d a n)).2 ⟨h2, hf.symm, h3, h4⟩]
  simp [bind, Except.bind, adminGet, removeFile_content]

theorem listedName_iff {a : Area} {f n : Str} :
    listedName a.suffix f = some n ↔ f = n ++ a.suffix := by
  unfold listedName
  cases a with
  | incl => simp [Area.suffix, eq_comm]
  | policy =>
    rw [if_neg (by simp [Area.suffix])]
    by_cases h : endsWith (Area.policy).suffix f = true
    · rw [if_pos h]
      unfold endsWith at h
      obtain ⟨s, hs⟩ := List.isSuffixOf_iff_suffix.1 h
      rw [← hs]
      simp [eq_comm]
    · rw [if_neg h]
      simp only [reduceCtorEq, false_iff]
      rintro rfl
      exact h (List.isSuffixOf_iff_suffix.2 ⟨n, rfl⟩)

/-- **C32.** List returns, one per line and sorted, exactly the names whose file exists. -/
theorem C32_list (h : Host) (c : AdminConf) (d d' : Disk) (a : Area) (r : Option Bytes)
    (hr : (Call.list a).run h c d = (d', .ok r)) :
    d' = d ∧ ∃ names : List Str, r = some (names.flatMap (· ++ c!"\n")) ∧
      names.Pairwise (fun x y => strLe x y = true) ∧ ∀ n, n ∈ names ↔ HasName c d a n := by
  obtain ⟨ws, hp, hw⟩ := handleAdmin_ok.1 hr
  rw [plan_list, ite_error_ok, noneGiven_ok, noneGiven_ok, locked_ok] at hp
  obtain ⟨_, _, _, _, hp⟩ := hp
  unfold adminList at hp
  split at hp
  · simp at hp
  · rename_i ns hns
    simp only at hp
    split at hp
    · simp only [Except.ok.injEq, Prod.mk.injEq] at hp
      obtain ⟨rfl, rfl⟩ := hp
      simp only [runWrites, Prod.mk.injEq, and_true] at hw
      refine ⟨hw.symm, _, rfl, sortBy_pairwise strLe_total (fun _ _ _ => strLe_trans) _, fun n => ?_⟩
      rw [mem_sortBy, List.mem_filterMap]
      simp only [listedName_iff, List.mem_filter]
      constructor
      · rintro ⟨f, ⟨hf, hc⟩, rfl⟩
        refine ⟨⟨ns, hns, hf⟩, ?_⟩
        unfold fileOf
        intro hx
        rw [hx] at hc
        simp at hc
      · rintro ⟨⟨ns', hns', hm⟩, hc⟩
        rw [hns] at hns'
        cases hns'
        refine ⟨_, ⟨hm, ?_⟩, rfl⟩
        obtain ⟨b, hb⟩ := Option.ne_none_iff_exists'.1 hc
        unfold fileOf at hb
        rw [hb]; rfl
    · simp at hp

theorem setFile_entries_mem {d : Disk} {p q : Path} {b : Bytes} {n : Str} :
    (∃ ns, (d.setFile p b).entries q = some ns ∧ n ∈ ns) ↔
      ((∃ ns, d.entries q = some ns ∧ n ∈ ns) ∨
        (q = p.dropLast ∧ d.entries q ≠ none ∧ n = fileName p)) := by
  unfold Disk.setFile
  simp only
  by_cases hq : q = p.dropLast
  · rw [if_pos hq]
    cases he : d.entries q with
    | none => simp
    | some ns =>
      simp only [Option.map_some, Option.some.injEq, exists_eq_left', hq, true_and, ne_eq,
        reduceCtorEq, not_false_eq_true]
      by_cases hc : ns.contains (fileName p) = true
      · rw [if_pos hc]
        constructor
        · exact Or.inl
        · rintro (h | rfl)
          · exact h
          · simpa using hc
      · rw [if_neg hc]
        simp
  · rw [if_neg hq]
    simp [hq]

theorem removeFile_entries_mem {d : Disk} {p q : Path} {n : Str} :
    (∃ ns, (d.removeFile p).entries q = some ns ∧ n ∈ ns) ↔
      (∃ ns, d.entries q = some ns ∧ n ∈ ns) ∧ ¬ (q = p.dropLast ∧ n = fileName p) := by
  unfold Disk.removeFile
  simp only
  by_cases hq : q = p.dropLast
  · rw [if_pos hq]
    cases he : d.entries q with
    | none => simp
    | some ns =>
      simp [hq]
  · rw [if_neg hq]
    simp [hq]

theorem afterReplace_entries_mem {d : Disk} {p q : Path} {b : Bytes} {n : Str} :
    (∃ ns, (afterReplace d p b).entries q = some ns ∧ n ∈ ns) ↔
      ((∃ ns, d.entries q = some ns ∧ n ∈ ns) ∨
        (q = p.dropLast ∧ d.entries q ≠ none ∧ n = fileName p)) ∧
      ¬ (q = p.dropLast ∧ n = '!' :: fileName p) := by
  have hl : ('!' :: fileName p) ≠ fileName p := by
    intro h; have := congrArg List.length h; simp at this
  have hfn : fileName (tempPath p) = '!' :: fileName p := by
    unfold tempPath; simp [fileName]
  have hn : ∀ x : Bytes, (d.setFile (tempPath p) x).entries q ≠ none ↔ d.entries q ≠ none := by
    intro x
    have := setFile_entries_isSome d (tempPath p) x q
    cases hx : (d.setFile (tempPath p) x).entries q <;> cases hy : d.entries q <;>
      simp [hx, hy] at this ⊢
  unfold afterReplace
  rw [removeFile_entries_mem, setFile_entries_mem, setFile_entries_mem, tempPath_dropLast, hfn, hn]
  constructor
  · rintro ⟨(h1 | h1) | h1, h2⟩
    · exact ⟨Or.inl h1, h2⟩
    · exact absurd ⟨h1.1, h1.2.2⟩ h2
    · exact ⟨Or.inr h1, h2⟩
  · rintro ⟨h1 | h1, h2⟩
    · exact ⟨Or.inl (Or.inl h1), h2⟩
    · exact ⟨Or.inr h1, h2⟩

theorem dir_real {c : AdminConf} {d : Disk} {a : Area} {n : Str} (hd : RealDisk d)
    (h : (fileOf c d a n).dropLast = a.dir c) : d.resolve (a.dir c) = a.dir c := by
  have := hd.parent (fileOf c d a n) (hd.idem _)
  rwa [h] at this

/-- **C32.** After a successful Replace the names of the area are those before and the replaced
one (when the name is not a symbolic link to another file). -/
theorem C32_replace_names (h : Host) (c : AdminConf) (d d' : Disk) (hd : RealDisk d) (a : Area)
    (n : Str) (hl : ∀ m, NoLink c d a m) (t x : Bytes) (r : Option Bytes) (ht : '\n' ∉ t)
    (hr : (Call.replace a n t x).run h c d = (d', .ok r)) (m : Str) (hm : AdminName m) :
    HasName c d' a m ↔ HasName c d a m ∨ m = n := by
  obtain ⟨h1, h2, h3, h4, _, _, rfl, rfl, h5, h6⟩ := replace_run ht hr
  have hfn : fileName (fileOf c d a n) = n ++ a.suffix := by
    rw [hl n]; simp [fileName]
  have hbang : ∀ k, m ++ a.suffix ≠ '!' :: k := by
    intro k he
    cases m with
    | nil => exact hm.1 rfl
    | cons ch m =>
      simp only [List.cons_append, List.cons.injEq] at he
      have := hm.2 ch (by simp)
      rw [he.1] at this
      exact absurd this (by decide)
  have hdir := dir_real hd h3
  unfold HasName
  have hf : fileOf c (afterReplace d (fileOf c d a n) x) a m = fileOf c d a m := rfl
  rw [afterReplace_entries_mem, hf, afterReplace_resolve, hdir, afterReplace_content h4]
  have hne : fileOf c d a m ≠ tempOf (fileOf c d a n) := by
    rw [hl m, tempOf_eq]
    unfold tempPath
    rw [h3]
    intro he
    have he := List.append_cancel_left he
    simp only [List.cons.injEq, and_true] at he
    exact hbang _ he
  rw [if_neg hne]
  have hmn : fileOf c d a m = fileOf c d a n ↔ m = n := by
    rw [hl m, hl n]
    constructor
    · intro he
      have he := List.append_cancel_left he
      simp only [List.cons.injEq, and_true] at he
      exact List.append_cancel_right he
    · rintro rfl; rfl
  constructor
  · rintro ⟨⟨h | h, _⟩, hc⟩
    · by_cases hmn' : m = n
      · exact Or.inr hmn'
      · rw [if_neg (fun he => hmn' (hmn.1 he))] at hc
        exact Or.inl ⟨h, hc⟩
    · right
      have := h.2.2
      rw [hfn] at this
      exact List.append_cancel_right this
  · rintro (⟨h, hc⟩ | rfl)
    · refine ⟨⟨Or.inl h, fun he => hbang _ he.2⟩, ?_⟩
      split
      · simp
      · exact hc
    · exact ⟨⟨Or.inr ⟨h3.symm, h6, hfn.symm⟩, fun he => hbang _ he.2⟩, by simp⟩

/-- **C32.** After a successful Remove the names of the area are the others. -/
theorem C32_remove_names (h : Host) (c : AdminConf) (d d' : Disk) (hd : RealDisk d) (a : Area)
    (n : Str) (hl : ∀ m, NoLink c d a m) (t : Bytes) (r : Option Bytes)
    (hr : (Call.remove a n t).run h c d = (d', .ok r)) (m : Str) :
    HasName c d' a m ↔ HasName c d a m ∧ m ≠ n := by
  obtain ⟨h1, h2, h3, h4, _, _, _, _, rfl⟩ := remove_run hr
  have hfn : fileName (fileOf c d a n) = n ++ a.suffix := by
    rw [hl n]; simp [fileName]
  have hdir := dir_real hd h3
  unfold HasName
  have hf : fileOf c (d.removeFile (fileOf c d a n)) a m = fileOf c d a m := rfl
  rw [removeFile_entries_mem, hf, removeFile_resolve, hdir, removeFile_content]
  have hmn : fileOf c d a m = fileOf c d a n ↔ m = n := by
    rw [hl m, hl n]
    constructor
    · intro he
      have he := List.append_cancel_left he
      simp only [List.cons.injEq, and_true] at he
      exact List.append_cancel_right he
    · rintro rfl; rfl
  constructor
  · rintro ⟨⟨h, _⟩, hc⟩
    by_cases hmn' : m = n
    · rw [if_pos (hmn.2 hmn')] at hc; simp at hc
    · rw [if_neg (fun he => hmn' (hmn.1 he))] at hc
      exact ⟨⟨h, hc⟩, hmn'⟩
  · rintro ⟨⟨h, hc⟩, hmn'⟩
    refine ⟨⟨h, ?_⟩, ?_⟩
    · rintro ⟨_, he⟩
      rw [hfn] at he
      exact hmn' (List.append_cancel_right he)
    · rw [if_neg (fun he => hmn' (hmn.1 he))]; exact hc

/-! ## C33, C34 -/

/-- The files an admin request may write: for Replace the file and its temporary file, for
Remove the file. -/
def Writable (c : AdminConf) (d : Disk) (service arg : Str) (q : Path) : Prop :=
  ∃ a, AdminName arg ∧ (fileOf c d a arg).dropLast = a.dir c ∧ fileOf c d a arg ≠ [] ∧
    ((∃ n t x, service = (Call.replace a n t x).service ∧
        (q = fileOf c d a arg ∨ q = tempOf (fileOf c d a arg))) ∨
     ((∃ n t, service = (Call.remove a n t).service) ∧ q = fileOf c d a arg))

theorem apply_resolve {d d' : Disk} {w : Write} (h : d.apply w = .ok d') :
    d'.resolve = d.resolve := by
  cases w with
  | create p =>
    simp only [Disk.apply] at h
    split at h
    · simp at h
    · simp only [Except.ok.injEq] at h; rw [← h]; rfl
  | append p b =>
    simp only [Disk.apply] at h
    split at h
    · simp at h
    · simp only [Except.ok.injEq] at h; rw [← h]; rfl
  | setOwner p =>
    simp only [Disk.apply] at h
    split at h
    · simp only [Except.ok.injEq] at h; rw [← h]
    · simp at h
  | rename p q =>
    simp only [Disk.apply] at h
    split at h
    · simp at h
    · split at h
      · simp at h
      · simp only [Except.ok.injEq] at h; rw [← h]; rfl
  | unlink p =>
    simp only [Disk.apply] at h
    split at h
    · simp only [Except.ok.injEq] at h; rw [← h]; rfl
    · simp at h
  | touch p =>
    simp only [Disk.apply] at h
    split at h
    · simp at h
    · simp only [Except.ok.injEq] at h; rw [← h]; split <;> rfl
  | appendText p b =>
    simp only [Disk.apply] at h
    split at h
    · simp at h
    · simp only [Except.ok.injEq] at h; rw [← h]; rfl

theorem runWrites_resolve (d : Disk) (ws : List Write) : (runWrites d ws).1.resolve = d.resolve := by
  induction ws generalizing d with
  | nil => rfl
  | cons w ws ih =>
    simp only [runWrites]
    cases ha : d.apply w with
    | error e => rfl
    | ok d' =>
      simp only
      rw [ih, apply_resolve ha]

/-- The paths an operation touches. -/
def Write.touches : Write → Path → Prop
  | .create p, q => q = p
  | .append p _, q => q = p
  | .setOwner p, q => q = p
  | .rename src dst, q => q = src ∨ q = dst
  | .unlink p, q => q = p
  | .touch p, q => q = p
  | .appendText p _, q => q = p

theorem apply_isSome {d d' : Disk} {w : Write} (h : d.apply w = .ok d') (q : Path) :
    (d'.entries q).isSome = (d.entries q).isSome := by
  cases w with
  | create p =>
    simp only [Disk.apply] at h
    split at h
    · simp at h
    · simp only [Except.ok.injEq] at h; rw [← h, setFile_entries_isSome]
  | append p b =>
    simp only [Disk.apply] at h
    split at h
    · simp at h
    · simp only [Except.ok.injEq] at h; rw [← h, setFile_entries_isSome]
  | setOwner p =>
    simp only [Disk.apply] at h
    split at h
    · simp only [Except.ok.injEq] at h; rw [← h]
    · simp at h
  | rename p p' =>
    simp only [Disk.apply] at h
    split at h
    · simp at h
    · split at h
      · simp at h
      · simp only [Except.ok.injEq] at h
        rw [← h, removeFile_entries_isSome, setFile_entries_isSome]
  | unlink p =>
    simp only [Disk.apply] at h
    split at h
    · simp only [Except.ok.injEq] at h; rw [← h, removeFile_entries_isSome]
    · simp at h
  | touch p =>
    simp only [Disk.apply] at h
    split at h
    · simp at h
    · simp only [Except.ok.injEq] at h; rw [← h]
      split
      · rfl
      · rw [setFile_entries_isSome]
  | appendText p b =>
    simp only [Disk.apply] at h
    split at h
    · simp at h
    · simp only [Except.ok.injEq] at h; rw [← h, setFile_entries_isSome]

theorem runWrites_isSome (d : Disk) (ws : List Write) (q : Path) :
    ((runWrites d ws).1.entries q).isSome = (d.entries q).isSome := by
  induction ws generalizing d with
  | nil => rfl
  | cons w ws ih =>
    simp only [runWrites]
    cases ha : d.apply w with
    | error e => rfl
    | ok d' =>
      simp only
      rw [ih, apply_isSome ha]

theorem handleAdmin_fst (h : Host) (c : AdminConf) (d : Disk) (service arg : Str)
    (payload : Bytes) : (handleAdmin h c d service arg payload).1 =
      match adminPlan h c d service arg payload with
      | .error _ => d
      | .ok plan => (runWrites d plan.2).1 := by
  unfold handleAdmin
  cases adminPlan h c d service arg payload with
  | error e => rfl
  | ok plan =>
    obtain ⟨reply, ws⟩ := plan
    simp only
    rcases runWrites d ws with ⟨d1, o⟩
    cases o <;> rfl

theorem run_isSome (h : Host) (c : AdminConf) (d : Disk) (call : Call) (q : Path) :
    ((call.run h c d).1.entries q).isSome = (d.entries q).isSome := by
  unfold Call.run
  rw [handleAdmin_fst]
  split
  · rfl
  · exact runWrites_isSome _ _ _

theorem apply_frame {d d' : Disk} {w : Write} (h : d.apply w = .ok d') {q : Path}
    (hq : ¬ w.touches q) : d'.content q = d.content q := by
  cases w with
  | create p =>
    simp only [Disk.apply] at h
    simp only [Write.touches] at hq
    split at h
    · simp at h
    · simp only [Except.ok.injEq] at h; rw [← h, setFile_content, if_neg hq]
  | append p b =>
    simp only [Disk.apply] at h
    simp only [Write.touches] at hq
    split at h
    · simp at h
    · simp only [Except.ok.injEq] at h; rw [← h, setFile_content, if_neg hq]
  | setOwner p =>
    simp only [Disk.apply] at h
    simp only [Write.touches] at hq
    split at h
    · simp only [Except.ok.injEq] at h; rw [← h]
    · simp at h
  | rename p p' =>
    simp only [Disk.apply] at h
    simp only [Write.touches, not_or] at hq
    split at h
    · simp at h
    · split at h
      · simp at h
      · simp only [Except.ok.injEq] at h
        rw [← h, removeFile_content, if_neg hq.1, setFile_content, if_neg hq.2]
  | unlink p =>
    simp only [Disk.apply] at h
    simp only [Write.touches] at hq
    split at h
    · simp only [Except.ok.injEq] at h; rw [← h, removeFile_content, if_neg hq]
    · simp at h
  | touch p =>
    simp only [Disk.apply] at h
    simp only [Write.touches] at hq
    split at h
    · simp at h
    · simp only [Except.ok.injEq] at h; rw [← h]
      split
      · rfl
      · rw [setFile_content, if_neg hq]
  | appendText p b =>
    simp only [Disk.apply] at h
    simp only [Write.touches] at hq
    split at h
    · simp at h
    · simp only [Except.ok.injEq] at h; rw [← h, setFile_content, if_neg hq]

theorem runWrites_frame {d : Disk} {ws : List Write} {q : Path}
    (hq : ∀ w ∈ ws, ¬ w.touches q) : (runWrites d ws).1.content q = d.content q := by
  induction ws generalizing d with
  | nil => rfl
  | cons w ws ih =>
    simp only [runWrites]
    cases ha : d.apply w with
    | error e => rfl
    | ok d' =>
      simp only
      rw [ih (fun w hw => hq w (by simp [hw])), apply_frame ha (hq w (by simp))]

theorem replaceWrites_touches {p q : Path} {data : Bytes} {w : Write}
    (hw : w ∈ replaceWrites p data) (h : w.touches q) : q = tempPath p ∨ q = p := by
  unfold replaceWrites at hw
  simp only [List.mem_cons, List.mem_append, List.mem_map, List.not_mem_nil, or_false] at hw
  rcases hw with (rfl | ⟨b, _, rfl⟩) | rfl | rfl
  · exact Or.inl h
  · exact Or.inl h
  · exact Or.inl h
  · exact h

/-- **C34.** Whatever the request is (any service name, argument and payload), and even if it
is interrupted after any number `k` of file system operations, the only files it can change are
the one its argument names and the temporary file beside it, both directly inside the policy
directory or its `include` subdirectory. -/
theorem C34_confined (h : Host) (c : AdminConf) (d : Disk) (service arg : Str) (payload : Bytes)
    (plan : Plan) (hp : adminPlan h c d service arg payload = .ok plan) (k : Nat) (q : Path)
    (hq : (runWrites d (plan.2.take k)).1.content q ≠ d.content q) :
    Writable c d service arg q ∧ (q.dropLast = c.policy ∨ q.dropLast = c.policy ++ [c!"include"]) := by
  have hdir : ∀ a : Area, a.dir c = c.policy ∨ a.dir c = c.policy ++ [c!"include"] := by
    intro a; cases a <;> simp [Area.dir]
  rcases plan_cases hp with hw | ⟨a, n, t, x, rfl⟩ | ⟨a, n, t, rfl⟩
  · rw [hw] at hq; simp [runWrites] at hq
  · obtain ⟨token, data, text, h1, h2, h3, h4, h5, h6, h7, h8, rfl⟩ := replace_ok.1 hp
    have hq' : q = tempPath (fileOf c d a arg) ∨ q = fileOf c d a arg := by
      by_contra hc
      apply hq
      apply runWrites_frame
      intro w hw ht
      exact hc (replaceWrites_touches (List.mem_of_mem_take hw) ht)
    refine ⟨⟨a, h2, h3, h4, Or.inl ⟨n, t, x, rfl, hq'.symm⟩⟩, ?_⟩
    have : q.dropLast = a.dir c := by
      rcases hq' with rfl | rfl
      · rw [tempPath_dropLast, h3]
      · exact h3
    rw [this]; exact hdir a
  · obtain ⟨h1, h2, h3, h4, h5, h6, h7, rfl⟩ := remove_ok.1 hp
    have hq' : q = fileOf c d a arg := by
      by_contra hc
      apply hq
      apply runWrites_frame
      intro w hw ht
      have := List.mem_of_mem_take hw
      simp only [List.mem_singleton] at this
      subst this
      exact hc ht
    refine ⟨⟨a, h2, h3, h4, Or.inr ⟨⟨n, t, rfl⟩, hq'⟩⟩, ?_⟩
    rw [hq', h3]; exact hdir a

/-- **C34.** Without symbolic links in the directory, the file is `<dir>/<name><suffix>` and
the temporary file is `<dir>/!<name><suffix>`. -/
theorem C34_which (c : AdminConf) (d : Disk) (a : Area) (n : Str) (hl : NoLink c d a n) :
    fileOf c d a n = a.dir c ++ [n ++ a.suffix] ∧
    tempOf (fileOf c d a n) = a.dir c ++ ['!' :: (n ++ a.suffix)] := by
  refine ⟨hl, ?_⟩
  rw [hl]
  simp [tempOf]

/-- **C34.** Get reads nothing but the file its argument names: if two disks agree on that file
(and on which directories exist), the answers are equal. -/
theorem C34_get_reads (h : Host) (c : AdminConf) (d e : Disk) (a : Area) (n : Str)
    (hr : d.resolve = e.resolve)
    (hdir : (d.entries (d.resolve c.policy)).isSome = (e.entries (e.resolve c.policy)).isSome)
    (hc : d.content (fileOf c d a n) = e.content (fileOf c d a n)) :
    ((Call.get a n).run h c d).2 = ((Call.get a n).run h c e).2 := by
  have hpath : ∀ arg dir suf, adminPath d arg dir suf = adminPath e arg dir suf := by
    intro arg dir suf
    unfold adminPath
    rw [hr]
  unfold Call.run handleAdmin
  simp only [Call.arg, Call.payload]
  have hplan : adminPlan h c d (Call.get a n).service n [] =
      adminPlan h c e (Call.get a n).service n [] := by
    rw [plan_get, plan_get]
    unfold locked
    rw [hdir, hpath]
    cases hp : adminPath e n (a.dir c) a.suffix with
    | error err => rfl
    | ok p =>
      rw [← hpath] at hp
      obtain ⟨_, rfl, _, _⟩ := adminPath_ok.1 hp
      simp only [bind, Except.bind, adminGet]
      rw [hc]
  rw [hplan]
  cases hp : adminPlan h c e (Call.get a n).service n [] with
  | error err => rfl
  | ok r =>
    obtain ⟨_, _, _, _, _, data, _, rfl⟩ := get_ok.1 hp
    rfl

/-- **C33.** A request refused with one of the API's own exceptions, or with any exception
before the first write, changes nothing. -/
theorem C33_rejected (h : Host) (c : AdminConf) (d d' : Disk) (service arg : Str)
    (payload : Bytes) (e : AdminErr)
    (hr : handleAdmin h c d service arg payload = (d', .error e))
    (he : e ≠ .internal .osError ∨ ∃ e', adminPlan h c d service arg payload = .error e') :
    d' = d := by
  unfold handleAdmin at hr
  cases hp : adminPlan h c d service arg payload with
  | error e' =>
    rw [hp] at hr
    simp only [Prod.mk.injEq] at hr
    exact hr.1.symm
  | ok plan =>
    obtain ⟨reply, ws⟩ := plan
    rw [hp] at hr he
    simp only [reduceCtorEq, exists_false, or_false] at he
    simp only at hr
    -- a failing write is an OSError
    have hw : ∀ (ws : List Write) (d d1 : Disk) (e1 : Err), runWrites d ws = (d1, some e1) →
        e1 = .osError := by
      intro ws
      induction ws with
      | nil => intro d d1 e1 h; simp [runWrites] at h
      | cons w ws ih =>
        intro d d1 e1 h
        simp only [runWrites] at h
        cases ha : d.apply w with
        | ok d2 => rw [ha] at h; exact ih _ _ _ h
        | error e2 =>
          rw [ha] at h
          simp only [Prod.mk.injEq, Option.some.injEq] at h
          rw [← h.2]
          cases w <;> simp only [Disk.apply] at ha <;> split at ha <;>
            first
            | (simp at ha; done)
            | (simp only [Except.error.injEq] at ha; exact ha.symm)
            | (split at ha
               · simp only [Except.error.injEq] at ha; exact ha.symm
               · simp at ha)
    rcases hx : runWrites d ws with ⟨d1, o⟩
    rw [hx] at hr
    cases o with
    | none => simp at hr
    | some e1 =>
      simp only [Prod.mk.injEq, Except.error.injEq] at hr
      rw [hw _ _ _ _ hx] at hr
      exact absurd hr.2.symm he

/-- **C33.** A failing request never changes a file other than the temporary one, even when it
fails while writing. -/
theorem C33_failed (h : Host) (c : AdminConf) (d d' : Disk) (a : Area) (n : Str) (t x : Bytes)
    (e : AdminErr) (ht : '\n' ∉ t)
    (hr : (Call.replace a n t x).run h c d = (d', .error e)) (q : Path)
    (hq : q ≠ tempOf (fileOf c d a n)) : d'.content q = d.content q := by
  unfold Call.run handleAdmin at hr
  cases hp : adminPlan h c d (Call.replace a n t x).service (Call.replace a n t x).arg
      (Call.replace a n t x).payload with
  | error e' =>
    rw [hp] at hr
    simp only [Prod.mk.injEq] at hr
    rw [hr.1]
  | ok plan =>
    rw [hp] at hr
    obtain ⟨token, data, text, h1, h2, h3, h4, h5, h6, h7, h8, rfl⟩ := replace_ok.1 hp
    simp only [Call.arg] at *
    rw [runWrites_replace] at hr
    by_cases hc : d.entries (tempPath (fileOf c d a n)) = none ∧
        d.entries (tempPath (fileOf c d a n)).dropLast ≠ none
    · rw [if_pos hc] at hr
      by_cases hc2 : d.entries (fileOf c d a n) = none
      · rw [if_pos hc2] at hr; simp at hr
      · rw [if_neg hc2] at hr
        simp only [Prod.mk.injEq] at hr
        rw [← hr.1, setFile_content, ← tempOf_eq, if_neg hq]
    · rw [if_neg hc] at hr
      simp only [Prod.mk.injEq] at hr
      rw [hr.1]

/-- **C33.** Every request other than Replace and Remove changes nothing, whatever its
argument, payload and result. -/
theorem C33_read_only (h : Host) (c : AdminConf) (d : Disk) (service arg : Str) (payload : Bytes)
    (hs : ∀ a n t x, service ≠ (Call.replace a n t x).service ∧
      service ≠ (Call.remove a n t).service) :
    (handleAdmin h c d service arg payload).1 = d := by
  unfold handleAdmin
  cases hp : adminPlan h c d service arg payload with
  | error e => rfl
  | ok plan =>
    obtain ⟨reply, ws⟩ := plan
    rcases plan_cases hp with hw | ⟨a, n, t, x, rfl⟩ | ⟨a, n, t, rfl⟩
    · simp only at hw
      subst hw
      rfl
    · exact absurd rfl (hs a n t x).1
    · exact absurd rfl (hs a n t []).2

/-! ### C31: a stale token is refused -/

/-- The request may write this file. -/
def MayWrite (c : AdminConf) (d : Disk) (call : Call) (q : Path) : Prop :=
  match call with
  | .replace a n _ _ => q = fileOf c d a n ∨ q = tempOf (fileOf c d a n)
  | .remove a n _ => q = fileOf c d a n
  | _ => False

theorem run_frame (h : Host) (c : AdminConf) (d : Disk) (call : Call) (q : Path)
    (hq : ¬ MayWrite c d call q) :
    (call.run h c d).1.content q = d.content q ∧ (call.run h c d).1.resolve = d.resolve := by
  unfold Call.run
  rw [handleAdmin_fst]
  cases hp : adminPlan h c d call.service call.arg call.payload with
  | error e => exact ⟨rfl, rfl⟩
  | ok plan =>
    simp only
    refine ⟨?_, runWrites_resolve d _⟩
    cases call with
    | list a =>
      rcases plan_cases hp with hw | ⟨a', n, t, x, he⟩ | ⟨a', n, t, he⟩
      · rw [hw]; rfl
      · cases a <;> cases a' <;> simp [Call.service, Area.prefix] at he
      · cases a <;> cases a' <;> simp [Call.service, Area.prefix] at he
    | getFiles s =>
      rcases plan_cases hp with hw | ⟨a', n, t, x, he⟩ | ⟨a', n, t, he⟩
      · rw [hw]; rfl
      · cases a' <;> simp [Call.service, Area.prefix] at he
      · cases a' <;> simp [Call.service, Area.prefix] at he
    | get a n =>
      obtain ⟨_, _, _, _, _, data, _, rfl⟩ := get_ok.1 hp
      rfl
    | replace a n t x =>
      obtain ⟨token, data, text, _, _, _, _, _, _, _, _, rfl⟩ := replace_ok.1 hp
      apply runWrites_frame
      intro w hw ht
      exact hq ((replaceWrites_touches hw ht).symm)
    | remove a n t =>
      obtain ⟨_, _, _, _, _, _, _, rfl⟩ := remove_ok.1 hp
      apply runWrites_frame
      intro w hw ht
      simp only [List.mem_singleton] at hw
      subst hw
      exact hq ht

theorem runAll_frame (h : Host) (c : AdminConf) (q : Path) : ∀ (qs : List Call) (d : Disk),
    (∀ call ∈ qs, ¬ MayWrite c d call q) →
    (runAll h c d qs).1.content q = d.content q ∧ (runAll h c d qs).1.resolve = d.resolve := by
  intro qs
  induction qs with
  | nil => intro d _; exact ⟨rfl, rfl⟩
  | cons call qs ih =>
    intro d hq
    simp only [runAll]
    have h1 := run_frame h c d call q (hq call (by simp))
    have hmw : ∀ call', MayWrite c (call.run h c d).1 call' q ↔ MayWrite c d call' q := by
      intro call'
      unfold MayWrite fileOf
      rw [h1.2]
    have h2 := ih (call.run h c d).1 (fun call' hc => by rw [hmw]; exact hq call' (by simp [hc]))
    exact ⟨h2.1.trans h1.1, h2.2.trans h1.2⟩

theorem runAll_isSome (h : Host) (c : AdminConf) : ∀ (qs : List Call) (d : Disk) (q : Path),
    ((runAll h c d qs).1.entries q).isSome = (d.entries q).isSome := by
  intro qs
  induction qs with
  | nil => intro d q; rfl
  | cons call qs ih =>
    intro d q
    simp only [runAll]
    rw [ih, run_isSome]

/-- **C31.** A client reads a file; another client then successfully stores something else (with
another hash); requests that do not write this file may follow; the first client's Replace with
its now stale token is refused with the token exception. -/
theorem C31_stale_token (h : Host) (hhex : ∀ b, '\n' ∉ h.hash b) (c : AdminConf)
    (d d1 d2 d3 : Disk) (a : Area) (n : Str) (data t y x : Bytes) (r : Option Bytes)
    (qs : List Call) (out : List (Except AdminErr (Option Bytes)))
    (hget : (Call.get a n).run h c d = (d1, .ok (some (tokenOf h data ++ '\n' :: data))))
    (ht : '\n' ∉ t) (hother : (Call.replace a n t y).run h c d1 = (d2, .ok r))
    (hy : h.hash y ≠ h.hash data)
    (hqs : runAll h c d2 qs = (d3, out))
    (hfree : ∀ call ∈ qs, ¬ MayWrite c d2 call (fileOf c d2 a n)) :
    (Call.replace a n (tokenOf h data) x).run h c d3 = (d3, .error .token) := by
  obtain ⟨g1, g2, g3, g4, rfl, data', g5, g6⟩ := get_run.1 hget
  obtain ⟨_, _, _, _, _, _, rfl, rfl, _, _⟩ := replace_run ht hother
  have hcont : (afterReplace d1 (fileOf c d1 a n) y).content (fileOf c d1 a n) = some y := by
    rw [afterReplace_content g4, if_neg, if_pos rfl]
    rw [tempOf_eq]; exact (tempPath_ne _ g4).symm
  have hf := runAll_frame h c _ qs _ hfree
  rw [hqs] at hf
  have hfile : fileOf c (afterReplace d1 (fileOf c d1 a n) y) a n = fileOf c d1 a n := rfl
  rw [hfile, hcont] at hf
  have hf3 : fileOf c d3 a n = fileOf c d1 a n := by unfold fileOf; rw [hf.2]; rfl
  have hnl : '\n' ∉ tokenOf h data := by
    unfold tokenOf
    rw [List.mem_append, not_or]
    exact ⟨by decide, hhex _⟩
  have hdir : d3.entries (d3.resolve c.policy) ≠ none := by
    have h1 := runAll_isSome h c qs (afterReplace d1 (fileOf c d1 a n) y) (d3.resolve c.policy)
    rw [hqs, afterReplace_isSome, hf.2] at h1
    rw [hf.2]
    exact ne_none_of_isSome h1 g1
  have hplan : adminPlan h c d3 (Call.replace a n (tokenOf h data) x).service n
      (tokenOf h data ++ '\n' :: x) = .error .token := by
    rw [plan_replace, adminName_rpc g2]
    simp only [Bool.not_true, Bool.false_eq_true, if_false, locked]
    obtain ⟨ns, hns⟩ := Option.ne_none_iff_exists'.1 hdir
    rw [hns]
    simp only [Option.isSome_some, if_true]
    rw [(adminPath_ok (c := c) (a := a) (p := fileOf c d3 a n)).2
      ⟨g2, rfl, by rw [hf3]; exact g3, by rw [hf3]; exact g4⟩]
    simp only [bind, Except.bind, adminReplace]
    rw [splitOnce_append' hnl]
    simp only
    have : checkToken h d3 (fileOf c d3 a n) (tokenOf h data) = .error .token := by
      have hne : computeToken h y ≠ tokenOf h data := by
        intro he
        exact hy (List.append_cancel_left he)
      have h1 : (tokenOf h data == c!"any") = false := rfl
      have h2 : (tokenOf h data == c!"new") = false := rfl
      have h3 : startsWith c!"sha256:" (tokenOf h data) = true := startsWith_append _ _
      unfold checkToken
      rw [h1, h2, h3, hf3]
      unfold Disk.exists
      rw [hf.1]
      simp [hne]
    rw [this]
  unfold Call.run handleAdmin
  simp only [Call.arg, Call.payload]
  rw [hplan]

end Qrexec
