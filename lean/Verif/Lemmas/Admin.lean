import Verif.Lemmas.LoadErr
import Verif.Spec.Admin
import Mathlib.Tactic.Tauto
import Mathlib.Tactic.SplitIfs

namespace Qrexec
open Spec

/-! ### Disks -/

theorem Disk.ext' {a b : Disk} (h1 : a.resolve = b.resolve) (h2 : ∀ p, a.content p = b.content p)
    (h3 : ∀ p, a.entries p = b.entries p) : a = b := by
  cases a; cases b
  simp only [Disk.mk.injEq]
  exact ⟨h1, funext h2, funext h3⟩

@[simp] theorem setFile_resolve (d : Disk) (p : Path) (b : Bytes) :
    (d.setFile p b).resolve = d.resolve := rfl
@[simp] theorem removeFile_resolve (d : Disk) (p : Path) :
    (d.removeFile p).resolve = d.resolve := rfl

theorem setFile_content (d : Disk) (p : Path) (b : Bytes) (q : Path) :
    (d.setFile p b).content q = if q = p then some b else d.content q := rfl
theorem removeFile_content (d : Disk) (p : Path) (q : Path) :
    (d.removeFile p).content q = if q = p then none else d.content q := rfl

theorem setFile_entries_isSome (d : Disk) (p : Path) (b : Bytes) (q : Path) :
    ((d.setFile p b).entries q).isSome = (d.entries q).isSome := by
  unfold Disk.setFile
  simp only
  split
  · simp
  · rfl

theorem removeFile_entries_isSome (d : Disk) (p : Path) (q : Path) :
    ((d.removeFile p).entries q).isSome = (d.entries q).isSome := by
  unfold Disk.removeFile
  simp only
  split
  · simp
  · rfl

theorem setFile_setFile (d : Disk) (p : Path) (a b : Bytes) :
    (d.setFile p a).setFile p b = d.setFile p b := by
  apply Disk.ext'
  · rfl
  · intro q
    simp only [setFile_content]
    split <;> rfl
  · intro q
    unfold Disk.setFile
    simp only
    split
    · cases d.entries q with
      | none => rfl
      | some ns =>
        simp only [Option.map_some, Option.some.injEq]
        by_cases hc : ns.contains (fileName p) = true
        · rw [if_pos hc, if_pos hc]
        · rw [if_neg hc, if_pos (by simp)]
    · rfl

theorem setFile_self_content (d : Disk) (p : Path) (b : Bytes) :
    (d.setFile p b).content p = some b := by simp [setFile_content]

theorem runWrites_append (d : Disk) (ws1 ws2 : List Write) :
    runWrites d (ws1 ++ ws2) =
      match runWrites d ws1 with
      | (d', none) => runWrites d' ws2
      | r => r := by
  induction ws1 generalizing d with
  | nil => rfl
  | cons w ws ih =>
    simp only [List.cons_append, runWrites]
    cases d.apply w with
    | error e => rfl
    | ok d' => exact ih d'

theorem runWrites_appends (d : Disk) (p : Path) (done data : Bytes) :
    runWrites (d.setFile p done) (data.map (.append p)) = (d.setFile p (done ++ data), none) := by
  induction data generalizing done with
  | nil => simp [runWrites]
  | cons b bs ih =>
    simp only [List.map_cons, runWrites, Disk.apply, setFile_self_content, setFile_setFile]
    rw [ih]
    simp

/-- The state after all of `replaceWrites`. -/
def afterReplace (d : Disk) (p : Path) (data : Bytes) : Disk :=
  ((d.setFile (tempPath p) data).setFile p data).removeFile (tempPath p)

theorem create_ok {d : Disk} {p : Path} (h1 : d.entries p = none) (h2 : d.entries p.dropLast ≠ none) :
    d.apply (.create p) = .ok (d.setFile p []) := by
  simp only [Disk.apply]
  rw [h1]
  obtain ⟨x, hx⟩ := Option.ne_none_iff_exists'.1 h2
  rw [hx]
  simp

theorem create_error {d : Disk} {p : Path} (h : ¬ (d.entries p = none ∧ d.entries p.dropLast ≠ none)) :
    d.apply (.create p) = .error .osError := by
  simp only [Disk.apply]
  rw [if_pos]
  rw [Bool.or_eq_true]
  by_cases hx : d.entries p = none
  · right
    by_cases hy : d.entries p.dropLast = none
    · simp [hy]
    · exact absurd ⟨hx, hy⟩ h
  · left
    obtain ⟨x, hx⟩ := Option.ne_none_iff_exists'.1 hx
    simp [hx]

theorem runWrites_replace (d : Disk) (p : Path) (data : Bytes) :
    runWrites d (replaceWrites p data) =
      if d.entries (tempPath p) = none ∧ d.entries (tempPath p).dropLast ≠ none then
        if d.entries p = none then (afterReplace d p data, none)
        else (d.setFile (tempPath p) data, some .osError)
      else (d, some .osError) := by
  unfold replaceWrites
  by_cases hc : d.entries (tempPath p) = none ∧ d.entries (tempPath p).dropLast ≠ none
  · rw [if_pos hc]
    simp only [List.cons_append, runWrites, create_ok hc.1 hc.2]
    rw [runWrites_append, runWrites_appends]
    simp only [List.nil_append, runWrites, Disk.apply, setFile_self_content, Option.isSome_some,
      if_true]
    rw [setFile_entries_isSome]
    by_cases hp : d.entries p = none
    · rw [if_pos hp, hp]
      simp [afterReplace]
    · rw [if_neg hp]
      obtain ⟨x, hx⟩ := Option.ne_none_iff_exists'.1 hp
      simp [hx]
  · rw [if_neg hc]
    simp only [List.cons_append, runWrites, create_error hc]

theorem tempPath_ne (p : Path) (hp : p ≠ []) : tempPath p ≠ p := by
  rw [← List.dropLast_append_getLast hp]
  unfold tempPath fileName
  simp only [List.dropLast_concat, List.getLast?_concat, Option.getD_some]
  intro h
  have h := List.append_cancel_left h
  simp only [List.cons.injEq, and_true] at h
  have := congrArg List.length h
  simp at this

theorem dropLast_append_fileName {p : Path} (hp : p ≠ []) : p.dropLast ++ [fileName p] = p := by
  unfold fileName
  rw [List.getLast?_eq_some_getLast hp]
  simp only [Option.getD_some]
  exact List.dropLast_append_getLast hp

theorem tempPath_dropLast (p : Path) : (tempPath p).dropLast = p.dropLast := by
  unfold tempPath
  simp

theorem tempOf_eq (p : Path) : tempOf p = tempPath p := rfl

/-! ### Names and paths -/

theorem adminNameChar_iff (c : Char) : adminNameChar c = true ↔
    c ∈ c!"0123456789abcdefghijklmnopqrstuvwxyzABCDEFGHIJKLMNOPQRSTUVWXYZ_-" := by
  constructor
  · intro h
    have hlt : c.toNat < 128 := by
      unfold adminNameChar at h
      simp only [Bool.or_eq_true, Bool.and_eq_true, decide_eq_true_eq, beq_iff_eq] at h
      have z : ∀ a b : Char, a ≤ b ↔ a.toNat ≤ b.toNat := fun a b => Iff.rfl
      simp only [z] at h
      rcases h with ((((h | h) | h) | h) | h)
      · have := h.2; have e : ('9' : Char).toNat = 57 := rfl; omega
      · have := h.2; have e : ('z' : Char).toNat = 122 := rfl; omega
      · have := h.2; have e : ('Z' : Char).toNat = 90 := rfl; omega
      · rw [h]; decide
      · rw [h]; decide
    rw [← char_ofNat_toNat c] at h ⊢
    generalize c.toNat = n at hlt h ⊢
    revert h
    revert n
    decide
  · intro h
    have key : ∀ ch ∈ c!"0123456789abcdefghijklmnopqrstuvwxyzABCDEFGHIJKLMNOPQRSTUVWXYZ_-",
        adminNameChar ch = true := by decide
    exact key c h

theorem adminPath_ok {d : Disk} {arg : Str} {c : AdminConf} {a : Area} {p : Path} :
    adminPath d arg (a.dir c) a.suffix = .ok p ↔
      AdminName arg ∧ p = fileOf c d a arg ∧ p.dropLast = a.dir c ∧ p ≠ [] := by
  unfold adminPath AdminName fileOf
  have hb : (arg.isEmpty || !arg.all adminNameChar) = true ↔ ¬ (arg ≠ [] ∧ ∀ ch ∈ arg,
      ch ∈ c!"0123456789abcdefghijklmnopqrstuvwxyzABCDEFGHIJKLMNOPQRSTUVWXYZ_-") := by
    have hall : arg.all adminNameChar = true ↔ ∀ ch ∈ arg,
        ch ∈ c!"0123456789abcdefghijklmnopqrstuvwxyzABCDEFGHIJKLMNOPQRSTUVWXYZ_-" := by
      rw [List.all_eq_true]
      exact ⟨fun h x hx => (adminNameChar_iff x).1 (h x hx), fun h x hx => (adminNameChar_iff x).2 (h x hx)⟩
    rw [← hall, Bool.or_eq_true, List.isEmpty_iff, Bool.not_eq_true', not_and_or]
    simp
  by_cases hc : (arg.isEmpty || !arg.all adminNameChar) = true
  · rw [if_pos hc]
    simp only [reduceCtorEq, false_iff]
    exact fun h => hb.1 hc h.1
  · rw [if_neg hc]
    have hc' := not_not.1 (fun h => hc (hb.2 h))
    simp only [hc', true_and]
    by_cases hp : ((decide ((d.resolve (a.dir c ++ [arg ++ a.suffix])).dropLast = a.dir c)) &&
        !(d.resolve (a.dir c ++ [arg ++ a.suffix])).isEmpty) = true
    · rw [if_pos hp]
      simp only [Bool.and_eq_true, decide_eq_true_eq, Bool.not_eq_true', List.isEmpty_eq_false_iff] at hp
      constructor
      · intro h; cases h; exact ⟨⟨hc'.1, hc'.2⟩, rfl, hp⟩
      · rintro ⟨_, rfl, _⟩; rfl
    · rw [if_neg hp]
      simp only [reduceCtorEq, false_iff]
      rintro ⟨_, rfl, h⟩
      apply hp
      simp [h]

end Qrexec

namespace Qrexec
open Spec

/-! ### Plans -/

theorem abind_ok {α β : Type} {x : Except AdminErr α} {f : α → Except AdminErr β} {b : β} :
    (x >>= f) = .ok b ↔ ∃ a, x = .ok a ∧ f a = .ok b := by
  cases x with
  | error e => simp [bind, Except.bind]
  | ok a => simp [bind, Except.bind]

/-- `handle_request` for Replace. -/
theorem plan_replace (h : Host) (c : AdminConf) (d : Disk) (a : Area) (n : Str) (t x : Bytes)
    (arg : Str) (payload : Bytes) :
    adminPlan h c d (Call.replace a n t x).service arg payload =
      if !arg.all rpcNameChar then .error .protocol
      else locked c d (do
        let p ← adminPath d arg (a.dir c) a.suffix
        adminReplace h c d p payload) := by
  cases a <;> rfl

theorem plan_remove (h : Host) (c : AdminConf) (d : Disk) (a : Area) (n : Str) (t : Bytes)
    (arg : Str) (payload : Bytes) :
    adminPlan h c d (Call.remove a n t).service arg payload =
      if !arg.all rpcNameChar then .error .protocol
      else locked c d (do
        let p ← adminPath d arg (a.dir c) a.suffix
        adminRemove h c d p payload) := by
  cases a <;> rfl

theorem plan_get (h : Host) (c : AdminConf) (d : Disk) (a : Area) (n : Str)
    (arg : Str) (payload : Bytes) :
    adminPlan h c d (Call.get a n).service arg payload =
      if !arg.all rpcNameChar then .error .protocol
      else noneGiven payload (locked c d (do
        let p ← adminPath d arg (a.dir c) a.suffix
        adminGet h d p)) := by
  cases a <;> rfl

theorem plan_list (h : Host) (c : AdminConf) (d : Disk) (a : Area) (arg : Str) (payload : Bytes) :
    adminPlan h c d (Call.list a).service arg payload =
      if !arg.all rpcNameChar then .error .protocol
      else noneGiven arg (noneGiven payload (locked c d (adminList d (a.dir c) a.suffix))) := by
  cases a <;> rfl

theorem plan_getFiles (h : Host) (c : AdminConf) (d : Disk) (s : Str) (arg : Str) (payload : Bytes) :
    adminPlan h c d (Call.getFiles s).service arg payload =
      if !arg.all rpcNameChar then .error .protocol
      else noneGiven payload (locked c d (adminGetFiles h c d arg)) := rfl

theorem locked_ok {c : AdminConf} {d : Disk} {k : Except AdminErr Plan} {r : Plan} :
    locked c d k = .ok r ↔ d.entries (d.resolve c.policy) ≠ none ∧ k = .ok r := by
  unfold locked
  cases d.entries (d.resolve c.policy) <;> simp

theorem noneGiven_ok {s : Str} {k : Except AdminErr Plan} {r : Plan} :
    noneGiven s k = .ok r ↔ s = [] ∧ k = .ok r := by
  unfold noneGiven
  cases s <;> simp

theorem ite_error_ok {b : Bool} {e : AdminErr} {k : Except AdminErr Plan} {r : Plan} :
    (if (!b) = true then .error e else k) = .ok r ↔ b = true ∧ k = .ok r := by
  cases b <;> simp

theorem checkToken_ok {h : Host} {d : Disk} {p : Path} {t : Bytes} :
    checkToken h d p t = .ok () ↔
      t = c!"any" ∨ (t = c!"new" ∧ d.content p = none ∧ d.entries p = none) ∨
      ∃ data, d.content p = some data ∧ t = tokenOf h data := by
  unfold checkToken
  by_cases h1 : t = c!"any"
  · subst h1; simp
  rw [if_neg (by simpa using h1)]
  simp only [h1, false_or]
  by_cases h2 : t = c!"new"
  · subst h2
    simp only [beq_self_eq_true, if_true, true_and]
    unfold Disk.exists
    have h3 : ∀ data, c!"new" ≠ tokenOf h data := by intro data; simp [tokenOf]
    cases hx : d.content p <;> cases hy : d.entries p <;> simp [h3]
  rw [if_neg (by simpa using h2)]
  simp only [h2, false_and, false_or]
  by_cases h3 : startsWith c!"sha256:" t = true
  · rw [if_neg (by simp only [h3]; simp)]
    unfold Disk.exists
    cases hx : d.content p with
    | none => cases hy : d.entries p <;> simp
    | some data =>
      simp only [Option.isSome_some, Bool.true_or, Bool.not_true, Bool.false_eq_true, if_false,
        Option.some.injEq, exists_eq_left']
      unfold computeToken tokenOf
      by_cases he : t = c!"sha256:" ++ h.hash data
      · rw [if_pos (by rw [he]; exact beq_self_eq_true _)]
        simp only [true_iff]; exact he
      · rw [if_neg (fun hh => he (beq_iff_eq.1 hh).symm)]
        simp only [reduceCtorEq, false_iff]; exact he
  · rw [if_pos (by simp only [Bool.not_eq_true] at h3; rw [h3]; rfl)]
    simp only [reduceCtorEq, false_iff]
    rintro ⟨data, _, rfl⟩
    exact h3 (startsWith_append _ _)

theorem adminName_rpc {n : Str} (h : AdminName n) : n.all rpcNameChar = true := by
  rw [List.all_eq_true]
  intro x hx
  have key : ∀ ch ∈ c!"0123456789abcdefghijklmnopqrstuvwxyzABCDEFGHIJKLMNOPQRSTUVWXYZ_-",
      rpcNameChar ch = true := by decide
  exact key x (h.2 x hx)

/-- What a successful plan of Replace looked at. -/
theorem replace_ok {h : Host} {c : AdminConf} {d : Disk} {a : Area} {n : Str} {t x : Bytes}
    {arg : Str} {payload : Bytes} {r : Plan} :
    adminPlan h c d (Call.replace a n t x).service arg payload = .ok r ↔
      ∃ token data text,
        d.entries (d.resolve c.policy) ≠ none ∧ AdminName arg ∧
        (fileOf c d a arg).dropLast = a.dir c ∧ fileOf c d a arg ≠ [] ∧
        splitOnce '\n' payload = some (token, data) ∧
        checkToken h d (fileOf c d a arg) token = .ok () ∧ h.decode data = some text ∧
        adminValidate h c d (fileOf c d a arg) (some text) = .ok () ∧
        r = (none, replaceWrites (fileOf c d a arg) data) := by
  rw [plan_replace, ite_error_ok, locked_ok, abind_ok]
  constructor
  · rintro ⟨hrpc, hdir, p, hp, hr⟩
    obtain ⟨hn, rfl, h1, h2⟩ := adminPath_ok.1 hp
    unfold adminReplace at hr
    cases hs : splitOnce '\n' payload with
    | none => rw [hs] at hr; simp at hr
    | some td =>
      obtain ⟨token, data⟩ := td
      rw [hs] at hr
      simp only [abind_ok] at hr
      obtain ⟨u, hu, hr⟩ := hr
      cases hd : h.decode data with
      | none => rw [hd] at hr; simp at hr
      | some text =>
        rw [hd] at hr
        simp only [abind_ok] at hr
        obtain ⟨v, hv, hr⟩ := hr
        simp only [pure, Except.pure, Except.ok.injEq] at hr
        exact ⟨token, data, text, hdir, hn, h1, h2, rfl, hu, hd, hv, hr.symm⟩
  · rintro ⟨token, data, text, hdir, hn, h1, h2, hs, hu, hd, hv, rfl⟩
    refine ⟨adminName_rpc hn, hdir, _, adminPath_ok.2 ⟨hn, rfl, h1, h2⟩, ?_⟩
    unfold adminReplace
    rw [hs]
    simp only [hu, hd, hv]
    rfl

theorem remove_ok {h : Host} {c : AdminConf} {d : Disk} {a : Area} {n : Str} {t : Bytes}
    {arg : Str} {payload : Bytes} {r : Plan} :
    adminPlan h c d (Call.remove a n t).service arg payload = .ok r ↔
        d.entries (d.resolve c.policy) ≠ none ∧ AdminName arg ∧
        (fileOf c d a arg).dropLast = a.dir c ∧ fileOf c d a arg ≠ [] ∧
        checkToken h d (fileOf c d a arg) payload = .ok () ∧
        d.content (fileOf c d a arg) ≠ none ∧
        adminValidate h c d (fileOf c d a arg) none = .ok () ∧
        r = (none, [.unlink (fileOf c d a arg)]) := by
  rw [plan_remove, ite_error_ok, locked_ok, abind_ok]
  constructor
  · rintro ⟨hrpc, hdir, p, hp, hr⟩
    obtain ⟨hn, rfl, h1, h2⟩ := adminPath_ok.1 hp
    unfold adminRemove at hr
    obtain ⟨u, hu, hr⟩ := abind_ok.1 hr
    cases hx : d.content (fileOf c d a arg) with
    | none => rw [hx] at hr; simp at hr
    | some data =>
      rw [hx] at hr
      simp only [abind_ok] at hr
      obtain ⟨v, hv, hr⟩ := hr
      simp only [pure, Except.pure, Except.ok.injEq] at hr
      exact ⟨hdir, hn, h1, h2, hu, by simp, hv, hr.symm⟩
  · rintro ⟨hdir, hn, h1, h2, hu, hx, hv, rfl⟩
    refine ⟨adminName_rpc hn, hdir, _, adminPath_ok.2 ⟨hn, rfl, h1, h2⟩, ?_⟩
    unfold adminRemove
    obtain ⟨data, hx⟩ := Option.ne_none_iff_exists'.1 hx
    rw [hx]
    simp only [hu, hv]
    rfl

theorem get_ok {h : Host} {c : AdminConf} {d : Disk} {a : Area} {n : Str}
    {arg : Str} {payload : Bytes} {r : Plan} :
    adminPlan h c d (Call.get a n).service arg payload = .ok r ↔
        payload = [] ∧ d.entries (d.resolve c.policy) ≠ none ∧ AdminName arg ∧
        (fileOf c d a arg).dropLast = a.dir c ∧ fileOf c d a arg ≠ [] ∧
        ∃ data, d.content (fileOf c d a arg) = some data ∧
        r = (some (tokenOf h data ++ '\n' :: data), []) := by
  rw [plan_get, ite_error_ok, noneGiven_ok, locked_ok, abind_ok]
  constructor
  · rintro ⟨hrpc, hpl, hdir, p, hp, hr⟩
    obtain ⟨hn, rfl, h1, h2⟩ := adminPath_ok.1 hp
    unfold adminGet at hr
    cases hx : d.content (fileOf c d a arg) with
    | none => rw [hx] at hr; simp at hr
    | some data =>
      rw [hx] at hr
      simp only [Except.ok.injEq] at hr
      exact ⟨hpl, hdir, hn, h1, h2, data, rfl, hr.symm⟩
  · rintro ⟨hpl, hdir, hn, h1, h2, data, hx, rfl⟩
    refine ⟨adminName_rpc hn, hpl, hdir, _, adminPath_ok.2 ⟨hn, rfl, h1, h2⟩, ?_⟩
    unfold adminGet
    rw [hx]
    rfl

/-- Only Replace and Remove write. -/
theorem plan_cases {h : Host} {c : AdminConf} {d : Disk} {service arg : Str} {payload : Bytes}
    {r : Plan} (hr : adminPlan h c d service arg payload = .ok r) :
    r.2 = [] ∨ (∃ a n t x, service = (Call.replace a n t x).service) ∨
      ∃ a n t, service = (Call.remove a n t).service := by
  have mk : ∀ s1 s2 : Str, (s1 == s2) = true → s1 = s2 := fun _ _ => beq_iff_eq.1
  unfold adminPlan at hr
  rw [ite_error_ok] at hr
  obtain ⟨_, hr⟩ := hr
  have hlist : ∀ {dir suf}, adminList d dir suf = .ok r → r.2 = [] := by
    intro dir suf hh
    unfold adminList at hh
    split at hh
    · simp at hh
    · simp only at hh
      split at hh
      · simp only [Except.ok.injEq] at hh; rw [← hh]
      · simp at hh
  have hget : ∀ {p}, adminGet h d p = .ok r → r.2 = [] := by
    intro p hh
    unfold adminGet at hh
    split at hh
    · simp at hh
    · simp only [Except.ok.injEq] at hh; rw [← hh]
  by_cases h1 : (service == c!"policy.List") = true
  · rw [if_pos h1, noneGiven_ok, noneGiven_ok, locked_ok] at hr
    exact Or.inl (hlist hr.2.2.2)
  rw [if_neg h1] at hr
  by_cases h1 : (service == c!"policy.include.List") = true
  · rw [if_pos h1, noneGiven_ok, noneGiven_ok, locked_ok] at hr
    exact Or.inl (hlist hr.2.2.2)
  rw [if_neg h1] at hr
  by_cases h1 : (service == c!"policy.Get") = true
  · rw [if_pos h1, noneGiven_ok, locked_ok, abind_ok] at hr
    obtain ⟨_, _, p, _, hr⟩ := hr
    exact Or.inl (hget hr)
  rw [if_neg h1] at hr
  by_cases h1 : (service == c!"policy.include.Get") = true
  · rw [if_pos h1, noneGiven_ok, locked_ok, abind_ok] at hr
    obtain ⟨_, _, p, _, hr⟩ := hr
    exact Or.inl (hget hr)
  rw [if_neg h1] at hr
  by_cases h1 : (service == c!"policy.Replace") = true
  · exact Or.inr (Or.inl ⟨.policy, [], [], [], beq_iff_eq.1 h1⟩)
  rw [if_neg h1] at hr
  by_cases h1 : (service == c!"policy.include.Replace") = true
  · exact Or.inr (Or.inl ⟨.incl, [], [], [], beq_iff_eq.1 h1⟩)
  rw [if_neg h1] at hr
  by_cases h1 : (service == c!"policy.Remove") = true
  · exact Or.inr (Or.inr ⟨.policy, [], [], beq_iff_eq.1 h1⟩)
  rw [if_neg h1] at hr
  by_cases h1 : (service == c!"policy.include.Remove") = true
  · exact Or.inr (Or.inr ⟨.incl, [], [], beq_iff_eq.1 h1⟩)
  rw [if_neg h1] at hr
  by_cases h1 : (service == c!"policy.GetFiles") = true
  · rw [if_pos h1, noneGiven_ok, locked_ok] at hr
    obtain ⟨_, _, hr⟩ := hr
    left
    unfold adminGetFiles at hr
    split at hr
    · simp at hr
    · split at hr
      · simp at hr
      · split at hr
        · simp at hr
        · simp only [Except.ok.injEq] at hr; rw [← hr]
  · rw [if_neg h1] at hr
    simp at hr

end Qrexec
