import Verif.Model.Cache
import Mathlib.Tactic.Tauto
import Mathlib.Tactic.SplitIfs
import Mathlib.Tactic.ByContra
import Mathlib.Data.List.Induction

/-! # C37: the policy cache -/
namespace Qrexec

variable {D P : Type}

/-- The edits an event makes. -/
def editsOf : CacheEv D P → List D
  | .create _ during _ => during
  | .edit d => [d]
  | .get during _ _ => during
  | _ => []

/-- The number of edits in a history. -/
def editCount (es : List (CacheEv D P)) : Nat := (es.flatMap editsOf).length

/-- What the directories hold after a history. -/
def contentAfter (d0 : D) (es : List (CacheEv D P)) : D := ((es.flatMap editsOf).getLast?).getD d0

/-- What an event's loading of the policy gave, if it loaded it. -/
def loadedBy : CacheEv D P → Option (Except Err P)
  | .create _ _ l => l
  | .get _ l _ => l
  | _ => none

/-- `p` was loaded in the history, by a load that started after the first `n` edits. -/
def LoadedAfter (n : Nat) (p : P) (es : List (CacheEv D P)) : Prop :=
  ∃ before e after, es = before ++ e :: after ∧ loadedBy e = some (.ok p) ∧ n ≤ editCount before

theorem LoadedAfter.snoc {n : Nat} {p : P} {es : List (CacheEv D P)} (h : LoadedAfter n p es)
    (e : CacheEv D P) : LoadedAfter n p (es ++ [e]) := by
  obtain ⟨b, x, a, rfl, h1, h2⟩ := h
  exact ⟨b, x, a ++ [e], by simp, h1, h2⟩

theorem foldl_edit (w : CacheWorld D P) (ds : List D) :
    (ds.foldl CacheWorld.edit w).edits = w.edits + ds.length ∧
    (ds.foldl CacheWorld.edit w).cache = w.cache ∧
    (ds.foldl CacheWorld.edit w).watching = w.watching ∧
    (ds.foldl CacheWorld.edit w).disk = (ds.getLast?).getD w.disk ∧
    ∀ n, n ∈ (ds.foldl CacheWorld.edit w).pending ↔
      n ∈ w.pending ∨ (w.watching = true ∧ w.edits < n ∧ n ≤ w.edits + ds.length) := by
  induction ds generalizing w with
  | nil =>
    refine ⟨rfl, rfl, rfl, rfl, ?_⟩
    intro n
    simp only [List.foldl_nil, List.length_nil, Nat.add_zero]
    constructor
    · exact Or.inl
    · rintro (h | ⟨_, h⟩)
      · exact h
      · omega
  | cons d ds ih =>
    obtain ⟨h1, h2, h3, h4, h5⟩ := ih (w.edit d)
    simp only [List.foldl_cons, List.length_cons]
    refine ⟨?_, h2, h3, ?_, ?_⟩
    · rw [h1]; simp only [CacheWorld.edit]; omega
    · rw [h4]
      cases ds with
      | nil => rfl
      | cons a as =>
        rw [List.getLast?_cons_cons]
        cases hg : (a :: as).getLast? with
        | none => simp at hg
        | some x => rfl
    · intro n
      rw [h5]
      simp only [CacheWorld.edit]
      by_cases hw : w.watching = true
      · rw [if_pos hw]
        simp only [List.mem_append, List.mem_singleton, hw, true_and]
        constructor
        · rintro ((h | h) | h)
          · exact Or.inl h
          · right; omega
          · right; omega
        · rintro (h | h)
          · exact Or.inl (Or.inl h)
          · by_cases he : n = w.edits + 1
            · exact Or.inl (Or.inr he)
            · right; omega
      · rw [if_neg hw]
        constructor
        · rintro (h | h)
          · exact Or.inl h
          · exact absurd h.1 hw
        · rintro (h | h)
          · exact Or.inl h
          · exact absurd h.1 hw

theorem editCount_snoc (es : List (CacheEv D P)) (e : CacheEv D P) :
    editCount (es ++ [e]) = editCount es + (editsOf e).length := by
  unfold editCount
  simp [List.flatMap_append]

theorem contentAfter_snoc (d0 : D) (es : List (CacheEv D P)) (e : CacheEv D P) :
    contentAfter d0 (es ++ [e]) = ((editsOf e).getLast?).getD (contentAfter d0 es) := by
  unfold contentAfter
  rw [List.flatMap_append, List.getLast?_append]
  simp only [List.flatMap_cons, List.flatMap_nil, List.append_nil]
  cases (editsOf e).getLast? <;> simp

/-- The bookkeeping of the world, and the freshness invariant. -/
theorem cache_inv {Reads : List D → Except Err P → Prop} {d0 : D} {es : List (CacheEv D P)}
    {w : CacheWorld D P} (h : CacheRun Reads { disk := d0 } es w) :
    w.edits = editCount es ∧ w.disk = contentAfter d0 es ∧
    (∀ n ∈ w.pending, n ≤ editCount es) ∧
    (∀ n, CacheEv.deliver n ∈ es → n ≤ editCount es ∧ ∀ c, w.cache = some c →
      c.outdated = true ∨ ∃ p, c.policy = some p ∧ LoadedAfter n p es) ∧
    (∀ c, w.cache = some c → c.outdated = true ∨ ∃ p, c.policy = some p ∧ LoadedAfter 0 p es) := by
  generalize hw0 : ({ disk := d0 } : CacheWorld D P) = w0 at h
  induction h with
  | nil =>
    subst hw0
    exact ⟨rfl, rfl, by simp, by simp, by simp⟩
  | @snoc w2 w3 es e h hs ih =>
    subst hw0
    obtain ⟨i1, i2, i3, i4, i5⟩ := ih
    have hcount := editCount_snoc es e
    have hcont := contentAfter_snoc d0 es e
    have hmem : ∀ n, CacheEv.deliver n ∈ es ++ [e] → CacheEv.deliver n ∈ es ∨ e = .deliver n := by
      intro n hn
      rcases List.mem_append.1 hn with hn | hn
      · exact Or.inl hn
      · exact Or.inr (List.mem_singleton.1 hn).symm
    cases hs with
    | createLazy hc hi =>
      simp only [Cache.init, if_true, Except.ok.injEq] at hi
      subst hi
      simp only [editsOf, List.length_nil, Nat.add_zero, List.getLast?_nil, Option.getD_none] at hcount hcont
      rw [hcount, hcont]
      refine ⟨i1, i2, i3, ?_, ?_⟩
      · intro n hn
        rcases hmem n hn with hn | hn
        · exact ⟨(i4 n hn).1, fun c hc => by simp at hc; subst hc; exact Or.inl rfl⟩
        · simp at hn
      · intro c hc
        simp at hc
        subst hc
        exact Or.inl rfl
    | @create during load c hc hr hi =>
      obtain ⟨f1, f2, f3, f4, f5⟩ := foldl_edit w2 during
      simp only [editsOf] at hcount hcont
      rw [hcount, hcont]
      have hinit : ∃ p, load = .ok p ∧ c = { outdated := false, policy := some p } := by
        cases load with
        | error e => simp [Cache.init] at hi
        | ok p =>
          simp only [Cache.init, Bool.false_eq_true, if_false, Except.ok.injEq] at hi
          exact ⟨p, rfl, hi.symm⟩
      obtain ⟨p, rfl, rfl⟩ := hinit
      refine ⟨?_, ?_, ?_, ?_, ?_⟩
      · show _ = _; simp only [f1, i1]
      · show _ = _; simp only [f4, i2]
      · intro n hn
        rcases (f5 n).1 hn with h | h
        · have := i3 n h; omega
        · omega
      · intro n hn
        rcases hmem n hn with hn | hn
        · refine ⟨by have := (i4 n hn).1; omega, ?_⟩
          intro c hc
          simp only [Option.some.injEq] at hc
          subst hc
          exact Or.inr ⟨p, rfl, es, _, [], rfl, rfl, (i4 n hn).1⟩
        · simp at hn
      · intro c hc
        simp only [Option.some.injEq] at hc
        subst hc
        exact Or.inr ⟨p, rfl, es, _, [], rfl, rfl, Nat.zero_le _⟩
    | watch =>
      simp only [editsOf, List.length_nil, Nat.add_zero, List.getLast?_nil, Option.getD_none] at hcount hcont
      rw [hcount, hcont]
      refine ⟨i1, i2, i3, ?_, ?_⟩
      · intro n hn
        rcases hmem n hn with hn | hn
        · refine ⟨(i4 n hn).1, fun c hc => ?_⟩
          rcases (i4 n hn).2 c hc with h | ⟨p, h1, h2⟩
          · exact Or.inl h
          · exact Or.inr ⟨p, h1, h2.snoc _⟩
        · simp at hn
      · intro c hc
        rcases i5 c hc with h | ⟨p, h1, h2⟩
        · exact Or.inl h
        · exact Or.inr ⟨p, h1, h2.snoc _⟩
    | edit =>
      rename_i d
      simp only [editsOf, List.length_singleton, List.getLast?_singleton, Option.getD_some] at hcount hcont
      rw [hcount, hcont]
      refine ⟨?_, rfl, ?_, ?_, ?_⟩
      · simp only [CacheWorld.edit, i1]
      · intro n hn
        simp only [CacheWorld.edit] at hn
        split_ifs at hn with hw
        · rcases List.mem_append.1 hn with h | h
          · have := i3 n h; omega
          · simp only [List.mem_singleton] at h; omega
        · have := i3 n hn; omega
      · intro n hn
        rcases hmem n hn with hn | hn
        · refine ⟨by have := (i4 n hn).1; omega, fun c hc => ?_⟩
          rcases (i4 n hn).2 c hc with h | ⟨p, h1, h2⟩
          · exact Or.inl h
          · exact Or.inr ⟨p, h1, h2.snoc _⟩
        · simp at hn
      · intro c hc
        rcases i5 c hc with h | ⟨p, h1, h2⟩
        · exact Or.inl h
        · exact Or.inr ⟨p, h1, h2.snoc _⟩
    | @deliver k hk =>
      simp only [editsOf, List.length_nil, Nat.add_zero, List.getLast?_nil, Option.getD_none] at hcount hcont
      rw [hcount, hcont]
      have hout : ∀ c : Cache P, w2.cache.map Cache.notified = some c → c.outdated = true := by
        intro c hc
        cases hcc : w2.cache with
        | none => rw [hcc] at hc; simp at hc
        | some x =>
          rw [hcc] at hc
          simp only [Option.map_some, Option.some.injEq] at hc
          subst hc
          rfl
      refine ⟨i1, i2, ?_, ?_, ?_⟩
      · intro n hn
        exact i3 n (List.mem_filter.1 hn).1
      · intro n hn
        refine ⟨?_, fun c hc => Or.inl (hout c hc)⟩
        rcases hmem n hn with hn | hn
        · exact (i4 n hn).1
        · simp only [CacheEv.deliver.injEq] at hn
          subst hn
          exact i3 _ hk
      · exact fun c hc => Or.inl (hout c hc)
    | @get c during load hc hr =>
      obtain ⟨f1, f2, f3, f4, f5⟩ := foldl_edit w2 during
      simp only [editsOf] at hcount hcont
      rw [hcount, hcont]
      have hpend : ∀ n ∈ (during.foldl CacheWorld.edit w2).pending,
          n ≤ editCount es + during.length := by
        intro n hn
        rcases (f5 n).1 hn with h | h
        · have := i3 n h; omega
        · omega
      have hkey : ∀ n, n ≤ editCount es →
          (c.outdated = true ∨ ∃ p, c.policy = some p ∧ LoadedAfter n p es) →
          (c.getPolicy load).1.outdated = true ∨ ∃ p, (c.getPolicy load).1.policy = some p ∧
            LoadedAfter n p (es ++ [CacheEv.get during (if c.outdated then some load else none)
              (c.getPolicy load).2]) := by
        intro n hn hx
        unfold Cache.getPolicy
        by_cases ho : c.outdated = true
        · rw [if_pos ho]
          cases load with
          | error e => exact Or.inl ho
          | ok p =>
            exact Or.inr ⟨p, rfl, es, _, [], rfl, by simp [loadedBy, ho], hn⟩
        · rw [if_neg ho]
          rcases hx with hx | ⟨p, h1, h2⟩
          · exact absurd hx ho
          · exact Or.inr ⟨p, h1, h2.snoc _⟩
      refine ⟨by simp only [f1, i1], by simp only [f4, i2], hpend, ?_, ?_⟩
      · intro n hn
        rcases hmem n hn with hn | hn
        · refine ⟨by have := (i4 n hn).1; omega, ?_⟩
          intro c' hc'
          simp only [Option.some.injEq] at hc'
          subst hc'
          exact hkey n (i4 n hn).1 ((i4 n hn).2 c hc)
        · simp at hn
      · intro c' hc'
        simp only [Option.some.injEq] at hc'
        subst hc'
        exact hkey 0 (Nat.zero_le _) (i5 c hc)

/-- **C37.** Once the notification of the `n`-th edit has been delivered, every `get_policy`
either raises the error of a load it has just made, or returns a policy loaded by a load that
started after that edit. -/
theorem C37_fresh (Reads : List D → Except Err P → Prop) (d0 : D) (es : List (CacheEv D P))
    (w : CacheWorld D P) (during : List D) (loaded : Option (Except Err P))
    (res : Except Err (Option P))
    (h : CacheRun Reads { disk := d0 } (es ++ [.get during loaded res]) w) (n : Nat)
    (hd : CacheEv.deliver n ∈ es) :
    (∃ e, loaded = some (.error e) ∧ res = .error e) ∨
    ∃ p, res = .ok (some p) ∧ LoadedAfter n p (es ++ [.get during loaded res]) := by
  generalize hes : es ++ [.get during loaded res] = es' at h
  cases h with
  | nil => simp at hes
  | @snoc w2 _ es2 e h hs =>
    obtain ⟨rfl, hee⟩ := List.append_inj' hes rfl
    simp only [List.cons.injEq, and_true] at hee
    obtain ⟨i1, i2, i3, i4, i5⟩ := cache_inv h
    generalize hev : e = ev at hs
    cases hs with
    | createLazy => subst hev; cases hee
    | create => subst hev; cases hee
    | watch => subst hev; cases hee
    | edit => subst hev; cases hee
    | deliver => subst hev; cases hee
    | @get c during' load hc hr =>
      subst hee
      simp only [CacheEv.get.injEq] at hev
      obtain ⟨rfl, rfl, rfl⟩ := hev
      obtain ⟨j1, j2⟩ := i4 n hd
      rcases j2 c hc with ho | ⟨p, h1, h2⟩
      · unfold Cache.getPolicy
        rw [if_pos ho, if_pos ho]
        cases load with
        | error e => exact Or.inl ⟨e, rfl, rfl⟩
        | ok p => exact Or.inr ⟨p, rfl, es, _, [], rfl, rfl, j1⟩
      · unfold Cache.getPolicy
        by_cases ho : c.outdated = true
        · rw [if_pos ho, if_pos ho]
          cases load with
          | error e => exact Or.inl ⟨e, rfl, rfl⟩
          | ok p => exact Or.inr ⟨p, rfl, es, _, [], rfl, rfl, j1⟩
        · rw [if_neg ho]
          exact Or.inr ⟨p, by simp only [h1, if_neg ho], h2.snoc _⟩

/-- What a load gave was really read from the directories as they were then. -/
theorem reads_of_load {Reads : List D → Except Err P → Prop} {d0 : D} {es : List (CacheEv D P)}
    {w : CacheWorld D P} (h : CacheRun Reads { disk := d0 } es w) :
    ∀ before e after r, es = before ++ e :: after → loadedBy e = some r →
      Reads (contentAfter d0 before :: editsOf e) r := by
  generalize hw0 : ({ disk := d0 } : CacheWorld D P) = w0 at h
  induction h with
  | nil => intro b e a r h; simp at h
  | @snoc w2 w3 es e h hs ih =>
    subst hw0
    intro b x a r hx hr
    rcases List.eq_nil_or_concat a with rfl | ⟨a', y, rfl⟩
    · obtain ⟨rfl, hxe⟩ := List.append_inj' hx rfl
      simp only [List.cons.injEq, and_true] at hxe
      subst hxe
      obtain ⟨i1, i2, _⟩ := cache_inv h
      rw [← i2]
      cases hs with
      | createLazy => simp [loadedBy] at hr
      | create hc hrd hi =>
        simp only [loadedBy, Option.some.injEq] at hr
        subst hr
        exact hrd
      | watch => simp [loadedBy] at hr
      | edit => simp [loadedBy] at hr
      | deliver => simp [loadedBy] at hr
      | @get c during load hc hrd =>
        simp only [loadedBy] at hr
        split_ifs at hr with ho
        simp only [Option.some.injEq] at hr
        subst hr
        exact hrd ho
    · have hx' : es ++ [e] = (b ++ x :: a') ++ [y] := by rw [hx]; simp
      obtain ⟨he, _⟩ := List.append_inj' hx' rfl
      exact ih b x a' r he hr

/-- **C37.** When the notifications of all edits have been delivered and no edit is made
meanwhile, the policy returned is the one the directories hold, or the error of loading it is
raised. -/
theorem C37_current (Reads : List D → Except Err P → Prop) (d0 : D) (es : List (CacheEv D P))
    (w : CacheWorld D P) (loaded : Option (Except Err P)) (res : Except Err (Option P))
    (h : CacheRun Reads { disk := d0 } (es ++ [.get [] loaded res]) w)
    (hd : ∀ n, 1 ≤ n → n ≤ editCount es → CacheEv.deliver n ∈ es) (h1 : 1 ≤ editCount es) :
    ∃ r, Reads [contentAfter d0 es] r ∧ res = r.map some := by
  rcases C37_fresh Reads d0 es w [] loaded res h _ (hd _ h1 (Nat.le_refl _)) with
    ⟨e, he, hr⟩ | ⟨p, hr, before, ev, after, hsplit, hload, hn⟩
  · subst he
    refine ⟨.error e, ?_, hr⟩
    exact reads_of_load h es _ [] _ rfl rfl
  · refine ⟨.ok p, ?_, hr⟩
    have hread := reads_of_load h before ev after _ hsplit hload
    -- nothing was edited since that load started
    have hall : editCount (es ++ [CacheEv.get [] loaded res]) = editCount es := by
      rw [editCount_snoc]; rfl
    have hfl : (es ++ [CacheEv.get [] loaded res]).flatMap editsOf =
        before.flatMap editsOf ++ editsOf ev ++ after.flatMap editsOf := by
      rw [hsplit]; simp [List.flatMap_append]
    have hfl0 : (es ++ [CacheEv.get [] loaded res]).flatMap editsOf = es.flatMap editsOf := by
      rw [List.flatMap_append]; simp [editsOf]
    rw [hfl0] at hfl
    have hlen : (editsOf ev).length = 0 ∧ (after.flatMap editsOf).length = 0 := by
      have := congrArg List.length hfl
      simp only [List.length_append] at this
      unfold editCount at hn
      omega
    have e1 : editsOf ev = [] := List.length_eq_zero_iff.1 hlen.1
    have e2 : after.flatMap editsOf = [] := List.length_eq_zero_iff.1 hlen.2
    rw [e1] at hread
    have : contentAfter d0 before = contentAfter d0 es := by
      unfold contentAfter
      rw [hfl, e1, e2]
      simp
    rw [← this]
    exact hread

/-- **C37.** A failed load does not end with an answer, and does not count as one: until a load
succeeds, every `get_policy` loads again. -/
theorem C37_failed_load_retried (Reads : List D → Except Err P → Prop) (d0 : D)
    (es : List (CacheEv D P)) (w : CacheWorld D P) (during during' : List D) (e : Err)
    (loaded : Option (Except Err P)) (res res' : Except Err (Option P)) (between : List (CacheEv D P))
    (hb : ∀ x ∈ between, ∀ du l r, x ≠ .get du l r)
    (h : CacheRun Reads { disk := d0 }
      (es ++ [.get during (some (.error e)) res] ++ between ++ [.get during' loaded res']) w) :
    res = .error e ∧ ∃ l, loaded = some l ∧ res' = l.map some := by
  -- the state after the failing load, kept until the next `get_policy`
  have key : ∀ (between : List (CacheEv D P)), (∀ x ∈ between, ∀ du l r, x ≠ .get du l r) →
      ∀ w, CacheRun Reads { disk := d0 }
        (es ++ [.get during (some (.error e)) res] ++ between) w →
      res = .error e ∧ ∃ c, w.cache = some c ∧ c.outdated = true := by
    intro between
    induction between using List.reverseRecOn with
    | nil =>
      intro _ w h
      rw [List.append_nil] at h
      generalize hes : es ++ [CacheEv.get during (some (.error e)) res] = es' at h
      cases h with
      | nil => simp at hes
      | @snoc w2 _ es2 ev h hs =>
        obtain ⟨rfl, hee⟩ := List.append_inj' hes rfl
        simp only [List.cons.injEq, and_true] at hee
        generalize hev : ev = ev' at hs
        cases hs with
        | createLazy => subst hev; cases hee
        | create => subst hev; cases hee
        | watch => subst hev; cases hee
        | edit => subst hev; cases hee
        | deliver => subst hev; cases hee
        | @get c during' load hc hr =>
          subst hee
          simp only [CacheEv.get.injEq] at hev
          obtain ⟨_, hl, hres⟩ := hev
          split_ifs at hl with ho
          simp only [Option.some.injEq] at hl
          subst hl
          unfold Cache.getPolicy at hres ⊢
          rw [if_pos ho] at hres ⊢
          exact ⟨hres, c, rfl, ho⟩
    | append_singleton bs b ih =>
      intro hb w h
      rw [← List.append_assoc] at h
      generalize hes : es ++ [CacheEv.get during (some (.error e)) res] ++ bs ++ [b] = es' at h
      cases h with
      | nil => simp at hes
      | @snoc w2 _ es2 ev h hs =>
        obtain ⟨rfl, hee⟩ := List.append_inj' hes rfl
        simp only [List.cons.injEq, and_true] at hee
        subst hee
        obtain ⟨hr, c, hc, ho⟩ := ih (fun x hx => hb x (by simp [hx])) w2 h
        refine ⟨hr, ?_⟩
        have hbb := hb b (by simp)
        cases hs with
        | createLazy hn => rw [hn] at hc; simp at hc
        | create hn => rw [hn] at hc; simp at hc
        | watch => exact ⟨c, hc, ho⟩
        | edit => exact ⟨c, hc, ho⟩
        | deliver => exact ⟨c.notified, by simp only [hc, Option.map_some], rfl⟩
        | get => exact absurd rfl (hbb _ _ _)
  generalize hes : es ++ [CacheEv.get during (some (.error e)) res] ++ between ++
    [.get during' loaded res'] = es' at h
  cases h with
  | nil => simp at hes
  | @snoc w2 _ es2 ev h hs =>
    obtain ⟨rfl, hee⟩ := List.append_inj' hes rfl
    simp only [List.cons.injEq, and_true] at hee
    obtain ⟨hr, c, hc, ho⟩ := key between hb w2 h
    refine ⟨hr, ?_⟩
    generalize hev : ev = ev' at hs
    cases hs with
    | createLazy => subst hev; cases hee
    | create => subst hev; cases hee
    | watch => subst hev; cases hee
    | edit => subst hev; cases hee
    | deliver => subst hev; cases hee
    | @get c2 during2 load hc2 hr2 =>
      subst hee
      rw [hc] at hc2
      simp only [Option.some.injEq] at hc2
      subst hc2
      simp only [CacheEv.get.injEq] at hev
      obtain ⟨_, rfl, rfl⟩ := hev
      rw [if_pos ho]
      refine ⟨load, rfl, ?_⟩
      unfold Cache.getPolicy
      rw [if_pos ho]
      cases load <;> rfl

/-- **C37.** The policy is not loaded again without a notification: after an answer, and with no
notification handled since, the next `get_policy` gives the same answer and loads nothing. -/
theorem C37_not_reloaded (Reads : List D → Except Err P → Prop) (d0 : D)
    (es : List (CacheEv D P)) (w : CacheWorld D P) (during during' : List D) (q : Option P)
    (loaded loaded' : Option (Except Err P)) (res' : Except Err (Option P))
    (between : List (CacheEv D P)) (hb : ∀ n, CacheEv.deliver n ∉ between)
    (h : CacheRun Reads { disk := d0 }
      (es ++ [.get during loaded (.ok q)] ++ between ++ [.get during' loaded' res']) w) :
    loaded' = none ∧ res' = .ok q := by
  have key : ∀ (between : List (CacheEv D P)), (∀ n, CacheEv.deliver n ∉ between) →
      ∀ w, CacheRun Reads { disk := d0 } (es ++ [.get during loaded (.ok q)] ++ between) w →
      w.cache = some ⟨false, q⟩ := by
    intro between
    induction between using List.reverseRecOn with
    | nil =>
      intro _ w h
      rw [List.append_nil] at h
      generalize hes : es ++ [CacheEv.get during loaded (.ok q)] = es' at h
      cases h with
      | nil => simp at hes
      | @snoc w2 _ es2 ev h hs =>
        obtain ⟨rfl, hee⟩ := List.append_inj' hes rfl
        simp only [List.cons.injEq, and_true] at hee
        generalize hev : ev = ev' at hs
        cases hs with
        | createLazy => subst hev; cases hee
        | create => subst hev; cases hee
        | watch => subst hev; cases hee
        | edit => subst hev; cases hee
        | deliver => subst hev; cases hee
        | @get c during' load hc hr =>
          subst hee
          simp only [CacheEv.get.injEq] at hev
          obtain ⟨_, hl, hres⟩ := hev
          obtain ⟨o, pol⟩ := c
          unfold Cache.getPolicy at hres ⊢
          cases o with
          | true =>
            cases load with
            | error e => cases hres
            | ok p => cases hres; rfl
          | false => cases hres; rfl
    | append_singleton bs b ih =>
      intro hb w h
      rw [← List.append_assoc] at h
      generalize hes : es ++ [CacheEv.get during loaded (.ok q)] ++ bs ++ [b] = es' at h
      cases h with
      | nil => simp at hes
      | @snoc w2 _ es2 ev h hs =>
        obtain ⟨rfl, hee⟩ := List.append_inj' hes rfl
        simp only [List.cons.injEq, and_true] at hee
        subst hee
        have hc := ih (fun n hn => hb n (by simp [hn])) w2 h
        have hbb := fun n => hb n
        cases hs with
        | createLazy hn => rw [hn] at hc; simp at hc
        | create hn => rw [hn] at hc; simp at hc
        | watch => exact hc
        | edit => exact hc
        | @deliver n => exact absurd (by simp) (hb n)
        | @get c2 during2 load hc2 hr2 =>
          rw [hc] at hc2
          cases hc2
          rfl
  generalize hes : es ++ [CacheEv.get during loaded (.ok q)] ++ between ++
    [.get during' loaded' res'] = es' at h
  cases h with
  | nil => simp at hes
  | @snoc w2 _ es2 ev h hs =>
    obtain ⟨rfl, hee⟩ := List.append_inj' hes rfl
    simp only [List.cons.injEq, and_true] at hee
    have hc := key between hb w2 h
    generalize hev : ev = ev' at hs
    cases hs with
    | createLazy => subst hev; cases hee
    | create => subst hev; cases hee
    | watch => subst hev; cases hee
    | edit => subst hev; cases hee
    | deliver => subst hev; cases hee
    | @get c2 during2 load hc2 hr2 =>
      subst hee
      rw [hc] at hc2
      simp only [Option.some.injEq] at hc2
      subst hc2
      simp only [CacheEv.get.injEq] at hev
      obtain ⟨_, rfl, rfl⟩ := hev
      exact ⟨rfl, rfl⟩

/-- The directory holds a number, and loading gives it. -/
def exReads : List Nat → Except Err Nat → Prop := fun l r => ∃ n ∈ l, r = .ok n

/-- A history in which the policy is not loaded again: the hypotheses of `C37_not_reloaded`. -/
example : ∃ w, CacheRun exReads ({ disk := 0 } : CacheWorld Nat Nat)
    ([.create true [] none, .watch] ++ [.get [] (some (.ok 0)) (.ok (some 0))] ++ [.edit 7] ++
      [.get [] none (.ok (some 0))]) w := by
  have h1 : CacheRun exReads ({ disk := 0 } : CacheWorld Nat Nat) ([] ++ [.create true [] none]) _ :=
    .snoc .nil (.createLazy (c := ⟨true, none⟩) (load := .ok 0) rfl rfl)
  have h2 := h1.snoc .watch
  have h3 := h2.snoc (.get (c := ⟨true, none⟩) (during := []) (load := .ok 0) rfl
    (fun _ => ⟨0, by simp, rfl⟩))
  have h4 := h3.snoc (.edit (d := 7))
  exact ⟨_, h4.snoc (.get (c := ⟨false, some 0⟩) (during := []) (load := .ok 0) rfl
    (fun h => by simp at h))⟩

/-- A history in which an edit is noticed: the hypotheses of the theorems are met. -/
example : ∃ w, CacheRun exReads ({ disk := 0 } : CacheWorld Nat Nat)
    ([.create false [] (some (.ok 0)), .watch, .edit 7, .deliver 1] ++
      [.get [] (some (.ok 7)) (.ok (some 7))]) w := by
  have h1 : CacheRun exReads ({ disk := 0 } : CacheWorld Nat Nat)
      ([] ++ [.create false [] (some (.ok 0))]) _ :=
    .snoc .nil (.create (c := ⟨false, some 0⟩) rfl ⟨0, by simp, rfl⟩ rfl)
  have h2 := h1.snoc .watch
  have h3 := h2.snoc (.edit (d := 7))
  have h4 := h3.snoc (.deliver (n := 1) (by decide))
  exact ⟨_, h4.snoc (.get (c := ⟨true, some 0⟩) (during := []) (load := .ok 7) rfl
    (fun _ => ⟨7, by decide, rfl⟩))⟩

/-- **C37, the gap at start-up.**  The daemon loads the policy before it starts watching
(qrexec_policy_daemon.py:326-327): an edit made in between is never noticed.  No notification is
outstanding, yet the answer comes from the policy as it was before the edit. -/
theorem C37_startup_gap : ∃ w, CacheRun exReads ({ disk := 0 } : CacheWorld Nat Nat)
    [.create false [] (some (.ok 0)), .edit 7, .watch, .get [] none (.ok (some 0))] w ∧
    w.pending = [] ∧ w.disk = 7 ∧ w.watching = true := by
  have h1 : CacheRun exReads ({ disk := 0 } : CacheWorld Nat Nat)
      ([] ++ [.create false [] (some (.ok 0))]) _ :=
    .snoc .nil (.create (c := ⟨false, some 0⟩) rfl ⟨0, by simp, rfl⟩ rfl)
  have h2 := h1.snoc (.edit (d := 7))
  have h3 := h2.snoc .watch
  exact ⟨_, h3.snoc (.get (c := ⟨false, some 0⟩) (during := []) (load := .ok 0) rfl
    (fun h => by simp at h)), rfl, rfl, rfl⟩

end Qrexec
