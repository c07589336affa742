import Verif.Model.Fds
import Mathlib.Tactic.SplitIfs
import Mathlib.Tactic.ByContra

/-!
# C85: the file descriptors of a service
-/
namespace Qrexec

theorem fdGet_set (t : FdTable) (n : Nat) (e : Option FdEnt) (m : Nat) :
    fdGet (fdSet t n e) m = if m = n then e else fdGet t m := by
  unfold fdGet fdSet
  rw [List.getElem?_set]
  by_cases h : n = m
  · subst h
    rw [if_pos rfl, if_pos rfl, if_pos (by simp; omega)]
    rfl
  · rw [if_neg h, if_neg (fun x => h x.symm), List.getElem?_append]
    split_ifs with hl
    · rfl
    · rw [List.getElem?_replicate]
      have : t[m]? = none := List.getElem?_eq_none (by omega)
      rw [this]
      split_ifs <;> rfl

theorem fdGet_free (t : FdTable) : fdGet t (fdFree t) = none := by
  unfold fdGet fdFree
  by_cases h : t.findIdx (·.isNone) < t.length
  · rw [List.getElem?_eq_getElem h]
    have := List.findIdx_getElem (w := h)
    revert this
    cases t[t.findIdx (·.isNone)] <;> simp
  · rw [List.getElem?_eq_none (by omega)]
    rfl

theorem fdFree_least (t : FdTable) (m : Nat) (h : m < fdFree t) : fdGet t m ≠ none := by
  have h' : m < t.findIdx (·.isNone) := h
  have := List.not_of_lt_findIdx h'
  unfold fdGet
  have hl : m < t.length := Nat.lt_of_lt_of_le h' List.findIdx_le_length
  rw [List.getElem?_eq_getElem hl]
  revert this
  cases t[m] <;> simp

theorem fdFree_ge (t : FdTable) (n : Nat) (h : ∀ m < n, fdGet t m ≠ none) : n ≤ fdFree t := by
  by_contra hlt
  exact h _ (by omega) (fdGet_free t)

theorem fdGet_exec (t : FdTable) (n : Nat) :
    fdGet (fdExec t) n = match fdGet t n with
      | some x => if x.cloexec then none else some x
      | none => none := by
  unfold fdGet fdExec
  rw [List.getElem?_map]
  cases t[n]? with
  | none => rfl
  | some e => cases e <;> rfl

theorem fdGet_take (t : FdTable) (k n : Nat) : fdGet (t.take k) n = if n < k then fdGet t n else none := by
  unfold fdGet
  rw [List.getElem?_take]
  split_ifs <;> rfl

/-- The entries after `fix_fds` has closed what it does not need. -/
theorem fdCloseRest_get (cr : CloseRange) (t r : FdTable) (h : fdCloseRest cr t = .done r) (n : Nat) :
    fdGet r n = if n < 3 then fdGet t n else if cr = .enosys ∧ 256 ≤ n then fdGet t n else none := by
  cases cr with
  | ok =>
    cases h
    rw [fdGet_take]
    simp
  | otherError => cases h
  | enosys =>
    cases h
    by_cases h3 : n < 3
    · rw [if_pos h3]
      unfold fdGet
      rw [List.append_assoc, List.getElem?_append]
      split_ifs with hl
      · rw [List.getElem?_take, if_pos h3]
      · have hl' : t.length ≤ n := by
          rw [List.length_take] at hl; omega
        rw [List.getElem?_eq_none (l := t) hl', List.getElem?_eq_none]
        simp only [List.length_append, List.length_take, List.length_replicate, List.length_drop]
        omega
    · rw [if_neg h3]
      unfold fdGet
      by_cases h256 : 256 ≤ n
      · rw [if_pos ⟨rfl, h256⟩]
        congr 1
        by_cases hl : n < t.length
        · rw [List.getElem?_append_right (by simp only [List.length_append, List.length_take, List.length_replicate]; omega),
            List.getElem?_drop]
          congr 1
          simp only [List.length_append, List.length_take, List.length_replicate]
          omega
        · rw [List.getElem?_eq_none (l := t) (by omega), List.getElem?_eq_none]
          simp only [List.length_append, List.length_take, List.length_replicate, List.length_drop]
          omega
      · rw [if_neg (fun h => h256 h.2)]
        rw [List.getElem?_append]
        split_ifs with hl
        · rw [List.getElem?_append_right (by rw [List.length_take]; omega), List.getElem?_replicate]
          split_ifs <;> rfl
        · rw [List.getElem?_eq_none]
          · rfl
          · simp only [List.length_append, List.length_take, List.length_replicate, List.length_drop] at hl ⊢
            omega

theorem fdMove_get (t : FdTable) (fd want : Nat) (e : FdEnt) (h : fdGet t fd = some e) :
    ∃ r, fdMove t fd want = some r ∧ ∀ n, fdGet r n =
      if n = want then some (if fd = want then e else ⟨e.file, false⟩) else fdGet t n := by
  unfold fdMove fdDup2
  by_cases hq : fd = want
  · subst hq
    refine ⟨t, by rw [if_neg (by simp)], ?_⟩
    intro n
    by_cases hn : n = fd
    · rw [if_pos hn, if_pos rfl, hn, h]
    · rw [if_neg hn]
  · rw [if_pos hq, h]
    dsimp only
    rw [if_neg hq]
    refine ⟨_, rfl, ?_⟩
    intro n
    rw [fdGet_set, if_neg hq]

/-- **C85, moving.** Whatever descriptors the three streams have, after `fix_fds` the numbers 0, 1 and 2 are what the
three were, and all the others are closed - on a kernel without `close_range` those up to 255. -/
theorem C85_fix (cr : CloseRange) (t : FdTable) (fdin fdout fderr : Nat) (ein eout eerr : FdEnt)
    (h1 : 1 ≤ fdout) (h2 : 2 ≤ fderr) (hcr : cr ≠ .otherError)
    (hin : fdGet t fdin = some ein) (hout : fdGet t fdout = some eout) (herr : fdGet t fderr = some eerr) :
    ∃ r, fixFds cr t fdin fdout fderr = .done r ∧
      (fdGet r 0).map FdEnt.file = some ein.file ∧
      (fdGet r 1).map FdEnt.file = some eout.file ∧
      (fdGet r 2).map FdEnt.file = some eerr.file ∧
      (∀ n, 3 ≤ n → cr = .ok ∨ n < 256 → fdGet r n = none) ∧
      (fdin ≠ 0 → fdGet r 0 = some ⟨ein.file, false⟩) ∧ (fdout ≠ 1 → fdGet r 1 = some ⟨eout.file, false⟩) ∧
      (fderr ≠ 2 → fdGet r 2 = some ⟨eerr.file, false⟩) ∧ (fderr = 2 → fdGet r 2 = some eerr) ∧
      (∀ n, 256 ≤ n → fdGet r n = none ∨ fdGet r n = fdGet t n) := by
  obtain ⟨t1, e1, g1⟩ := fdMove_get t fdin 0 ein hin
  have hout1 : fdGet t1 fdout = some eout := by rw [g1, if_neg (by omega), hout]
  obtain ⟨t2, e2, g2⟩ := fdMove_get t1 fdout 1 eout hout1
  have herr2 : fdGet t2 fderr = some eerr := by rw [g2, if_neg (by omega), g1, if_neg (by omega), herr]
  obtain ⟨t3, e3, g3⟩ := fdMove_get t2 fderr 2 eerr herr2
  have hr : ∃ r, fdCloseRest cr t3 = .done r := by
    cases cr with
    | ok => exact ⟨_, rfl⟩
    | enosys => exact ⟨_, rfl⟩
    | otherError => exact absurd rfl hcr
  obtain ⟨r, hr⟩ := hr
  have hg := fdCloseRest_get cr t3 r hr
  have v0 : fdGet r 0 = some (if fdin = 0 then ein else ⟨ein.file, false⟩) := by
    rw [hg, if_pos (by omega), g3, if_neg (by omega), g2, if_neg (by omega), g1, if_pos rfl]
  have v1 : fdGet r 1 = some (if fdout = 1 then eout else ⟨eout.file, false⟩) := by
    rw [hg, if_pos (by omega), g3, if_neg (by omega), g2, if_pos rfl]
  have v2 : fdGet r 2 = some (if fderr = 2 then eerr else ⟨eerr.file, false⟩) := by
    rw [hg, if_pos (by omega), g3, if_pos rfl]
  refine ⟨r, ?_, ?_, ?_, ?_, ?_, ?_, ?_, ?_, ?_, ?_⟩
  · unfold fixFds
    rw [if_neg (by omega), e1]
    dsimp only
    rw [e2]
    dsimp only
    rw [e3]
    exact hr
  · rw [v0]; split_ifs <;> rfl
  · rw [v1]; split_ifs <;> rfl
  · rw [v2]; split_ifs <;> rfl
  · intro n hn hc
    rw [hg, if_neg (by omega), if_neg]
    rintro ⟨hc', hn'⟩
    rcases hc with hc | hc
    · rw [hc] at hc'; cases hc'
    · omega
  · intro h; rw [v0, if_neg h]
  · intro h; rw [v1, if_neg h]
  · intro h; rw [v2, if_neg h]
  · intro h; rw [v2, if_pos h]
  · intro n hn
    rw [hg, if_neg (by omega)]
    split_ifs
    · right
      rw [g3, if_neg (by omega), g2, if_neg (by omega), g1, if_neg (by omega)]
    · left; rfl

/-- **C85, impossible numbers.** If the numbers of the streams would be overwritten the process ends with 125 (a problem of
qrexec), before it runs anything. -/
theorem C85_bad (cr : CloseRange) (t : FdTable) (fdin fdout fderr : Nat) (h : fdout < 1 ∨ fderr < 2) :
    fixFds cr t fdin fdout fderr = .exits 125 := by
  unfold fixFds
  rw [if_pos h]

theorem fdMove_open {t r : FdTable} {fd want : Nat} (h : fdMove t fd want = some r) (hne : fd ≠ want) :
    fdGet t fd ≠ none := by
  unfold fdMove at h
  rw [if_pos hne] at h
  unfold fdDup2 at h
  intro hn
  rw [hn] at h
  cases h

/-- **C85, no mix-up.** Whatever numbers it is given: when `fix_fds` goes on, then 0, 1 and 2 are the three streams it was
given. -/
theorem C85_done (cr : CloseRange) (t r : FdTable) (fdin fdout fderr : Nat) (h : fixFds cr t fdin fdout fderr = .done r) :
    (fdGet r 0).map FdEnt.file = (fdGet t fdin).map FdEnt.file ∧
    (fdGet r 1).map FdEnt.file = (fdGet t fdout).map FdEnt.file ∧
    (fdGet r 2).map FdEnt.file = (fdGet t fderr).map FdEnt.file := by
  unfold fixFds at h
  by_cases hb : fdout < 1 ∨ fderr < 2
  · rw [if_pos hb] at h; cases h
  rw [if_neg hb] at h
  have mv : ∀ (t r : FdTable) (fd want : Nat), fdMove t fd want = some r →
      ∀ n, (fdGet r n).map FdEnt.file = if n = want then (fdGet t fd).map FdEnt.file else (fdGet t n).map FdEnt.file := by
    intro t r fd want hm n
    by_cases hq : fd = want
    · subst hq
      unfold fdMove at hm
      rw [if_neg (by simp)] at hm
      cases hm
      by_cases hn : n = fd
      · rw [if_pos hn, hn]
      · rw [if_neg hn]
    · cases he : fdGet t fd with
      | none => exact absurd he (fdMove_open hm hq)
      | some e =>
        obtain ⟨r', h1, h2⟩ := fdMove_get t fd want e he
        rw [hm] at h1
        cases h1
        rw [h2]
        by_cases hn : n = want
        · rw [if_pos hn, if_pos hn, if_neg hq]; rfl
        · rw [if_neg hn, if_neg hn]
  cases h1 : fdMove t fdin 0 with
  | none => rw [h1] at h; cases h
  | some t1 =>
    rw [h1] at h
    dsimp only at h
    cases h2 : fdMove t1 fdout 1 with
    | none => rw [h2] at h; cases h
    | some t2 =>
      rw [h2] at h
      dsimp only at h
      cases h3 : fdMove t2 fderr 2 with
      | none => rw [h3] at h; cases h
      | some t3 =>
        rw [h3] at h
        dsimp only at h
        have hg := fdCloseRest_get cr t3 r h
        have m1 := mv _ _ _ _ h1
        have m2 := mv _ _ _ _ h2
        have m3 := mv _ _ _ _ h3
        refine ⟨?_, ?_, ?_⟩
        · rw [hg, if_pos (by omega), m3, if_neg (by omega), m2, if_neg (by omega), m1, if_pos rfl]
        · rw [hg, if_pos (by omega), m3, if_neg (by omega), m2, if_pos rfl, m1, if_neg (by omega)]
        · rw [hg, if_pos (by omega), m3, if_pos rfl, m2, if_neg (by omega), m1, if_neg (by omega)]

/-! ## Start of a process -/

/-- The end of a pair that belongs to the service. -/
def FdFile.ofService : FdFile → Bool
  | .inService => true
  | .outService => true
  | .errService => true
  | _ => false

/-- The table of a process that has nothing to do with the new pairs, and that has its own standard streams. -/
structure Usual (t : FdTable) : Prop where
  std : ∀ n < 3, fdGet t n ≠ none
  own : ∀ n e, fdGet t n = some e → ∃ k, e.file = .other k

theorem fdOpen_get (t : FdTable) (f : FdFile) (n : Nat) :
    fdGet (fdOpen t f).1 n = if n = (fdOpen t f).2 then some ⟨f, true⟩ else fdGet t n := fdGet_set ..

theorem fdOpen_ge (t : FdTable) (f : FdFile) (h : ∀ n < 3, fdGet t n ≠ none) : 3 ≤ (fdOpen t f).2 := fdFree_ge t 3 h

theorem fdOpen_new (t : FdTable) (f : FdFile) : fdGet t (fdOpen t f).2 = none := fdGet_free t

theorem fdOpen_std (t : FdTable) (f : FdFile) (h : ∀ n < 3, fdGet t n ≠ none) :
    ∀ n < 3, fdGet (fdOpen t f).1 n ≠ none := by
  intro n hn
  rw [fdOpen_get]
  split_ifs
  · simp
  · exact h n hn

/-- A descriptor opened before has another number than a new one. -/
theorem fdOpen_ne (t : FdTable) (f : FdFile) (n : Nat) (h : fdGet t n ≠ none) : n ≠ (fdOpen t f).2 := by
  rintro rfl
  exact h (fdOpen_new t f)

set_option maxHeartbeats 1000000 in
/-- **C85, a service with stderr.** The process of a service starts with stdin, stdout and stderr connected to the agent, and
with nothing else of the agent - on a kernel without `close_range` unless the agent has descriptors above 255 that are
inherited. The agent keeps its three ends, and none of the service's: the stream ends when the service closes it. -/
theorem C85_service (cr : CloseRange) (hcr : cr ≠ .otherError) (t : FdTable) (hu : Usual t)
    (hbig : cr = .ok ∨ ∀ n, 256 ≤ n → ∀ e, fdGet t n = some e → e.cloexec = true) :
    ∃ c err, (forkFds cr true t).child = .done c ∧ (forkFds cr true t).stderr = some err ∧
      (∀ n, fdGet (fdExec c) n =
        if n = 0 then some ⟨.inService, false⟩ else if n = 1 then some ⟨.outService, false⟩
        else if n = 2 then some ⟨.errService, false⟩ else none) ∧
      (∀ n, fdGet (forkFds cr true t).table n =
        if n = (forkFds cr true t).stdin then some ⟨.inAgent, true⟩
        else if n = (forkFds cr true t).stdout then some ⟨.outAgent, true⟩
        else if n = err then some ⟨.errAgent, true⟩
        else fdGet t n) ∧
      fdGet t (forkFds cr true t).stdin = none ∧ fdGet t (forkFds cr true t).stdout = none ∧ fdGet t err = none := by
  have hs0 := hu.std
  generalize ha : fdOpen t .inService = r1
  have hs1 := fdOpen_std t .inService hs0
  have k1 := fdOpen_ge t .inService hs0
  have n1 := fdOpen_new t .inService
  have g1 := fdOpen_get t .inService
  rw [ha] at hs1 k1 g1 n1
  generalize hb : fdOpen r1.1 .inAgent = r2
  have hs2 := fdOpen_std r1.1 .inAgent hs1
  have k2 := fdOpen_ge r1.1 .inAgent hs1
  have n2 := fdOpen_new r1.1 .inAgent
  have g2 := fdOpen_get r1.1 .inAgent
  rw [hb] at hs2 k2 g2 n2
  generalize hc : fdOpen r2.1 .outAgent = r3
  have hs3 := fdOpen_std r2.1 .outAgent hs2
  have k3 := fdOpen_ge r2.1 .outAgent hs2
  have n3 := fdOpen_new r2.1 .outAgent
  have g3 := fdOpen_get r2.1 .outAgent
  rw [hc] at hs3 k3 g3 n3
  generalize hd : fdOpen r3.1 .outService = r4
  have hs4 := fdOpen_std r3.1 .outService hs3
  have k4 := fdOpen_ge r3.1 .outService hs3
  have n4 := fdOpen_new r3.1 .outService
  have g4 := fdOpen_get r3.1 .outService
  rw [hd] at hs4 k4 g4 n4
  generalize he : fdOpen r4.1 .errAgent = r5
  have hs5 := fdOpen_std r4.1 .errAgent hs4
  have k5 := fdOpen_ge r4.1 .errAgent hs4
  have n5 := fdOpen_new r4.1 .errAgent
  have g5 := fdOpen_get r4.1 .errAgent
  rw [he] at hs5 k5 g5 n5
  generalize hf : fdOpen r5.1 .errService = r6
  have k6 := fdOpen_ge r5.1 .errService hs5
  have n6 := fdOpen_new r5.1 .errService
  have g6 := fdOpen_get r5.1 .errService
  rw [hf] at k6 g6 n6
  have hfork : forkFds cr true t =
      { child := fixFds cr r6.1 r1.2 r4.2 r6.2
        table := fdSet (fdSet (fdSet r6.1 r1.2 none) r4.2 none) r6.2 none
        stdin := r2.2, stdout := r3.2, stderr := some r5.2 } := by
    unfold forkFds
    simp only [ha, hb, hc, hd, he, hf, if_true]
  -- the numbers differ
  have d12 : r1.2 ≠ r2.2 := by rintro e; rw [← e, g1, if_pos rfl] at n2; cases n2
  have d13 : r1.2 ≠ r3.2 := by rintro e; rw [← e, g2, if_neg d12, g1, if_pos rfl] at n3; cases n3
  have d14 : r1.2 ≠ r4.2 := by rintro e; rw [← e, g3, if_neg d13, g2, if_neg d12, g1, if_pos rfl] at n4; cases n4
  have d15 : r1.2 ≠ r5.2 := by
    rintro e; rw [← e, g4, if_neg d14, g3, if_neg d13, g2, if_neg d12, g1, if_pos rfl] at n5; cases n5
  have d16 : r1.2 ≠ r6.2 := by
    rintro e; rw [← e, g5, if_neg d15, g4, if_neg d14, g3, if_neg d13, g2, if_neg d12, g1, if_pos rfl] at n6; cases n6
  have d23 : r2.2 ≠ r3.2 := by rintro e; rw [← e, g2, if_pos rfl] at n3; cases n3
  have d24 : r2.2 ≠ r4.2 := by rintro e; rw [← e, g3, if_neg d23, g2, if_pos rfl] at n4; cases n4
  have d25 : r2.2 ≠ r5.2 := by rintro e; rw [← e, g4, if_neg d24, g3, if_neg d23, g2, if_pos rfl] at n5; cases n5
  have d26 : r2.2 ≠ r6.2 := by
    rintro e; rw [← e, g5, if_neg d25, g4, if_neg d24, g3, if_neg d23, g2, if_pos rfl] at n6; cases n6
  have d34 : r3.2 ≠ r4.2 := by rintro e; rw [← e, g3, if_pos rfl] at n4; cases n4
  have d35 : r3.2 ≠ r5.2 := by rintro e; rw [← e, g4, if_neg d34, g3, if_pos rfl] at n5; cases n5
  have d36 : r3.2 ≠ r6.2 := by rintro e; rw [← e, g5, if_neg d35, g4, if_neg d34, g3, if_pos rfl] at n6; cases n6
  have d45 : r4.2 ≠ r5.2 := by rintro e; rw [← e, g4, if_pos rfl] at n5; cases n5
  have d46 : r4.2 ≠ r6.2 := by rintro e; rw [← e, g5, if_neg d45, g4, if_pos rfl] at n6; cases n6
  have d56 : r5.2 ≠ r6.2 := by rintro e; rw [← e, g5, if_pos rfl] at n6; cases n6
  -- all entries
  have G : ∀ n, fdGet r6.1 n = if n = r6.2 then some ⟨.errService, true⟩ else if n = r5.2 then some ⟨.errAgent, true⟩
      else if n = r4.2 then some ⟨.outService, true⟩ else if n = r3.2 then some ⟨.outAgent, true⟩
      else if n = r2.2 then some ⟨.inAgent, true⟩ else if n = r1.2 then some ⟨.inService, true⟩ else fdGet t n := by
    intro n; rw [g6, g5, g4, g3, g2, g1]
  -- they were free before
  have f1 : fdGet t r1.2 = none := n1
  have f2 : fdGet t r2.2 = none := by rw [g1, if_neg d12.symm] at n2; exact n2
  have f3 : fdGet t r3.2 = none := by rw [g2, if_neg d23.symm, g1, if_neg d13.symm] at n3; exact n3
  have f4 : fdGet t r4.2 = none := by
    rw [g3, if_neg d34.symm, g2, if_neg d24.symm, g1, if_neg d14.symm] at n4; exact n4
  have f5 : fdGet t r5.2 = none := by
    rw [g4, if_neg d45.symm, g3, if_neg d35.symm, g2, if_neg d25.symm, g1, if_neg d15.symm] at n5; exact n5
  have f6 : fdGet t r6.2 = none := by
    rw [g5, if_neg d56.symm, g4, if_neg d46.symm, g3, if_neg d36.symm, g2, if_neg d26.symm, g1, if_neg d16.symm] at n6
    exact n6
  rw [hfork]
  dsimp only
  have hin : fdGet r6.1 r1.2 = some ⟨.inService, true⟩ := by
    rw [G, if_neg d16, if_neg d15, if_neg d14, if_neg d13, if_neg d12, if_pos rfl]
  have hout : fdGet r6.1 r4.2 = some ⟨.outService, true⟩ := by rw [G, if_neg d46, if_neg d45, if_pos rfl]
  have herr : fdGet r6.1 r6.2 = some ⟨.errService, true⟩ := by rw [G, if_pos rfl]
  obtain ⟨c, hfix, _, _, _, hrest, z0, z1, z2, _, hhi⟩ :=
    C85_fix cr r6.1 r1.2 r4.2 r6.2 _ _ _ (by omega) (by omega) hcr hin hout herr
  refine ⟨c, r5.2, hfix, rfl, ?_, ?_, f2, f3, f5⟩
  · intro n
    rw [fdGet_exec]
    by_cases n0 : n = 0
    · subst n0; rw [z0 (by omega), if_pos rfl]; rfl
    rw [if_neg n0]
    by_cases n1 : n = 1
    · subst n1; rw [z1 (by omega), if_pos rfl]; rfl
    rw [if_neg n1]
    by_cases n2 : n = 2
    · subst n2; rw [z2 (by omega), if_pos rfl]; rfl
    rw [if_neg n2]
    by_cases hc : cr = .ok ∨ n < 256
    · rw [hrest n (by omega) hc]
    · obtain ⟨hc1, hc2⟩ := not_or.1 hc
      rcases hhi n (by omega) with h | h
      · rw [h]
      · rw [h, G]
        have hb := hbig.resolve_left hc1 n (by omega)
        split_ifs
        all_goals first | rfl | skip
        cases hn : fdGet t n with
        | none => rfl
        | some e => dsimp only; rw [if_pos (hb e hn)]
  · intro n
    rw [fdGet_set, fdGet_set, fdGet_set]
    by_cases e6 : n = r6.2
    · rw [if_pos e6, if_neg (by omega), if_neg (by omega), if_neg (by omega), e6, f6]
    rw [if_neg e6]
    by_cases e4 : n = r4.2
    · rw [if_pos e4, if_neg (by omega), if_neg (by omega), if_neg (by omega), e4, f4]
    rw [if_neg e4]
    by_cases e1 : n = r1.2
    · rw [if_pos e1, if_neg (by omega), if_neg (by omega), if_neg (by omega), e1, f1]
    rw [if_neg e1, G, if_neg e6, if_neg e4, if_neg e1]
    by_cases e2 : n = r2.2
    · rw [if_pos e2, if_neg (by omega), if_neg (by omega), if_pos e2]
    rw [if_neg e2, if_neg e2]
    by_cases e3 : n = r3.2
    · rw [if_pos e3, if_neg (by omega), if_pos e3]
    rw [if_neg e3, if_neg e3]

set_option maxHeartbeats 1000000 in
/-- **C85, a service in dom0** (no separate stderr): stderr of the service is that of the process that starts it. -/
theorem C85_dom0 (cr : CloseRange) (hcr : cr ≠ .otherError) (t : FdTable) (hu : Usual t) (e2 : FdEnt)
    (he2 : fdGet t 2 = some e2) (hkeep : e2.cloexec = false)
    (hbig : cr = .ok ∨ ∀ n, 256 ≤ n → ∀ e, fdGet t n = some e → e.cloexec = true) :
    ∃ c, (forkFds cr false t).child = .done c ∧ (forkFds cr false t).stderr = none ∧
      (∀ n, fdGet (fdExec c) n =
        if n = 0 then some ⟨.inService, false⟩ else if n = 1 then some ⟨.outService, false⟩
        else if n = 2 then some e2 else none) ∧
      (∀ n, fdGet (forkFds cr false t).table n =
        if n = (forkFds cr false t).stdin then some ⟨.inAgent, true⟩
        else if n = (forkFds cr false t).stdout then some ⟨.outAgent, true⟩
        else fdGet t n) ∧
      fdGet t (forkFds cr false t).stdin = none ∧ fdGet t (forkFds cr false t).stdout = none := by
  have hs0 := hu.std
  generalize ha : fdOpen t .inService = r1
  have hs1 := fdOpen_std t .inService hs0
  have k1 := fdOpen_ge t .inService hs0
  have n1 := fdOpen_new t .inService
  have g1 := fdOpen_get t .inService
  rw [ha] at hs1 k1 g1 n1
  generalize hb : fdOpen r1.1 .inAgent = r2
  have hs2 := fdOpen_std r1.1 .inAgent hs1
  have k2 := fdOpen_ge r1.1 .inAgent hs1
  have n2 := fdOpen_new r1.1 .inAgent
  have g2 := fdOpen_get r1.1 .inAgent
  rw [hb] at hs2 k2 g2 n2
  generalize hc : fdOpen r2.1 .outAgent = r3
  have hs3 := fdOpen_std r2.1 .outAgent hs2
  have k3 := fdOpen_ge r2.1 .outAgent hs2
  have n3 := fdOpen_new r2.1 .outAgent
  have g3 := fdOpen_get r2.1 .outAgent
  rw [hc] at hs3 k3 g3 n3
  generalize hd : fdOpen r3.1 .outService = r4
  have k4 := fdOpen_ge r3.1 .outService hs3
  have n4 := fdOpen_new r3.1 .outService
  have g4 := fdOpen_get r3.1 .outService
  rw [hd] at k4 g4 n4
  have hfork : forkFds cr false t =
      { child := fixFds cr r4.1 r1.2 r4.2 2
        table := fdSet (fdSet r4.1 r1.2 none) r4.2 none
        stdin := r2.2, stdout := r3.2, stderr := none } := by
    unfold forkFds
    simp only [ha, hb, hc, hd, Bool.false_eq_true, if_false]
  have d12 : r1.2 ≠ r2.2 := by rintro e; rw [← e, g1, if_pos rfl] at n2; cases n2
  have d13 : r1.2 ≠ r3.2 := by rintro e; rw [← e, g2, if_neg d12, g1, if_pos rfl] at n3; cases n3
  have d14 : r1.2 ≠ r4.2 := by rintro e; rw [← e, g3, if_neg d13, g2, if_neg d12, g1, if_pos rfl] at n4; cases n4
  have d23 : r2.2 ≠ r3.2 := by rintro e; rw [← e, g2, if_pos rfl] at n3; cases n3
  have d24 : r2.2 ≠ r4.2 := by rintro e; rw [← e, g3, if_neg d23, g2, if_pos rfl] at n4; cases n4
  have d34 : r3.2 ≠ r4.2 := by rintro e; rw [← e, g3, if_pos rfl] at n4; cases n4
  have G : ∀ n, fdGet r4.1 n =
      if n = r4.2 then some ⟨.outService, true⟩ else if n = r3.2 then some ⟨.outAgent, true⟩
      else if n = r2.2 then some ⟨.inAgent, true⟩ else if n = r1.2 then some ⟨.inService, true⟩ else fdGet t n := by
    intro n; rw [g4, g3, g2, g1]
  have f1 : fdGet t r1.2 = none := n1
  have f2 : fdGet t r2.2 = none := by rw [g1, if_neg d12.symm] at n2; exact n2
  have f3 : fdGet t r3.2 = none := by rw [g2, if_neg d23.symm, g1, if_neg d13.symm] at n3; exact n3
  have f4 : fdGet t r4.2 = none := by
    rw [g3, if_neg d34.symm, g2, if_neg d24.symm, g1, if_neg d14.symm] at n4; exact n4
  rw [hfork]
  dsimp only
  have hin : fdGet r4.1 r1.2 = some ⟨.inService, true⟩ := by
    rw [G, if_neg d14, if_neg d13, if_neg d12, if_pos rfl]
  have hout : fdGet r4.1 r4.2 = some ⟨.outService, true⟩ := by rw [G, if_pos rfl]
  have herr : fdGet r4.1 2 = some e2 := by
    rw [G, if_neg (by omega), if_neg (by omega), if_neg (by omega), if_neg (by omega), he2]
  obtain ⟨c, hfix, _, _, _, hrest, z0, z1, _, z2, hhi⟩ :=
    C85_fix cr r4.1 r1.2 r4.2 2 _ _ _ (by omega) (by omega) hcr hin hout herr
  refine ⟨c, hfix, rfl, ?_, ?_, f2, f3⟩
  · intro n
    rw [fdGet_exec]
    by_cases n0 : n = 0
    · subst n0; rw [z0 (by omega), if_pos rfl]; rfl
    rw [if_neg n0]
    by_cases n1 : n = 1
    · subst n1; rw [z1 (by omega), if_pos rfl]; rfl
    rw [if_neg n1]
    by_cases n2 : n = 2
    · subst n2
      rw [z2 rfl, if_pos rfl]
      dsimp only
      rw [hkeep, if_neg (by simp)]
    rw [if_neg n2]
    by_cases hc : cr = .ok ∨ n < 256
    · rw [hrest n (by omega) hc]
    · obtain ⟨hc1, hc2⟩ := not_or.1 hc
      rcases hhi n (by omega) with h | h
      · rw [h]
      · rw [h, G]
        have hb := hbig.resolve_left hc1 n (by omega)
        split_ifs
        all_goals first | rfl | skip
        cases hn : fdGet t n with
        | none => rfl
        | some e => dsimp only; rw [if_pos (hb e hn)]
  · intro n
    rw [fdGet_set, fdGet_set]
    by_cases e4 : n = r4.2
    · rw [if_pos e4, if_neg (by omega), if_neg (by omega), e4, f4]
    rw [if_neg e4]
    by_cases e1 : n = r1.2
    · rw [if_pos e1, if_neg (by omega), if_neg (by omega), e1, f1]
    rw [if_neg e1, G, if_neg e4, if_neg e1]
    by_cases e2 : n = r2.2
    · rw [if_pos e2, if_neg (by omega), if_pos e2]
    rw [if_neg e2, if_neg e2]

/-- **C85, end of the streams.** The process that has started a service holds none of the service's ends, so that it sees the
end of the output when the service and its children have closed it; the service holds none of the other ends. -/
theorem C85_ends (cr : CloseRange) (hcr : cr ≠ .otherError) (t : FdTable) (hu : Usual t)
    (hbig : cr = .ok ∨ ∀ n, 256 ≤ n → ∀ e, fdGet t n = some e → e.cloexec = true) :
    (∀ n e, fdGet (forkFds cr true t).table n = some e → e.file.ofService = false) ∧
    ∃ c, (forkFds cr true t).child = .done c ∧ ∀ n e, fdGet (fdExec c) n = some e → e.file.ofService = true := by
  obtain ⟨c, err, h1, _, h3, h4, _⟩ := C85_service cr hcr t hu hbig
  constructor
  · intro n e he
    rw [h4] at he
    by_cases k1 : n = (forkFds cr true t).stdin
    · rw [if_pos k1] at he; cases he; rfl
    rw [if_neg k1] at he
    by_cases k2 : n = (forkFds cr true t).stdout
    · rw [if_pos k2] at he; cases he; rfl
    rw [if_neg k2] at he
    by_cases k3 : n = err
    · rw [if_pos k3] at he; cases he; rfl
    rw [if_neg k3] at he
    obtain ⟨k, hk⟩ := hu.own n e he
    rw [hk]; rfl
  · refine ⟨c, h1, ?_⟩
    intro n e he
    rw [h3] at he
    by_cases k1 : n = 0
    · rw [if_pos k1] at he; cases he; rfl
    rw [if_neg k1] at he
    by_cases k2 : n = 1
    · rw [if_pos k2] at he; cases he; rfl
    rw [if_neg k2] at he
    by_cases k3 : n = 2
    · rw [if_pos k3] at he; cases he; rfl
    rw [if_neg k3] at he
    cases he

/-- An agent with its three streams and one more descriptor. -/
def exFds : FdTable := [some ⟨.other 0, false⟩, some ⟨.other 1, false⟩, some ⟨.other 2, false⟩, none, some ⟨.other 4, false⟩]

example : Usual exFds := by
  refine ⟨by decide, ?_⟩
  intro n e h
  match n, h with
  | 0, h => cases h; exact ⟨_, rfl⟩
  | 1, h => cases h; exact ⟨_, rfl⟩
  | 2, h => cases h; exact ⟨_, rfl⟩
  | 3, h => cases h
  | 4, h => cases h; exact ⟨_, rfl⟩
  | n + 5, h => cases h

example : (forkFds .ok true exFds).child =
    .done [some ⟨.inService, false⟩, some ⟨.outService, false⟩, some ⟨.errService, false⟩] ∧
    (forkFds .ok true exFds).stdin = 5 ∧ (forkFds .ok true exFds).stdout = 6 := by decide

/-- Why stdin must be open: a process that has closed its stdin would start services without stdin: the end of the pair gets
number 0, is "already in place", and keeps the flag that closes it. `setup_logging` prevents this (C119_closed). -/
theorem C85_closed_stdin : ∃ c, (forkFds .ok true (none :: exFds.drop 1)).child = .done c ∧
    fdGet (fdExec c) 0 = none ∧ fdGet (fdExec c) 1 = some ⟨.outService, false⟩ := by
  refine ⟨[some ⟨.inService, true⟩, some ⟨.outService, false⟩, some ⟨.errService, false⟩], ?_, ?_, ?_⟩ <;> decide

set_option maxRecDepth 20000 in
/-- Finding: without `close_range`, a descriptor above 255 that is not marked to be closed stays open in a service. -/
theorem C85_above_255 : ∃ c, (forkFds .enosys true (exFds ++ List.replicate 255 none ++ [some ⟨.other 300, false⟩])).child = .done c ∧
    fdGet (fdExec c) 260 = some ⟨.other 300, false⟩ := by
  refine ⟨_, rfl, ?_⟩
  rfl

end Qrexec
