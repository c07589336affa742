import Verif.Spec.VmAgent
import Verif.Lemmas.CDaemon
import Mathlib.Data.List.Perm.Basic
import Mathlib.Tactic.ByContra

/-! # Lemmas about the agent in a qube -/
namespace Qrexec
open Spec

/-! ## Tables -/

theorem slot_put {β : Type} (f : Nat → Option β) (i : Nat) (x : Option β) : ∀ n, i < n →
    List.Perm ((f i).toList ++ (List.range n).filterMap (put f i x)) (x.toList ++ (List.range n).filterMap f) := by
  intro n
  induction n with
  | zero => intro h; omega
  | succ n ih =>
    intro h
    have one : ∀ (y : Option β) (l : List β), List.Perm (l ++ y.toList) (y.toList ++ l) :=
      fun y l => List.perm_append_comm
    rw [List.range_succ, List.filterMap_append, List.filterMap_append]
    by_cases hi : i = n
    · subst hi
      have e : (List.range i).filterMap (put f i x) = (List.range i).filterMap f := by
        apply List.filterMap_congr
        intro j hj
        rw [List.mem_range] at hj
        exact put_other f x (by omega)
      have e1 : [i].filterMap (put f i x) = x.toList := by
        cases x <;> simp [put]
      have e2 : [i].filterMap f = (f i).toList := by cases h : f i <;> simp [h]
      rw [e, e1, e2]
      refine (List.Perm.append_left _ (one _ _)).trans ?_
      rw [← List.append_assoc]
      refine ((List.perm_append_comm).append_right _).trans ?_
      rw [List.append_assoc]
      exact List.Perm.append_left _ (List.perm_append_comm)
    · have e1 : [n].filterMap (put f i x) = [n].filterMap f := by
        apply List.filterMap_congr
        intro j hj
        rw [List.mem_singleton] at hj
        exact put_other f x (by omega)
      rw [e1, ← List.append_assoc, ← List.append_assoc]
      exact (ih (by omega)).append_right _

theorem slots_full {β : Type} (f : Nat → Option β) : ∀ n, (∀ i, i < n → (f i).isSome) →
    ((List.range n).filterMap f).length = n := by
  intro n
  induction n with
  | zero => intro _; rfl
  | succ n ih =>
    intro h
    rw [List.range_succ, List.filterMap_append, List.length_append, ih fun i hi => h i (by omega)]
    obtain ⟨y, hy⟩ := Option.isSome_iff_exists.1 (h n (by omega))
    simp [hy]

theorem slots_free {β : Type} (f : Nat → Option β) {n i : Nat} (hi : i < n) (hf : f i = none) :
    ((List.range n).filterMap f).length < n := by
  by_contra hc
  cases hl : (List.range n).filterMap f with
  | nil => rw [hl] at hc; simp at hc; omega
  | cons y l =>
    have hp := (slot_put f i (some y) n hi).length_eq
    have hle : ((List.range n).filterMap (put f i (some y))).length ≤ n := by
      have := List.length_filterMap_le (put f i (some y)) (List.range n)
      simpa using this
    rw [hf] at hp
    simp only [Option.toList_none, List.nil_append, Option.toList_some, List.length_append, List.length_cons,
      List.length_nil] at hp
    omega

/-! ## The table of connections -/

/-- How the end of a connection is seen. -/
def VaConn.key (c : VaConn) : VaKey :=
  if c.pid > 0 then .child c.pid.toNat else if c.fd = -1 then .lost else .socket c.fd

/-- The connection in a slot. -/
def VaConn.entry (c : VaConn) : Option VaOpen := if c.pid = 0 then none else some (c.key, c.domain, c.port)

/-- The connections in the table. -/
def tableList (s : VaState) : List VaOpen := (List.range maxClients).filterMap fun i => (s.conns i).entry

theorem entry_put (f : Nat → VaConn) (i : Nat) (c : VaConn) :
    (fun j => (put f i c j).entry) = put (fun j => (f j).entry) i c.entry := by
  funext j
  by_cases h : j = i
  · subst h; rw [put_same, put_same]
  · rw [put_other _ _ h, put_other _ _ h]

theorem noteOpen_perm {l l' : List VaOpen} (h : l.Perm l') (c : VaOpen) : (noteOpen l c).Perm (noteOpen l' c) := by
  unfold noteOpen
  rw [h.length_eq]
  split
  · exact h.append_right _
  · exact h

theorem noteOpens_perm (cs : List VaOpen) : ∀ {l l' : List VaOpen}, l.Perm l' →
    (cs.foldl noteOpen l).Perm (cs.foldl noteOpen l') := by
  induction cs with
  | nil => intro l l' h; exact h
  | cons c cs ih => intro l l' h; exact ih (noteOpen_perm h c)

theorem find_range_some {p : Nat → Bool} {n i : Nat} (h : (List.range n).find? p = some i) : i < n ∧ p i = true :=
  ⟨List.mem_range.1 (List.mem_of_find?_eq_some h), List.find?_some h⟩

theorem find_range_none {p : Nat → Bool} {n : Nat} (h : (List.range n).find? p = none) : ∀ i, i < n → p i = false := by
  intro i hi
  have := List.find?_eq_none.1 h i (List.mem_range.2 hi)
  simpa using this

theorem entry_isSome (c : VaConn) : c.entry.isSome = (c.pid != 0) := by
  unfold VaConn.entry
  by_cases h : c.pid = 0 <;> simp [h]

theorem vaRegister_table (s : VaState) (pid fd : Int) (d p : Nat) (hp : pid ≠ 0) :
    (tableList (vaRegister s pid fd d p)).Perm (noteOpen (tableList s) ((VaConn.mk pid fd d p).key, d, p)) := by
  unfold vaRegister
  cases hf : (List.range maxClients).find? fun i => (s.conns i).pid == 0 with
  | none =>
    have hall := find_range_none hf
    have hlen : (tableList s).length = maxClients := by
      apply slots_full
      intro i hi
      have := hall i hi
      rw [entry_isSome]
      simp only [beq_eq_false_iff_ne, ne_eq] at this
      simp [this]
    unfold noteOpen
    rw [if_neg (by rw [hlen]; show ¬ 256 < 256; omega)]
  | some i =>
    obtain ⟨hi, h0⟩ := find_range_some hf
    have h0 : (s.conns i).pid = 0 := by simpa using h0
    have he : (s.conns i).entry = none := by unfold VaConn.entry; rw [if_pos h0]
    have hlt : (tableList s).length < maxClients := slots_free _ hi he
    unfold noteOpen
    rw [if_pos (show _ < 256 from hlt)]
    have hperm := slot_put (fun j => (s.conns j).entry) i (VaConn.mk pid fd d p).entry maxClients hi
    have e2 : (VaConn.mk pid fd d p).entry = some ((VaConn.mk pid fd d p).key, d, p) := by
      unfold VaConn.entry; rw [if_neg hp]
    simp only [he, Option.toList_none, List.nil_append] at hperm
    show List.Perm ((List.range maxClients).filterMap fun j => (put s.conns i ⟨pid, fd, d, p⟩ j).entry) _
    rw [entry_put]
    refine hperm.trans ?_
    rw [e2]
    exact List.perm_append_comm (l₁ := [_])

/-- What holds for the table. -/
structure ConnInv (s : VaState) : Prop where
  pid_ge : ∀ i, i < maxClients → (s.conns i).pid ≥ -1
  fd_pid : ∀ i, i < maxClients → (s.conns i).pid > 0 → (s.conns i).fd = -1
  uniq : ∀ i j, i < maxClients → j < maxClients → i ≠ j → (s.conns i).pid > 0 → (s.conns i).pid ≠ (s.conns j).pid

theorem vaRegister_conns (s : VaState) (pid fd : Int) (d p : Nat) (i : Nat) :
    (vaRegister s pid fd d p).conns i = s.conns i ∨
      ((s.conns i).pid = 0 ∧ (vaRegister s pid fd d p).conns i = ⟨pid, fd, d, p⟩ ∧
        ∀ j, j ≠ i → (vaRegister s pid fd d p).conns j = s.conns j) := by
  unfold vaRegister
  split
  · rename_i k hf
    obtain ⟨hk, h0⟩ := find_range_some hf
    by_cases h : i = k
    · subst h
      exact Or.inr ⟨by simpa using h0, put_same _ _ _, fun j hj => put_other _ _ hj⟩
    · exact Or.inl (put_other _ _ h)
  · exact Or.inl rfl

theorem vaRegister_inv {s : VaState} (h : ConnInv s) {pid fd : Int} (d p : Nat)
    (h1 : pid ≥ -1) (h2 : pid > 0 → fd = -1 ∧ ∀ i, i < maxClients → (s.conns i).pid ≠ pid) :
    ConnInv (vaRegister s pid fd d p) := by
  have hc := vaRegister_conns s pid fd d p
  refine ⟨?_, ?_, ?_⟩
  · intro i hi
    rcases hc i with e | ⟨_, e, _⟩
    · rw [e]; exact h.pid_ge i hi
    · rw [e]; exact h1
  · intro i hi hpos
    rcases hc i with e | ⟨_, e, _⟩
    · rw [e] at hpos ⊢; exact h.fd_pid i hi hpos
    · rw [e] at hpos ⊢; exact (h2 hpos).1
  · intro i j hi hj hij hpos
    rcases hc i with ei | ⟨_, ei, ho⟩
    · rcases hc j with ej | ⟨_, ej, ho⟩
      · rw [ei] at hpos ⊢; rw [ej]; exact h.uniq i j hi hj hij hpos
      · rw [ei] at hpos ⊢; rw [ej]
        intro heq
        have hpp : pid > 0 := by
          have e : (s.conns i).pid = pid := heq
          omega
        exact (h2 hpp).2 i hi heq
    · rw [ho j (Ne.symm hij), ei]
      rw [ei] at hpos
      exact fun heq => (h2 hpos).2 j hj heq.symm

theorem vaRegister_pids (s : VaState) (pid fd : Int) (d p : Nat) (i : Nat) :
    ((vaRegister s pid fd d p).conns i).pid = (s.conns i).pid ∨ ((vaRegister s pid fd d p).conns i).pid = pid := by
  rcases vaRegister_conns s pid fd d p i with e | ⟨_, e, _⟩
  · exact Or.inl (by rw [e])
  · exact Or.inr (by rw [e])

theorem vaRegister_rest (s : VaState) (pid fd : Int) (d p : Nat) :
    (vaRegister s pid fd d p).waiting = s.waiting ∧ (vaRegister s pid fd d p).session = s.session := by
  unfold vaRegister
  split <;> exact ⟨rfl, rfl⟩

/-! ## Starting a request -/

/-- Everything about `vaDo` that is needed. -/
theorem vaDo_spec {s : VaState} (h : ConnInv s) (j : VaJob) (t : VaTry) (hf : s.FreshPid t.fork) :
    (vaDo s j t).1.waiting = s.waiting ∧ (vaDo s j t).1.session = s.session ∧ ConnInv (vaDo s j t).1 ∧
    (tableList (vaDo s j t).1).Perm (((vaDo s j t).2.filterMap opens).foldl noteOpen (tableList s)) ∧
    reports (vaDo s j t).2 = [] ∧ startedJobs (vaDo s j t).2 = (if j.type = msgConnect then [] else [j]) ∧
    (∀ pid u sr, VaOut.session pid u sr ∉ (vaDo s j t).2) ∧
    (∀ i, ((vaDo s j t).1.conns i).pid = (s.conns i).pid ∨ ((vaDo s j t).1.conns i).pid = -1 ∨
      ∃ p, t.fork = some p ∧ ((vaDo s j t).1.conns i).pid = p) := by
  unfold vaDo
  by_cases hc : j.type = msgConnect
  · rw [if_pos hc, if_pos hc]
    have triv : ∀ (o : List VaOut), o = [] → (s, o).1.waiting = s.waiting ∧ (s, o).1.session = s.session ∧ ConnInv (s, o).1 ∧
        (tableList (s, o).1).Perm (((s, o).2.filterMap opens).foldl noteOpen (tableList s)) ∧
        reports (s, o).2 = [] ∧ startedJobs (s, o).2 = [] ∧ (∀ pid u sr, VaOut.session pid u sr ∉ (s, o).2) ∧
        (∀ i, ((s, o).1.conns i).pid = (s.conns i).pid ∨ ((s, o).1.conns i).pid = -1 ∨
          ∃ p, t.fork = some p ∧ ((s, o).1.conns i).pid = p) := by
      rintro o rfl
      exact ⟨rfl, rfl, h, List.Perm.refl _, rfl, rfl, by simp, fun i => Or.inl rfl⟩
    cases hs : scanSocket j.cmdline with
    | noMatch => exact triv _ rfl
    | eof => exact triv _ rfl
    | fd n =>
      dsimp only
      by_cases hb : (t.badFd || decide (n < 0)) = true
      · rw [if_pos hb]; exact triv _ rfl
      · rw [if_neg hb]
        have hn : ¬ n < 0 := by simp at hb; omega
        obtain ⟨w1, w2⟩ := vaRegister_rest s (-1) n j.domain j.port
        refine ⟨w1, w2, vaRegister_inv h _ _ (by omega) (by intro h; omega), ?_, rfl, rfl, by simp, ?_⟩
        · have := vaRegister_table s (-1) n j.domain j.port (by omega)
          have hk : (VaConn.mk (-1) n j.domain j.port).key = .socket n := by
            unfold VaConn.key
            rw [if_neg (show ¬ ((-1 : Int) > 0) by omega), if_neg (show ¬ n = -1 by omega)]
          rw [hk] at this
          exact this
        · intro i
          rcases vaRegister_pids s (-1) n j.domain j.port i with e | e
          · exact Or.inl e
          · exact Or.inr (Or.inl e)
  · rw [if_neg hc, if_neg hc]
    cases ht : tryForkServer j t with
    | some r =>
      obtain ⟨fd, user, text⟩ := r
      dsimp only
      obtain ⟨w1, w2⟩ := vaRegister_rest s (-1) fd j.domain j.port
      refine ⟨w1, w2, vaRegister_inv h _ _ (by omega) (by intro h; omega), ?_, rfl, rfl, by simp, ?_⟩
      · have := vaRegister_table s (-1) fd j.domain j.port (by omega)
        have hk : (VaConn.mk (-1) (fd : Int) j.domain j.port).key = .socket fd := by
          unfold VaConn.key
          rw [if_neg (show ¬ ((-1 : Int) > 0) by omega), if_neg (show ¬ (fd : Int) = -1 by omega)]
        rw [hk] at this
        exact this
      · intro i
        rcases vaRegister_pids s (-1) fd j.domain j.port i with e | e
        · exact Or.inl e
        · exact Or.inr (Or.inl e)
    | none =>
      dsimp only
      cases hp : t.fork with
      | none =>
        dsimp only
        obtain ⟨w1, w2⟩ := vaRegister_rest s (-1) (-1) j.domain j.port
        refine ⟨w1, w2, vaRegister_inv h _ _ (by omega) (by intro h; omega), ?_, rfl, rfl, by simp, ?_⟩
        · exact vaRegister_table s (-1) (-1) j.domain j.port (by omega)
        · intro i
          rcases vaRegister_pids s (-1) (-1) j.domain j.port i with e | e
          · exact Or.inl e
          · exact Or.inr (Or.inl e)
      | some p =>
        dsimp only
        obtain ⟨hp0, hfr⟩ := hf p hp
        obtain ⟨w1, w2⟩ := vaRegister_rest s p (-1) j.domain j.port
        refine ⟨w1, w2, vaRegister_inv h _ _ (by omega) (fun _ => ⟨rfl, hfr⟩), ?_, rfl, rfl, by simp, ?_⟩
        · have := vaRegister_table s p (-1) j.domain j.port (by omega)
          have hk : (VaConn.mk (p : Int) (-1) j.domain j.port).key = .child p := by
            unfold VaConn.key
            rw [if_pos (show (p : Int) > 0 by omega)]
            simp
          rw [hk] at this
          exact this
        · intro i
          rcases vaRegister_pids s p (-1) j.domain j.port i with e | e
          · exact Or.inl e
          · exact Or.inr (Or.inr ⟨p, rfl, e⟩)

theorem opens_append (l : List VaOpen) (a b : List VaOut) :
    ((a ++ b).filterMap opens).foldl noteOpen l = (b.filterMap opens).foldl noteOpen ((a.filterMap opens).foldl noteOpen l) := by
  rw [List.filterMap_append, List.foldl_append]

theorem reports_append (a b : List VaOut) : reports (a ++ b) = reports a ++ reports b := List.filterMap_append
theorem startedJobs_append (a b : List VaOut) : startedJobs (a ++ b) = startedJobs a ++ startedJobs b :=
  List.filterMap_append

/-! ## The postponed requests -/

/-- Everything about `vaFlush` that is needed. -/
theorem vaFlush_spec (tries : Nat → VaTry) (hd : ∀ i j p, i ≠ j → (tries i).fork = some p → (tries j).fork ≠ some p) :
    ∀ (is : List Nat) (s : VaState), is.Nodup → ConnInv s → (∀ i ∈ is, s.FreshPid (tries i).fork) →
      (∀ i ∈ is, ∀ j, s.waiting i = some j → j.type ≠ msgConnect) →
    (vaFlush tries is s).1.session = s.session ∧ ConnInv (vaFlush tries is s).1 ∧
    (∀ i, (vaFlush tries is s).1.waiting i = if i ∈ is then none else s.waiting i) ∧
    (tableList (vaFlush tries is s).1).Perm (((vaFlush tries is s).2.filterMap opens).foldl noteOpen (tableList s)) ∧
    reports (vaFlush tries is s).2 = [] ∧ startedJobs (vaFlush tries is s).2 = is.filterMap s.waiting ∧
    (∀ pid u sr, VaOut.session pid u sr ∉ (vaFlush tries is s).2) := by
  intro is
  induction is with
  | nil => intro s _ h _ _; exact ⟨rfl, h, by simp [vaFlush], List.Perm.refl _, rfl, rfl, by simp [vaFlush]⟩
  | cons i is ih =>
    intro s hn h hf ht
    obtain ⟨hni, hn'⟩ := List.nodup_cons.1 hn
    rw [vaFlush]
    cases hw : s.waiting i with
    | none =>
      dsimp only
      obtain ⟨a1, a2, a3, a4, a5, a6, a7⟩ := ih s hn' h (fun k hk => hf k (List.mem_cons_of_mem _ hk))
        (fun k hk => ht k (List.mem_cons_of_mem _ hk))
      refine ⟨a1, a2, ?_, a4, a5, ?_, a7⟩
      · intro k
        rw [a3 k]
        by_cases hk : k ∈ is
        · simp [hk]
        · by_cases hki : k = i
          · subst hki; simp [hw]
          · simp [hk, hki]
      · rw [a6, List.filterMap_cons_none hw]
    | some j =>
      dsimp only
      obtain ⟨d1, d2, d3, d4, d5, d6, d7, d8⟩ := vaDo_spec h j (tries i) (hf i List.mem_cons_self)
      have hfr : ∀ k ∈ is, ({ (vaDo s j (tries i)).1 with waiting := put (vaDo s j (tries i)).1.waiting i none } : VaState).FreshPid
          (tries k).fork := by
        intro k hk p hp
        obtain ⟨h0, hq⟩ := hf k (List.mem_cons_of_mem _ hk) p hp
        refine ⟨h0, ?_⟩
        intro m hm
        rcases d8 m with e | e | ⟨p', hp', e⟩
        · rw [show ({ (vaDo s j (tries i)).1 with waiting := put (vaDo s j (tries i)).1.waiting i none } : VaState).conns m
            = (vaDo s j (tries i)).1.conns m from rfl, e]
          exact hq m hm
        · rw [show ({ (vaDo s j (tries i)).1 with waiting := put (vaDo s j (tries i)).1.waiting i none } : VaState).conns m
            = (vaDo s j (tries i)).1.conns m from rfl, e]
          omega
        · rw [show ({ (vaDo s j (tries i)).1 with waiting := put (vaDo s j (tries i)).1.waiting i none } : VaState).conns m
            = (vaDo s j (tries i)).1.conns m from rfl, e]
          intro heq
          have : p' = p := by exact_mod_cast heq
          subst this
          exact hd i k p' (fun e => hni (e ▸ hk)) hp' hp
      have hw' : ∀ k ∈ is, put (vaDo s j (tries i)).1.waiting i none k = s.waiting k := by
        intro k hk
        rw [put_other _ _ (by rintro rfl; exact hni hk), d1]
      obtain ⟨a1, a2, a3, a4, a5, a6, a7⟩ := ih { (vaDo s j (tries i)).1 with waiting := put (vaDo s j (tries i)).1.waiting i none }
        hn' ⟨d3.pid_ge, d3.fd_pid, d3.uniq⟩ hfr (fun k hk j' hj' => ht k (List.mem_cons_of_mem _ hk) j'
          (by rw [← hw' k hk]; exact hj'))
      refine ⟨a1.trans d2, a2, ?_, ?_, ?_, ?_, ?_⟩
      · intro k
        rw [a3 k]
        by_cases hk : k ∈ is
        · simp [hk]
        · by_cases hki : k = i
          · subst hki; simp [put_same]
          · have : put (vaDo s j (tries i)).1.waiting i none k = s.waiting k := by rw [put_other _ _ hki, d1]
            simp [hk, hki, this]
      · rw [opens_append]
        exact a4.trans (noteOpens_perm _ d4)
      · rw [reports_append, d5, a5]; rfl
      · rw [startedJobs_append, d6, a6, if_neg (ht i List.mem_cons_self j hw), List.filterMap_cons_some hw]
        show _ = [j] ++ _
        congr 1
        exact List.filterMap_congr hw'
      · intro pid u sr hm
        rcases List.mem_append.1 hm with hm | hm
        · exact d7 pid u sr hm
        · exact a7 pid u sr hm

/-! ## Ends of connections -/

theorem vaRelease_table (s : VaState) {i : Nat} (hi : i < maxClients) (hp : (s.conns i).pid ≠ 0) :
    (tableList s).Perm (((s.conns i).key, (s.conns i).domain, (s.conns i).port) :: tableList (vaRelease s i).1) := by
  have hperm := slot_put (fun j => (s.conns j).entry) i ({ s.conns i with pid := 0 } : VaConn).entry maxClients hi
  have e1 : ({ s.conns i with pid := 0 } : VaConn).entry = none := by
    unfold VaConn.entry; rw [if_pos rfl]
  have e2 : (s.conns i).entry = some ((s.conns i).key, (s.conns i).domain, (s.conns i).port) := by
    unfold VaConn.entry; rw [if_neg hp]
  simp only [e2, Option.toList_some, e1, Option.toList_none, List.nil_append] at hperm
  have e3 : tableList (vaRelease s i).1 = (List.range maxClients).filterMap
      (put (fun j => (s.conns j).entry) i none) := by
    show (List.range maxClients).filterMap (fun j => (put s.conns i { s.conns i with pid := 0 } j).entry) = _
    rw [entry_put, e1]
  rw [e3]
  exact hperm.symm

theorem vaRelease_inv {s : VaState} (h : ConnInv s) (i : Nat) : ConnInv (vaRelease s i).1 := by
  have hc : ∀ j, (vaRelease s i).1.conns j = put s.conns i { s.conns i with pid := 0 } j := fun _ => rfl
  have hp : ∀ j, ((vaRelease s i).1.conns j).pid = if j = i then 0 else (s.conns j).pid := by
    intro j
    rw [hc]
    by_cases hj : j = i
    · subst hj; rw [put_same, if_pos rfl]
    · rw [put_other _ _ hj, if_neg hj]
  refine ⟨?_, ?_, ?_⟩
  · intro j hj
    rw [hp]
    split
    · omega
    · exact h.pid_ge j hj
  · intro j hj hpos
    rw [hp] at hpos
    by_cases hji : j = i
    · rw [if_pos hji] at hpos; omega
    · rw [if_neg hji] at hpos
      rw [hc, put_other _ _ hji]
      exact h.fd_pid j hj hpos
  · intro j k hj hk hjk hpos
    rw [hp] at hpos
    rw [hp, hp]
    by_cases hji : j = i
    · rw [if_pos hji] at hpos; omega
    · rw [if_neg hji] at hpos ⊢
      by_cases hki : k = i
      · rw [if_pos hki]; omega
      · rw [if_neg hki]; exact h.uniq j k hj hk hjk hpos

theorem vaPoll_conns (ready : List Int) : ∀ (is : List Nat) (s : VaState), is.Nodup → ∀ i,
    (vaPoll ready is s).1.conns i = if i ∈ is ∧ (s.conns i).pid ≠ 0 ∧ (s.conns i).fd ≠ -1 ∧ (s.conns i).fd ∈ ready
      then { s.conns i with pid := 0 } else s.conns i := by
  intro is
  induction is with
  | nil => intro s _ i; simp [vaPoll]
  | cons k is ih =>
    intro s hn i
    obtain ⟨hk, hn'⟩ := List.nodup_cons.1 hn
    rw [vaPoll]
    by_cases hc : (s.conns k).pid ≠ 0 ∧ (s.conns k).fd ≠ -1 ∧ (s.conns k).fd ∈ ready
    · rw [if_pos hc]
      dsimp only
      rw [ih _ hn' i]
      have he : (vaRelease s k).1.conns i = put s.conns k { s.conns k with pid := 0 } i := rfl
      by_cases hi : i = k
      · subst hi
        rw [if_neg (fun h => hk h.1), he, put_same, if_pos ⟨List.mem_cons_self, hc⟩]
      · rw [he, put_other _ _ hi]
        simp [hi]
    · rw [if_neg hc, ih s hn' i]
      by_cases hi : i = k
      · subst hi
        rw [if_neg (fun h => hk h.1), if_neg (fun h => hc h.2)]
      · simp [hi]

theorem vaPoll_rest (ready : List Int) : ∀ (is : List Nat) (s : VaState),
    (vaPoll ready is s).1.waiting = s.waiting ∧ (vaPoll ready is s).1.session = s.session ∧
    (vaPoll ready is s).2.filterMap opens = [] ∧ startedJobs (vaPoll ready is s).2 = [] ∧
    (∀ pid u sr, VaOut.session pid u sr ∉ (vaPoll ready is s).2) := by
  intro is
  induction is with
  | nil => intro s; exact ⟨rfl, rfl, rfl, rfl, by simp [vaPoll]⟩
  | cons k is ih =>
    intro s
    rw [vaPoll]
    split
    · obtain ⟨a1, a2, a3, a4, a5⟩ := ih (vaRelease s k).1
      refine ⟨a1, a2, ?_, ?_, ?_⟩
      · simpa [vaRelease, opens] using a3
      · simpa [vaRelease, startedJobs] using a4
      · intro pid u sr hm
        simp [vaRelease] at hm
        exact a5 pid u sr hm
    · exact ih s

theorem vaPoll_reports (ready : List Int) : ∀ (is : List Nat) (s : VaState), is.Nodup →
    reports (vaPoll ready is s).2 = is.filterMap fun i =>
      if (s.conns i).pid ≠ 0 ∧ (s.conns i).fd ≠ -1 ∧ (s.conns i).fd ∈ ready then
        some ((s.conns i).domain, (s.conns i).port) else none := by
  intro is
  induction is with
  | nil => intro s _; rfl
  | cons k is ih =>
    intro s hn
    obtain ⟨hk, hn'⟩ := List.nodup_cons.1 hn
    rw [vaPoll]
    by_cases hc : (s.conns k).pid ≠ 0 ∧ (s.conns k).fd ≠ -1 ∧ (s.conns k).fd ∈ ready
    · rw [if_pos hc, List.filterMap_cons_some (by rw [if_pos hc])]
      dsimp only
      have e : reports (.closed (s.conns k).fd :: (vaRelease s k).2 ++ (vaPoll ready is (vaRelease s k).1).2) =
          ((s.conns k).domain, (s.conns k).port) :: reports (vaPoll ready is (vaRelease s k).1).2 := rfl
      rw [e, ih _ hn']
      congr 1
      apply List.filterMap_congr
      intro i hi
      have he : (vaRelease s k).1.conns i = s.conns i := by
        show put s.conns k _ i = _
        exact put_other _ _ (by rintro rfl; exact hk hi)
      rw [he]
    · rw [if_neg hc, ih s hn', List.filterMap_cons_none (by rw [if_neg hc])]

theorem key_ended {s : VaState} (h : ConnInv s) {i : Nat} (hi : i < maxClients) (hp : (s.conns i).pid ≠ 0) (ready : List Int) :
    endedBy (.poll ready) ((s.conns i).key, (s.conns i).domain, (s.conns i).port) =
      decide ((s.conns i).fd ≠ -1 ∧ (s.conns i).fd ∈ ready) := by
  unfold VaConn.key endedBy
  dsimp only
  by_cases hpos : (s.conns i).pid > 0
  · rw [if_pos hpos]
    have := h.fd_pid i hi hpos
    simp [this]
  · rw [if_neg hpos]
    by_cases hf : (s.conns i).fd = -1
    · rw [if_pos hf]; simp [hf]
    · rw [if_neg hf]; simp [hf]

theorem vaPoll_table {s : VaState} (h : ConnInv s) (ready : List Int) :
    tableList (vaPoll ready (List.range maxClients) s).1 =
      (tableList s).filter (fun c => !endedBy (.poll ready) c) ∧
    reports (vaPoll ready (List.range maxClients) s).2 =
      ((tableList s).filter (endedBy (.poll ready))).map Prod.snd ∧
    ConnInv (vaPoll ready (List.range maxClients) s).1 := by
  have hc := vaPoll_conns ready (List.range maxClients) s List.nodup_range
  refine ⟨?_, ?_, ?_⟩
  · unfold tableList
    rw [List.filter_filterMap]
    apply List.filterMap_congr
    intro i hi
    have hi' := List.mem_range.1 hi
    rw [hc i]
    by_cases hp : (s.conns i).pid = 0
    · rw [if_neg (fun x => x.2.1 hp)]
      unfold VaConn.entry
      rw [if_pos hp]
      rfl
    · have he : (s.conns i).entry = some ((s.conns i).key, (s.conns i).domain, (s.conns i).port) := by
        unfold VaConn.entry; rw [if_neg hp]
      rw [he, Option.filter_some, key_ended h hi' hp]
      by_cases hr : (s.conns i).fd ≠ -1 ∧ (s.conns i).fd ∈ ready
      · rw [if_pos ⟨hi, hp, hr⟩]
        rw [decide_eq_true hr]
        unfold VaConn.entry
        simp
      · rw [if_neg (fun x => hr x.2.2), he]
        simp only [hr, decide_false]
        simp
  · rw [vaPoll_reports ready _ s List.nodup_range]
    unfold tableList
    rw [List.filter_filterMap, List.map_filterMap]
    apply List.filterMap_congr
    intro i hi
    have hi' := List.mem_range.1 hi
    by_cases hp : (s.conns i).pid = 0
    · rw [if_neg (fun x => x.1 hp)]
      unfold VaConn.entry
      rw [if_pos hp]
      rfl
    · have he : (s.conns i).entry = some ((s.conns i).key, (s.conns i).domain, (s.conns i).port) := by
        unfold VaConn.entry; rw [if_neg hp]
      rw [he, Option.filter_some, key_ended h hi' hp]
      by_cases hr : (s.conns i).fd ≠ -1 ∧ (s.conns i).fd ∈ ready
      · rw [if_pos ⟨hp, hr⟩]; simp [hr]
      · rw [if_neg (fun x => hr x.2)]
        simp only [hr, decide_false]
        rfl
  · have hp : ∀ i, ((vaPoll ready (List.range maxClients) s).1.conns i).pid = (s.conns i).pid ∨
        ((vaPoll ready (List.range maxClients) s).1.conns i).pid = 0 := by
      intro i
      rw [hc i]
      split
      · exact Or.inr rfl
      · exact Or.inl rfl
    refine ⟨?_, ?_, ?_⟩
    · intro i hi
      rcases hp i with e | e
      · rw [e]; exact h.pid_ge i hi
      · rw [e]; omega
    · intro i hi hpos
      rw [hc i] at hpos ⊢
      split at hpos
      · simp at hpos
      · rename_i hn
        rw [if_neg hn]
        exact h.fd_pid i hi hpos
    · intro i j hi hj hij hpos
      rcases hp i with e | e
      · rw [e] at hpos ⊢
        rcases hp j with e' | e'
        · rw [e']; exact h.uniq i j hi hj hij hpos
        · rw [e']; omega
      · rw [e] at hpos; omega

theorem mem_tableList {s : VaState} {c : VaOpen} : c ∈ tableList s ↔
    ∃ i, i < maxClients ∧ (s.conns i).pid ≠ 0 ∧ c = ((s.conns i).key, (s.conns i).domain, (s.conns i).port) := by
  unfold tableList
  rw [List.mem_filterMap]
  constructor
  · rintro ⟨i, hi, he⟩
    refine ⟨i, List.mem_range.1 hi, ?_⟩
    unfold VaConn.entry at he
    split at he
    · cases he
    · rename_i hp
      cases he
      exact ⟨hp, rfl⟩
  · rintro ⟨i, hi, hp, rfl⟩
    refine ⟨i, List.mem_range.2 hi, ?_⟩
    unfold VaConn.entry
    rw [if_neg hp]

theorem key_child {c : VaConn} {pid : Nat} (h0 : pid ≠ 0) : c.key = .child pid ↔ c.pid = (pid : Int) := by
  unfold VaConn.key
  by_cases hp : c.pid > 0
  · rw [if_pos hp]
    constructor
    · intro h
      injection h with h
      omega
    · intro h
      rw [h]
      simp
  · rw [if_neg hp]
    constructor
    · intro h
      split at h <;> cases h
    · intro h; omega

theorem vaReap_table {s : VaState} (h : ConnInv s) {pid : Nat} (h0 : pid ≠ 0) (tries : Nat → VaTry)
    (hs : s.session ≠ some pid) :
    (tableList (vaReap s pid tries).1).Perm ((tableList s).filter (fun c => !endedBy (.childExit pid tries) c)) ∧
    (reports (vaReap s pid tries).2).Perm (((tableList s).filter (endedBy (.childExit pid tries))).map Prod.snd) ∧
    ConnInv (vaReap s pid tries).1 ∧ (vaReap s pid tries).1.waiting = s.waiting ∧
    (vaReap s pid tries).1.session = s.session ∧ (vaReap s pid tries).2.filterMap opens = [] ∧
    startedJobs (vaReap s pid tries).2 = [] ∧ (∀ p u sr, VaOut.session p u sr ∉ (vaReap s pid tries).2) := by
  unfold vaReap
  rw [if_neg hs]
  have hend : ∀ c : VaOpen, endedBy (.childExit pid tries) c = decide (c.1 = .child pid) := fun c => rfl
  cases hf : (List.range maxClients).find? fun i => (s.conns i).pid == (pid : Int) with
  | none =>
    dsimp only
    have hall := find_range_none hf
    have hno : ∀ c ∈ tableList s, c.1 ≠ .child pid := by
      intro c hc hk
      obtain ⟨i, hi, hp, rfl⟩ := mem_tableList.1 hc
      have e := (key_child h0).1 hk
      have := hall i hi
      rw [e] at this
      simp at this
    refine ⟨?_, ?_, h, rfl, rfl, rfl, rfl, by simp⟩
    · rw [List.filter_eq_self.2 fun c hc => by rw [hend]; simp [hno c hc]]
    · rw [List.filter_eq_nil_iff.2 fun c hc => by rw [hend]; simp [hno c hc]]
      exact List.Perm.refl _
  | some i =>
    dsimp only
    obtain ⟨hi, he⟩ := find_range_some hf
    have he : (s.conns i).pid = (pid : Int) := by simpa using he
    have hp : (s.conns i).pid ≠ 0 := by omega
    have hk : (s.conns i).key = .child pid := (key_child h0).2 he
    have hperm := vaRelease_table s hi hp
    have hno : ∀ c ∈ tableList (vaRelease s i).1, c.1 ≠ .child pid := by
      intro c hc hk'
      obtain ⟨j, hj, hpj, rfl⟩ := mem_tableList.1 hc
      have e := (key_child h0).1 hk'
      have hcj : (vaRelease s i).1.conns j = put s.conns i { s.conns i with pid := 0 } j := rfl
      by_cases hji : j = i
      · subst hji
        rw [hcj, put_same] at hpj
        exact hpj rfl
      · rw [hcj, put_other _ _ hji] at e
        exact h.uniq i j hi hj (Ne.symm hji) (by omega) (by rw [he, e])
    rw [hk] at hperm
    refine ⟨?_, ?_, vaRelease_inv h i, rfl, rfl, rfl, rfl, by simp [vaRelease]⟩
    · have := hperm.filter (fun c => !endedBy (.childExit pid tries) c)
      rw [List.filter_cons_of_neg (by rw [hend]; simp)] at this
      have e : (tableList (vaRelease s i).1).filter (fun c => !endedBy (.childExit pid tries) c) =
          tableList (vaRelease s i).1 := List.filter_eq_self.2 fun c hc => by rw [hend]; simp [hno c hc]
      rw [e] at this
      exact this.symm
    · have := hperm.filter (endedBy (.childExit pid tries))
      rw [List.filter_cons_of_pos (by rw [hend]; simp)] at this
      have e : (tableList (vaRelease s i).1).filter (endedBy (.childExit pid tries)) = [] :=
        List.filter_eq_nil_iff.2 fun c hc => by rw [hend]; simp [hno c hc]
      rw [e] at this
      exact (this.map Prod.snd).symm

end Qrexec
