import Verif.Lemmas.VmAgent
import Mathlib.Data.List.Induction

/-! # C67, C68: the connections and the postponed requests of the agent -/
namespace Qrexec
open Spec

/-- What holds after every history. -/
structure VaInv (load : RpcService → Option SvcConf) (h : VaHistory) (s : VaState) : Prop where
  conns : ConnInv s
  sess : ∀ p, s.session = some p → p ≠ 0 ∧ ∀ i, i < maxClients → (s.conns i).pid ≠ (p : Int)
  table : (tableList s).Perm (openConns h)
  wait : ∀ i, s.waiting i = (postponed load h)[i]?
  len : (postponed load h).length ≤ maxClients
  idle : s.session = none → postponed load h = []
  proc : s.session = sessionProc h
  kind : ∀ j ∈ postponed load h, j.type ≠ msgConnect

theorem openConns_snoc (h : VaHistory) (x : VaEv × List VaOut) : openConns (h ++ [x]) = openStep (openConns h) x := by
  unfold openConns; rw [List.foldl_append]; rfl

theorem postponed_snoc (load : RpcService → Option SvcConf) (h : VaHistory) (x : VaEv × List VaOut) :
    postponed load (h ++ [x]) = match requestOf load x.1 with
      | some j => if startedJobs x.2 = [] then postponed load h ++ [j] else postponed load h
      | none => (postponed load h).filter fun j => !decide (j ∈ startedJobs x.2) := by
  unfold postponed; rw [List.foldl_append]; rfl

/-- The process that waits for the session, after one more event. -/
theorem sessionProc_snoc (h : VaHistory) (e : VaEv) (o : List VaOut) :
    sessionProc (h ++ [(e, o)]) = o.foldl (fun s y => match y with
      | .session pid _ _ => some pid
      | _ => s) (match e with
      | .childExit pid _ => if sessionProc h = some pid then none else sessionProc h
      | _ => sessionProc h) := by
  unfold sessionProc; rw [List.foldl_append]; rfl

theorem no_session_fold {o : List VaOut} (h : ∀ pid u sr, VaOut.session pid u sr ∉ o) (x : Option Nat) :
    o.foldl (fun s y => match y with
      | .session pid _ _ => some pid
      | _ => s) x = x := by
  induction o with
  | nil => rfl
  | cons y o ih =>
    have ih' := ih fun p u sr hm => h p u sr (List.mem_cons_of_mem _ hm)
    cases y <;> first | exact ih' | exact absurd List.mem_cons_self (h _ _ _)

theorem filter_none {l : List VaJob} : l.filter (fun j => !decide (j ∈ ([] : List VaJob))) = l := by
  rw [List.filter_eq_self]; simp

theorem wants_not_connect {load : RpcService → Option SvcConf} {type d p : Nat} {body : Wire}
    (h : wantsSession (vaJob load type d p body) = true) : type ≠ msgConnect := by
  intro he
  unfold wantsSession vaJob at h
  simp only [if_pos he] at h
  cases h

/-- The requests found in the slots are those that were postponed. -/
theorem slots_list {β : Type} (f : Nat → Option β) (l : List β) (hf : ∀ i, f i = l[i]?) : ∀ n, l.length ≤ n →
    (List.range n).filterMap f = l := by
  intro n hn
  have key : ∀ m, (List.range m).filterMap f = l.take m := by
    intro m
    induction m with
    | zero => rfl
    | succ m ih =>
      rw [List.range_succ, List.filterMap_append, ih, List.take_add_one]
      congr 1
      rw [← hf m]
      cases hm : f m <;> simp [hm]
  rw [key n, List.take_of_length_le hn]

theorem waitSlot_list {s : VaState} {l : List VaJob} (hw : ∀ i, s.waiting i = l[i]?) :
    waitSlot s = if l.length < maxClients then some l.length else none := by
  unfold waitSlot
  by_cases hl : l.length < maxClients
  · rw [if_pos hl]
    cases hf : (List.range maxClients).find? fun i => (s.waiting i).isNone with
    | none =>
      have := find_range_none hf l.length hl
      rw [hw] at this
      simp at this
    | some i =>
      obtain ⟨hi, hn⟩ := find_range_some hf
      rw [hw] at hn
      have hge : l.length ≤ i := by simpa using hn
      by_cases he : i = l.length
      · rw [he]
      · exfalso
        have hb : ¬ ((s.waiting l.length).isNone = true) := by
          rw [List.find?_eq_some_iff_append] at hf
          obtain ⟨_, as, bs, hab, hall⟩ := hf
          have hmem : l.length ∈ as := by
            have hs : (List.range maxClients).Pairwise (· < ·) := List.pairwise_lt_range
            rw [hab] at hs
            have hm : l.length ∈ as ++ i :: bs := by rw [← hab]; exact List.mem_range.2 hl
            rcases List.mem_append.1 hm with hm | hm
            · exact hm
            · exfalso
              rcases List.mem_cons.1 hm with hm | hm
              · omega
              · have := (List.pairwise_append.1 hs).2.1
                have := (List.pairwise_cons.1 this).1 _ hm
                omega
          have := hall _ hmem
          simp only [Bool.not_eq_true', Bool.not_eq_eq_eq_not, Bool.not_true] at this
          rw [this]
          exact Bool.false_ne_true
        rw [hw] at hb
        simp at hb
  · rw [if_neg hl]
    rw [List.find?_eq_none]
    intro i hi
    have := List.mem_range.1 hi
    rw [hw]
    have : i < l.length := by omega
    simp [this]

/-- What is started by one more event. -/
def VaStarts (load : RpcService → Option SvcConf) (h : VaHistory) (o : List VaOut) : VaEv → Prop
  | .exec type d p body t session =>
    if type = 0x202 then startedJobs o = [] else
      (startedJobs o = [vaJob load type d p body] ∧ (¬ wantsSession (vaJob load type d p body) ∨
        (sessionProc h = none ∧ session = none) ∨ (postponed load h).length = 256)) ∨
      (startedJobs o = [] ∧ wantsSession (vaJob load type d p body) = true ∧ (postponed load h).length < 256 ∧
        sessionProc (h ++ [(.exec type d p body t session, o)]) ≠ none)
  | .childExit pid _ => startedJobs o = if sessionProc h = some pid then postponed load h else []
  | _ => startedJobs o = []

/-- One event: the invariant, and what is done. -/
theorem va_step {load : RpcService → Option SvcConf} {h : VaHistory} {s s' : VaState} {e : VaEv} {o : List VaOut}
    (hi : VaInv load h s) (hp : e.Possible s) (hs : vaStep load s e = some (s', o)) :
    VaInv load (h ++ [(e, o)]) s' ∧
    (reports o).Perm (((openConns h).filter (endedBy e)).map Prod.snd) ∧
    VaStarts load h o e := by
  obtain ⟨hc, hse, htab, hw, hlen, hidle, hproc, hkind⟩ := hi
  -- an event that changes nothing
  have quiet : ∀ (o' : List VaOut), requestOf load e = none → (∀ c, endedBy e c = false) →
      (∀ x, (match e with
        | .childExit pid _ => if x = some pid then none else x
        | _ => x) = x) →
      o'.filterMap opens = [] → startedJobs o' = [] → (∀ p u sr, VaOut.session p u sr ∉ o') → reports o' = [] →
      VaInv load (h ++ [(e, o')]) s ∧ (reports o').Perm (((openConns h).filter (endedBy e)).map Prod.snd) := by
    intro o' h1 h2 h3 h4 h5 h6 h7
    have hpost : postponed load (h ++ [(e, o')]) = postponed load h := by
      rw [postponed_snoc]
      dsimp only
      rw [h1, h5]
      exact filter_none
    have hopen : openConns (h ++ [(e, o')]) = openConns h := by
      rw [openConns_snoc]
      unfold openStep
      dsimp only
      rw [h4]
      exact List.filter_eq_self.2 fun c _ => by rw [h2]; rfl
    refine ⟨⟨hc, hse, hopen ▸ htab, by rw [hpost]; exact hw, by rw [hpost]; exact hlen, by rw [hpost]; exact hidle, ?_,
      by rw [hpost]; exact hkind⟩, ?_⟩
    · rw [sessionProc_snoc, no_session_fold h6, h3]; exact hproc
    · rw [h7, List.filter_eq_nil_iff.2 fun c _ => by rw [h2]; simp]
      exact List.Perm.refl _
  cases e with
  | unknown => cases hs
  | refused ident =>
    cases hs
    have hcase : vaRefused ident = [] ∨ (∃ n, vaRefused ident = [.closed n]) ∨ vaRefused ident = [.closedGarbage] := by
      unfold vaRefused
      split
      · exact Or.inr (Or.inl ⟨_, rfl⟩)
      · exact Or.inr (Or.inr rfl)
      · exact Or.inl rfl
    have h5 : startedJobs (vaRefused ident) = [] := by
      rcases hcase with e | ⟨n, e⟩ | e <;> rw [e] <;> rfl
    obtain ⟨a, b⟩ := quiet (vaRefused ident) rfl (fun _ => rfl) (fun _ => rfl)
      (by rcases hcase with e | ⟨n, e⟩ | e <;> rw [e] <;> rfl) h5
      (by intro p u sr hm; rcases hcase with e | ⟨n, e⟩ | e <;> rw [e] at hm <;> simp at hm)
      (by rcases hcase with e | ⟨n, e⟩ | e <;> rw [e] <;> rfl)
    exact ⟨a, b, h5⟩
  | trigger fd hdr body =>
    cases hs
    have hcase : vaTrigger fd hdr body = [.closed fd] ∨ ∃ t l b, vaTrigger fd hdr body = [.forward t l b] := by
      unfold vaTrigger
      split
      · exact Or.inl rfl
      · split
        · exact Or.inl rfl
        · split
          · exact Or.inl rfl
          · exact Or.inr ⟨_, _, _, rfl⟩
    have h5 : startedJobs (vaTrigger fd hdr body) = [] := by
      rcases hcase with e | ⟨t, l, b, e⟩ <;> rw [e] <;> rfl
    obtain ⟨a, b⟩ := quiet (vaTrigger fd hdr body) rfl (fun _ => rfl) (fun _ => rfl)
      (by rcases hcase with e | ⟨t, l, b, e⟩ <;> rw [e] <;> rfl) h5
      (by intro p u sr hm; rcases hcase with e | ⟨t, l, b, e⟩ <;> rw [e] at hm <;> simp at hm)
      (by rcases hcase with e | ⟨t, l, b, e⟩ <;> rw [e] <;> rfl)
    exact ⟨a, b, h5⟩
  | poll ready =>
    simp only [vaStep, Option.some.injEq] at hs
    obtain ⟨p1, p2, p3⟩ := vaPoll_table hc ready
    obtain ⟨r1, r2, r3, r4, r5⟩ := vaPoll_rest ready (List.range maxClients) s
    have hconn := vaPoll_conns ready (List.range maxClients) s List.nodup_range
    generalize vaPoll ready (List.range maxClients) s = r at hs p1 p2 p3 r1 r2 r3 r4 r5 hconn
    cases hs
    have hpost : postponed load (h ++ [(.poll ready, o)]) = postponed load h := by
      rw [postponed_snoc]
      dsimp only
      rw [r4]
      exact filter_none
    refine ⟨⟨p3, ?_, ?_, by rw [hpost]; intro i; rw [r1]; exact hw i, by rw [hpost]; exact hlen,
      by rw [hpost, r2]; exact hidle, ?_, by rw [hpost]; exact hkind⟩, ?_, r4⟩
    · intro p hpp
      rw [r2] at hpp
      refine ⟨(hse p hpp).1, fun i hi => ?_⟩
      rw [hconn i]
      split
      · have := (hse p hpp).1
        show (0 : Int) ≠ _
        omega
      · exact (hse p hpp).2 i hi
    · rw [openConns_snoc]
      unfold openStep
      dsimp only
      rw [r3, p1]
      exact htab.filter _
    · rw [sessionProc_snoc, no_session_fold r5, r2]; exact hproc
    · rw [p2]
      exact (htab.filter _).map _
  | childExit pid tries =>
    simp only [vaStep, Option.some.injEq] at hs
    obtain ⟨hp0, hfr, hd⟩ := hp
    by_cases hsp : s.session = some pid
    · have hreap : vaReap s pid tries = ({ (vaFlush tries (List.range maxClients) s).1 with session := none },
          (vaFlush tries (List.range maxClients) s).2) := by
        unfold vaReap; rw [if_pos hsp]
      rw [hreap] at hs
      obtain ⟨f1, f2, f3, f4, f5, f6, f7⟩ := vaFlush_spec tries hd (List.range maxClients) s List.nodup_range hc
        (fun i _ => hfr i) (by
          intro i _ j hj
          rw [hw i] at hj
          exact hkind j (List.mem_of_getElem? hj))
      generalize vaFlush tries (List.range maxClients) s = r at hs f1 f2 f3 f4 f5 f6 f7
      cases hs
      have hsj : startedJobs r.2 = postponed load h := by
        rw [f6, slots_list _ _ hw _ hlen]
      have hpost : postponed load (h ++ [(.childExit pid tries, r.2)]) = [] := by
        rw [postponed_snoc]
        dsimp only
        rw [hsj]
        show (postponed load h).filter _ = []
        rw [List.filter_eq_nil_iff]
        intro j hj
        simp [hj]
      have hnoend : ∀ c ∈ openConns h, endedBy (.childExit pid tries) c = false := by
        intro c hcm
        obtain ⟨i, hi, hpi, rfl⟩ := mem_tableList.1 (htab.mem_iff.2 hcm)
        show decide (_ = _) = false
        rw [decide_eq_false_iff_not]
        intro hk
        exact (hse pid hsp).2 i hi ((key_child hp0).1 hk)
      refine ⟨⟨⟨f2.pid_ge, f2.fd_pid, f2.uniq⟩, (fun p hh => by cases hh), ?_, ?_, (by rw [hpost]; exact Nat.zero_le _), fun _ => hpost,
        ?_, (by rw [hpost]; simp)⟩, ?_, ?_⟩
      · rw [openConns_snoc]
        unfold openStep
        dsimp only
        have e : (openConns h).filter (fun c => !endedBy (.childExit pid tries) c) = openConns h :=
          List.filter_eq_self.2 fun c hcm => by rw [hnoend c hcm]; rfl
        rw [e]
        exact f4.trans (noteOpens_perm _ htab)
      · intro i
        rw [hpost]
        show r.1.waiting i = _
        rw [f3 i]
        by_cases him : i ∈ List.range maxClients
        · rw [if_pos him]; simp
        · rw [if_neg him, hw i]
          have : (postponed load h).length ≤ i := by
            rw [List.mem_range] at him
            omega
          simp [this]
      · rw [sessionProc_snoc, no_session_fold f7]
        dsimp only
        rw [← hproc, if_pos hsp]
      · rw [f5, List.filter_eq_nil_iff.2 fun c hcm => by rw [hnoend c hcm]; simp]
        exact List.Perm.refl _
      · show _ = if _ then _ else _
        rw [← hproc, if_pos hsp]
        exact hsj
    · obtain ⟨t1, t2, t3, t4, t5, t6, t7, t8⟩ := vaReap_table hc hp0 tries hsp
      have hpids : ∀ i, ((vaReap s pid tries).1.conns i).pid = (s.conns i).pid ∨ ((vaReap s pid tries).1.conns i).pid = 0 := by
        intro i
        unfold vaReap
        rw [if_neg hsp]
        split
        · exact Or.inl rfl
        · rename_i k _
          show (put s.conns k _ i).pid = _ ∨ (put s.conns k _ i).pid = _
          by_cases hik : i = k
          · subst hik; rw [put_same]; exact Or.inr rfl
          · rw [put_other _ _ hik]; exact Or.inl rfl
      generalize vaReap s pid tries = r at hs t1 t2 t3 t4 t5 t6 t7 t8 hpids
      cases hs
      have hpost : postponed load (h ++ [(.childExit pid tries, o)]) = postponed load h := by
        rw [postponed_snoc]
        dsimp only
        rw [t7]
        exact filter_none
      refine ⟨⟨t3, ?_, ?_, by rw [hpost]; intro i; rw [t4]; exact hw i, by rw [hpost]; exact hlen,
        by rw [hpost, t5]; exact hidle, ?_, by rw [hpost]; exact hkind⟩, ?_, ?_⟩
      · intro p hpp
        rw [t5] at hpp
        refine ⟨(hse p hpp).1, fun i hi => ?_⟩
        have hp0' := (hse p hpp).1
        rcases hpids i with e | e
        · rw [e]; exact (hse p hpp).2 i hi
        · rw [e]; omega
      · rw [openConns_snoc]
        unfold openStep
        dsimp only
        rw [t6]
        exact t1.trans (htab.filter _)
      · rw [sessionProc_snoc, no_session_fold t8]
        dsimp only
        rw [← hproc, if_neg hsp, t5]
      · exact t2.trans ((htab.filter _).map _)
      · show _ = if _ then _ else _
        rw [← hproc, if_neg hsp]
        exact t7
  | exec type d p body t session =>
    simp only [vaStep] at hs
    by_cases ht : type ≠ msgExec ∧ type ≠ msgJustExec ∧ type ≠ msgConnect
    · rw [if_pos ht] at hs; cases hs
    rw [if_neg ht] at hs
    by_cases hb : body.isEmpty = true
    · rw [if_pos hb] at hs; cases hs
    rw [if_neg hb] at hs
    simp only [Option.some.injEq] at hs
    obtain ⟨hf1, hf2, hf3⟩ := hp
    have hfreshdo : ∀ s1 : VaState, s1.conns = s.conns → s1.FreshPid t.fork := by
      intro s1 he p hp
      obtain ⟨a, b⟩ := hf1 p hp
      exact ⟨a, fun i hi => by rw [he]; exact b i hi⟩
    have hends : ∀ c, endedBy (.exec type d p body t session) c = false := fun _ => rfl
    have hrep : (openConns h).filter (endedBy (.exec type d p body t session)) = [] :=
      List.filter_eq_nil_iff.2 fun c _ => by rw [hends]; simp
    have hkeep : (openConns h).filter (fun c => !endedBy (.exec type d p body t session) c) = openConns h :=
      List.filter_eq_self.2 fun c _ => by rw [hends]; rfl
    have hjt : (vaJob load type d p body).type = type := rfl
    -- the request is started at once
    have now : ∀ (s1 : VaState) (o1 : List VaOut), s1.conns = s.conns → s1.waiting = s.waiting →
        (o1 = [] ∧ s1.session = s.session ∨ ∃ q u sr, session = some q ∧ o1 = [.session q u sr] ∧ s1.session = some q) →
        ((vaDo s1 (vaJob load type d p body) t).1, o1 ++ (vaDo s1 (vaJob load type d p body) t).2) = (s', o) →
        VaInv load (h ++ [(.exec type d p body t session, o)]) s' ∧
        (reports o).Perm (((openConns h).filter (endedBy (.exec type d p body t session))).map Prod.snd) ∧
        startedJobs o = (if type = msgConnect then [] else [vaJob load type d p body]) := by
      intro s1 o1 e1 e2 e3 e4
      have hc1 : ConnInv s1 := ⟨by rw [e1]; exact hc.pid_ge, by rw [e1]; exact hc.fd_pid, by rw [e1]; exact hc.uniq⟩
      obtain ⟨d1, d2, d3, d4, d5, d6, d7, d8⟩ := vaDo_spec hc1 (vaJob load type d p body) t (hfreshdo s1 e1)
      generalize vaDo s1 (vaJob load type d p body) t = r at e4 d1 d2 d3 d4 d5 d6 d7 d8
      have ht1 : tableList s1 = tableList s := by unfold tableList; rw [e1]
      have ho1 : o1.filterMap opens = [] ∧ startedJobs o1 = [] ∧ reports o1 = [] := by
        rcases e3 with ⟨rfl, _⟩ | ⟨q, u, sr, _, rfl, _⟩ <;> exact ⟨rfl, rfl, rfl⟩
      cases e4
      have hsj : startedJobs (o1 ++ r.2) = (if type = msgConnect then [] else [vaJob load type d p body]) := by
        rw [startedJobs_append, ho1.2.1, d6]; rfl
      have hpost : postponed load (h ++ [(.exec type d p body t session, o1 ++ r.2)]) = postponed load h := by
        rw [postponed_snoc]
        dsimp only
        by_cases hcon : type = msgConnect
        · rw [hsj, if_pos hcon, show requestOf load (.exec type d p body t session) = none by
            exact if_pos hcon]
          exact filter_none
        · rw [hsj, if_neg hcon, show requestOf load (.exec type d p body t session) = some (vaJob load type d p body) by
            exact if_neg hcon]
          dsimp only
          rw [if_neg (by simp)]
      have hproc' : sessionProc (h ++ [(.exec type d p body t session, o1 ++ r.2)]) = s1.session := by
        rw [sessionProc_snoc, List.foldl_append, no_session_fold d7]
        dsimp only
        rcases e3 with ⟨rfl, e⟩ | ⟨q, u, sr, _, rfl, e⟩
        · rw [e, hproc]; rfl
        · rw [e]; rfl
      refine ⟨⟨d3, ?_, ?_, by rw [hpost]; intro i; rw [d1, e2]; exact hw i, by rw [hpost]; exact hlen,
        ?_, by rw [hproc']; exact d2, by rw [hpost]; exact hkind⟩, ?_, hsj⟩
      · intro q hq
        rw [d2] at hq
        have hq0 : q ≠ 0 ∧ ∀ i, i < maxClients → (s.conns i).pid ≠ (q : Int) := by
          rcases e3 with ⟨_, e⟩ | ⟨q', u, sr, hse', _, e⟩
          · rw [e] at hq; exact hse q hq
          · rw [e] at hq; cases hq; exact hf2 q hse'
        refine ⟨hq0.1, fun i hi => ?_⟩
        rcases d8 i with e | e | ⟨p', hp', e⟩
        · rw [e, e1]; exact hq0.2 i hi
        · rw [e]; omega
        · rw [e]
          intro heq
          have : p' = q := by exact_mod_cast heq
          subst this
          have := hf3 p' hp'
          rcases e3 with ⟨_, e'⟩ | ⟨q', u, sr, hse', _, e'⟩
          · rw [e'] at hq; exact this.2 hq
          · rw [e'] at hq; cases hq; exact this.1 hse'
      · rw [openConns_snoc]
        unfold openStep
        dsimp only
        rw [hkeep, List.filterMap_append, ho1.1, List.nil_append]
        rw [ht1] at d4
        exact d4.trans (noteOpens_perm _ htab)
      · intro hn
        rw [hpost]
        rw [d2] at hn
        rcases e3 with ⟨_, e⟩ | ⟨q', u, sr, hse', _, e⟩
        · exact hidle (by rw [← e]; exact hn)
        · rw [e] at hn; cases hn
      · rw [reports_append, ho1.2.2, d5, hrep]
        exact List.Perm.refl _
    by_cases hwant : wantsSession (vaJob load type d p body) = true
    · have hnc : type ≠ msgConnect := wants_not_connect hwant
      unfold vaInit at hs
      dsimp only at hs
      rw [if_pos hwant] at hs
      -- the request is postponed
      have later : ∀ (s1 : VaState) (o1 : List VaOut), s1.conns = s.conns → s1.waiting = s.waiting →
          (o1 = [] ∧ s1.session = s.session ∧ s.session ≠ none ∨
            ∃ q u sr, session = some q ∧ o1 = [.session q u sr] ∧ s1.session = some q) →
          (postponed load h).length < maxClients →
          (({ s1 with waiting := put s1.waiting (postponed load h).length (some (vaJob load type d p body)) } : VaState), o1) =
            (s', o) →
          VaInv load (h ++ [(.exec type d p body t session, o)]) s' ∧
          (reports o).Perm (((openConns h).filter (endedBy (.exec type d p body t session))).map Prod.snd) ∧
          startedJobs o = [] ∧ sessionProc (h ++ [(.exec type d p body t session, o)]) ≠ none := by
        intro s1 o1 e1 e2 e3 hl e4
        have ho1 : o1.filterMap opens = [] ∧ startedJobs o1 = [] ∧ reports o1 = [] := by
          rcases e3 with ⟨rfl, _⟩ | ⟨q, u, sr, _, rfl, _⟩ <;> exact ⟨rfl, rfl, rfl⟩
        cases e4
        have hpost : postponed load (h ++ [(.exec type d p body t session, o)]) =
            postponed load h ++ [vaJob load type d p body] := by
          rw [postponed_snoc]
          dsimp only
          rw [ho1.2.1, show requestOf load (.exec type d p body t session) = some (vaJob load type d p body) by
              exact if_neg hnc]
          dsimp only
          rw [if_pos rfl]
        have hproc' : sessionProc (h ++ [(.exec type d p body t session, o)]) = s1.session := by
          rw [sessionProc_snoc]
          dsimp only
          rcases e3 with ⟨rfl, e, _⟩ | ⟨q, u, sr, _, rfl, e⟩
          · rw [e, hproc]; rfl
          · rw [e]; rfl
        have hsn : s1.session ≠ none := by
          rcases e3 with ⟨_, e, hne⟩ | ⟨q, u, sr, _, _, e⟩
          · rw [e]; exact hne
          · rw [e]; simp
        refine ⟨⟨⟨by dsimp only; rw [e1]; exact hc.pid_ge, by dsimp only; rw [e1]; exact hc.fd_pid,
          by dsimp only; rw [e1]; exact hc.uniq⟩, ?_, ?_, ?_, ?_,
          fun hn => absurd hn hsn, hproc'.symm, ?_⟩, ?_, ho1.2.1, by rw [hproc']; exact hsn⟩
        · intro q hq
          have hq : s1.session = some q := hq
          dsimp only
          rw [e1]
          rcases e3 with ⟨_, e, _⟩ | ⟨q', u, sr, hse', _, e⟩
          · rw [e] at hq; exact hse q hq
          · rw [e] at hq; cases hq; exact hf2 q hse'
        · rw [openConns_snoc]
          unfold openStep
          dsimp only
          rw [hkeep, ho1.1]
          have : ∀ w x, tableList (⟨s1.conns, w, x⟩ : VaState) = tableList s := by
            intro w x; unfold tableList; dsimp only; rw [e1]
          rw [this]
          exact htab
        · intro i
          rw [hpost]
          show put s1.waiting _ _ i = _
          by_cases hil : i = (postponed load h).length
          · rw [hil, put_same]; simp
          · rw [put_other _ _ hil, e2, hw i]
            by_cases hlt : i < (postponed load h).length
            · rw [List.getElem?_append_left hlt]
            · rw [List.getElem?_eq_none (by omega), List.getElem?_eq_none (by simp; omega)]
        · rw [hpost]; simp; omega
        · rw [hpost]
          intro j hj
          rcases List.mem_append.1 hj with hj | hj
          · exact hkind j hj
          · rw [List.mem_singleton] at hj; subst hj; exact hnc
        · rw [ho1.2.2, hrep]; exact List.Perm.refl _
      -- the final case distinction
      have fin : ∀ (s1 : VaState) (o1 : List VaOut), s1.conns = s.conns → s1.waiting = s.waiting →
          (o1 = [] ∧ s1.session = s.session ∧ s.session ≠ none ∨
            ∃ q u sr, session = some q ∧ o1 = [.session q u sr] ∧ s1.session = some q) →
          (match waitSlot s1 with
            | some i => (({ s1 with waiting := put s1.waiting i (some (vaJob load type d p body)) } : VaState), o1)
            | none => ((vaDo s1 (vaJob load type d p body) t).1, o1 ++ (vaDo s1 (vaJob load type d p body) t).2)) = (s', o) →
          VaInv load (h ++ [(.exec type d p body t session, o)]) s' ∧
          (reports o).Perm (((openConns h).filter (endedBy (.exec type d p body t session))).map Prod.snd) ∧
          if type = 0x202 then startedJobs o = [] else
          (startedJobs o = [vaJob load type d p body] ∧ (¬ wantsSession (vaJob load type d p body) ∨
            (sessionProc h = none ∧ session = none) ∨ (postponed load h).length = 256)) ∨
          (startedJobs o = [] ∧ wantsSession (vaJob load type d p body) = true ∧ (postponed load h).length < 256 ∧
            sessionProc (h ++ [(.exec type d p body t session, o)]) ≠ none) := by
        intro s1 o1 e1 e2 e3 e4
        rw [waitSlot_list (l := postponed load h) (by intro i; rw [e2]; exact hw i)] at e4
        by_cases hl : (postponed load h).length < maxClients
        · rw [if_pos hl] at e4
          obtain ⟨a, b, c, f⟩ := later s1 o1 e1 e2 e3 hl e4
          refine ⟨a, b, ?_⟩
          rw [if_neg (show ¬ type = 0x202 from hnc)]
          exact Or.inr ⟨c, hwant, hl, f⟩
        · rw [if_neg hl] at e4
          obtain ⟨a, b, c⟩ := now s1 o1 e1 e2 (by
            rcases e3 with ⟨x, y, _⟩ | x
            · exact Or.inl ⟨x, y⟩
            · exact Or.inr x) e4
          refine ⟨a, b, ?_⟩
          rw [if_neg (show ¬ type = 0x202 from hnc)]
          rw [if_neg hnc] at c
          exact Or.inl ⟨c, Or.inr (Or.inr (by
            have : (postponed load h).length = maxClients := by omega
            exact this))⟩
      cases hsess : s.session with
      | some q =>
        have hws : waitForSession s (vaJob load type d p body) session = (true, s, []) := by
          unfold waitForSession; rw [hsess]
        rw [hws] at hs
        dsimp only at hs
        exact fin s [] rfl rfl (Or.inl ⟨rfl, rfl, by rw [hsess]; simp⟩) hs
      | none =>
        cases hfk : session with
        | none =>
          have hws : waitForSession s (vaJob load type d p body) session = (false, s, []) := by
            unfold waitForSession; rw [hsess, hfk]
          rw [hws] at hs
          dsimp only at hs
          obtain ⟨a, b, c⟩ := now s [] rfl rfl (Or.inl ⟨rfl, rfl⟩) hs
          rw [hfk] at a b
          refine ⟨a, b, ?_⟩
          show if _ then _ else _
          rw [if_neg (show ¬ type = 0x202 from hnc)]
          rw [if_neg hnc] at c
          exact Or.inl ⟨c, Or.inr (Or.inl ⟨by rw [← hproc]; exact hsess, rfl⟩)⟩
        | some q =>
          obtain ⟨o1, ho1, hws⟩ : ∃ o1, (∃ u sr, o1 = [VaOut.session q u sr]) ∧
              waitForSession s (vaJob load type d p body) session = (true, { s with session := some q }, o1) := by
            unfold waitForSession
            rw [hsess, hfk]
            dsimp only
            cases hcmd : (vaJob load type d p body).cmd with
            | none => unfold wantsSession at hwant; rw [hcmd] at hwant; cases hwant
            | some r => exact ⟨_, ⟨_, _, rfl⟩, rfl⟩
          obtain ⟨u, sr, ho1⟩ := ho1
          rw [hws] at hs
          dsimp only at hs
          have := fin { s with session := some q } o1 rfl rfl (Or.inr ⟨q, u, sr, hfk, ho1, rfl⟩) hs
          rw [hfk] at this
          exact this
    · have hs' : vaDo s (vaJob load type d p body) t = (s', o) := by
        unfold vaInit at hs
        dsimp only at hs
        rw [if_neg hwant] at hs
        exact hs
      obtain ⟨a, b, c⟩ := now s [] rfl rfl (Or.inl ⟨rfl, rfl⟩) hs'
      refine ⟨a, b, ?_⟩
      by_cases hnc : type = msgConnect
      · rw [if_pos hnc] at c
        show if _ then _ else _
        rw [if_pos (show type = 0x202 from hnc)]
        exact c
      · rw [if_neg hnc] at c
        show if _ then _ else _
        rw [if_neg (show ¬ type = 0x202 from hnc)]
        exact Or.inl ⟨c, Or.inl hwant⟩

theorem va_inv {load : RpcService → Option SvcConf} {h : VaHistory} {s : VaState} (hr : VaRun load h s) : VaInv load h s := by
  induction hr with
  | start =>
    refine ⟨⟨?_, ?_, ?_⟩, ?_, ?_, ?_, ?_, ?_, ?_, ?_⟩
    · intro i _; show (0 : Int) ≥ -1; omega
    · intro i _ hp; exact absurd hp (by show ¬ (0 : Int) > 0; omega)
    · intro i j _ _ _ hp; exact absurd hp (by show ¬ (0 : Int) > 0; omega)
    · intro p hp; cases hp
    · have : tableList VaState.start = [] := by
        unfold tableList
        rw [List.filterMap_eq_nil_iff]
        intro i _
        rfl
      rw [this]
      exact List.Perm.refl _
    · intro i; rfl
    · exact Nat.zero_le _
    · intro _; rfl
    · rfl
    · intro j hj; cases hj
  | step _ hp hs ih => exact (va_step ih hp hs).1

end Qrexec
