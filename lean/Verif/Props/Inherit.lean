import Verif.Model.Inherit
import Verif.Props.VmClient

/-!
# A client whose call is refused is told (C106)
-/
namespace Qrexec
open Spec

namespace Spec

/-- Event `i` of a history starts a process with this number: one that serves a request without a fork server, or the one that
waits for the session. -/
def StartsProc (h : VaHistory) (i p : Nat) : Prop :=
  ∃ e o, h[i]? = some (e, o) ∧ ((∃ j, VaOut.child (some p) j ∈ o) ∨ ∃ u s, VaOut.session p u s ∈ o)

/-- In event `m` the process with this number has ended. -/
def EndsProc (h : VaHistory) (m p : Nat) : Prop := ∃ tries o, h[m]? = some (VaEv.childExit p tries, o)

end Spec

theorem inhEvent_uses (n : Nat) (s : InhState) (e : VaEv) : (inhEvent n s e).uses = useEvent n s.uses e := rfl

theorem inh_fold (o : List VaOut) : ∀ s : InhState, (o.foldl inhOut s).uses = o.foldl useOut s.uses ∧
    ∀ q, q ∈ (o.foldl inhOut s).procs ↔ q ∈ s.procs ∨
      ∃ pre y post, o = pre ++ y :: post ∧ forksProc y = some q.1 ∧ q.2 = pre.foldl useOut s.uses := by
  induction o with
  | nil =>
    intro s
    refine ⟨rfl, fun q => ⟨Or.inl, ?_⟩⟩
    rintro (h | ⟨pre, y, post, h, _⟩)
    · exact h
    · simp at h
  | cons y o ih =>
    intro s
    obtain ⟨h1, h2⟩ := ih (inhOut s y)
    refine ⟨h1, fun q => ?_⟩
    rw [List.foldl_cons, h2]
    constructor
    · rintro (h | ⟨pre, z, post, rfl, hz, hq⟩)
      · rcases List.mem_append.1 h with h | h
        · exact Or.inl h
        · refine Or.inr ⟨[], y, o, rfl, ?_⟩
          cases hf : forksProc y with
          | none => rw [hf] at h; cases h
          | some p =>
            rw [hf] at h
            rw [List.mem_singleton] at h
            subst h
            exact ⟨rfl, rfl⟩
      · exact Or.inr ⟨y :: pre, z, post, rfl, hz, hq⟩
    · rintro (h | ⟨pre, z, post, he, hz, hq⟩)
      · exact Or.inl (List.mem_append_left _ h)
      · cases pre with
        | nil =>
          obtain ⟨rfl, rfl⟩ := List.cons.inj he
          refine Or.inl (List.mem_append_right _ ?_)
          rw [hz]
          exact List.mem_singleton.2 (Prod.ext rfl hq)
        | cons w pre =>
          obtain ⟨rfl, rfl⟩ := List.cons.inj he
          exact Or.inr ⟨pre, z, post, rfl, hz, hq⟩

/-- The agent's own table is that of `usesAt`. -/
theorem inh_uses (h : VaHistory) : ∀ n, (inhAt h n).uses = usesAt h n := by
  intro n
  induction n with
  | zero => rfl
  | succ n ih =>
    cases hn : h[n]? with
    | none => simp only [inhAt, usesAt, hn, ih]
    | some x =>
      simp only [inhAt, usesAt, hn]
      rw [inhStep, (inh_fold _ _).1, inhEvent_uses, useStep, ih]

/-- The processes with their copies. -/
theorem inh_procs (h : VaHistory) : ∀ n q, q ∈ (inhAt h n).procs ↔
    ∃ i, i < n ∧ (∃ e o pre y post, h[i]? = some (e, o) ∧ o = pre ++ y :: post ∧ forksProc y = some q.1 ∧
      q.2 = pre.foldl useOut (useEvent i (usesAt h i) e)) ∧ ∀ m, i < m → m < n → ¬ EndsProc h m q.1 := by
  intro n
  induction n with
  | zero =>
    intro q
    constructor
    · intro hq; cases hq
    · rintro ⟨i, hi, _⟩; omega
  | succ n ih =>
    intro q
    cases hn : h[n]? with
    | none =>
      have e1 : inhAt h (n + 1) = inhAt h n := by simp only [inhAt, hn]
      rw [e1, ih]
      constructor
      · rintro ⟨i, hi, h1, h2⟩
        refine ⟨i, by omega, h1, fun m hm hm' => ?_⟩
        by_cases hmn : m = n
        · rintro ⟨t, o, ho⟩; rw [hmn, hn] at ho; cases ho
        · exact h2 m hm (by omega)
      · rintro ⟨i, hi, h1, h2⟩
        refine ⟨i, ?_, h1, fun m hm hm' => h2 m hm (by omega)⟩
        by_cases hin : i = n
        · obtain ⟨e, o, _, _, _, ho, _⟩ := h1
          rw [hin, hn] at ho; cases ho
        · omega
    | some x =>
      obtain ⟨e, o⟩ := x
      have e1 : inhAt h (n + 1) = inhStep n (inhAt h n) (e, o) := by simp only [inhAt, hn]
      have e2 : q ∈ (inhEvent n (inhAt h n) e).procs ↔ q ∈ (inhAt h n).procs ∧ ¬ EndsProc h n q.1 := by
        unfold inhEvent EndsProc
        rw [hn]
        cases e with
        | childExit pid tries =>
          dsimp only
          rw [List.mem_filter]
          constructor
          · rintro ⟨h1, h2⟩
            refine ⟨h1, ?_⟩
            rintro ⟨t, o', ho⟩
            cases ho
            simp at h2
          · rintro ⟨h1, h2⟩
            refine ⟨h1, ?_⟩
            by_cases hp : q.1 = pid
            · exact absurd ⟨tries, o, by rw [hp]⟩ h2
            · simpa using hp
        | _ => exact ⟨fun h => ⟨h, by rintro ⟨t, o', ho⟩; cases ho⟩, fun h => h.1⟩
      rw [e1, inhStep, (inh_fold _ _).2, e2, ih]
      constructor
      · rintro (⟨⟨i, hi, h1, h2⟩, h3⟩ | ⟨pre, y, post, ho, hy, hq⟩)
        · refine ⟨i, by omega, h1, fun m hm hm' => ?_⟩
          by_cases hmn : m = n
          · rw [hmn]; exact h3
          · exact h2 m hm (by omega)
        · refine ⟨n, by omega, ⟨e, o, pre, y, post, hn, ho, hy, ?_⟩, fun m hm hm' => by omega⟩
          rw [hq, inhEvent_uses, inh_uses]
      · rintro ⟨i, hi, h1, h2⟩
        by_cases hin : i = n
        · right
          obtain ⟨e', o', pre, y, post, he, ho, hy, hq⟩ := h1
          rw [hin, hn] at he
          cases he
          refine ⟨pre, y, post, ho, hy, ?_⟩
          rw [hq, inhEvent_uses, inh_uses, hin]
        · exact Or.inl ⟨⟨i, by omega, h1, fun m hm hm' => h2 m hm (by omega)⟩, h2 n (by omega) (by omega)⟩

/-! ## Requests in a table -/

theorem useOut_request {u : Int → Option FdUse} {y : VaOut} {g : Int} {k : Nat} (h : useOut u y g = some (.request k)) :
    u g = some (.request k) := by
  cases y <;> simp only [useOut] at h <;> first | exact h | (split at h <;> first | cases h; done | exact h)

theorem fold_request {o : List VaOut} {g : Int} {k : Nat} : ∀ (u : Int → Option FdUse),
    o.foldl useOut u g = some (.request k) → u g = some (.request k) := by
  induction o with
  | nil => intro u h; exact h
  | cons y o ih => intro u h; exact useOut_request (ih _ h)

/-- A request in the table is that of the client which got this descriptor. -/
theorem request_trigger (h : VaHistory) : ∀ (n : Nat) (g : Int) (k : Nat), usesAt h n g = some (.request k) →
    k < n ∧ ∃ (fd : Nat) (hdr : Option (Nat × Nat)) (body : Option Wire) (o : List VaOut), h[k]? = some (VaEv.trigger fd hdr body, o) ∧ g = (fd : Int) := by
  intro n
  induction n with
  | zero => intro g k hu; cases hu
  | succ n ih =>
    intro g k hu
    cases hn : h[n]? with
    | none =>
      rw [show usesAt h (n + 1) = usesAt h n by simp only [usesAt, hn]] at hu
      obtain ⟨h1, h2⟩ := ih _ _ hu
      exact ⟨by omega, h2⟩
    | some x =>
      obtain ⟨e, o⟩ := x
      rw [usesAt_succ hn] at hu
      have hu := fold_request _ hu
      have old : usesAt h n g = some (.request k) → k < n + 1 ∧ ∃ (fd : Nat) (hdr : Option (Nat × Nat)) (body : Option Wire) (o : List VaOut),
          h[k]? = some (VaEv.trigger fd hdr body, o) ∧ g = (fd : Int) := by
        intro hu
        obtain ⟨h1, h2⟩ := ih _ _ hu
        exact ⟨by omega, h2⟩
      cases e with
      | trigger fd hdr body =>
        simp only [useEvent] at hu
        split at hu
        · rename_i hg
          cases hu
          exact ⟨by omega, fd, hdr, body, o, hn, hg⟩
        · exact old hu
      | _ => exact old hu

/-- Once no descriptor has the request it stays so. -/
theorem request_gone (h : VaHistory) {k n : Nat} (hkn : k < n) (h0 : ¬ HasConn (usesAt h n) k) :
    ∀ m, n ≤ m → ¬ HasConn (usesAt h m) k := by
  intro m hm
  induction m with
  | zero => omega
  | succ m ih =>
    by_cases hmn : n = m + 1
    · rw [← hmn]; exact h0
    have ih := ih (by omega)
    rintro ⟨g, hg⟩
    cases hx : h[m]? with
    | none =>
      rw [show usesAt h (m + 1) = usesAt h m by simp only [usesAt, hx]] at hg
      exact ih ⟨g, hg⟩
    | some x =>
      rw [usesAt_succ hx] at hg
      have hg := fold_request _ hg
      cases he : x.1 with
      | trigger fd hdr body =>
        rw [he] at hg
        simp only [useEvent] at hg
        split at hg
        · cases hg; omega
        · exact ih ⟨g, hg⟩
      | _ => rw [he] at hg; exact ih ⟨g, hg⟩

/-! ## Events that start processes -/

theorem vaPoll_no_fork (ready : List Int) : ∀ (is : List Nat) (s : VaState), ∀ y ∈ (vaPoll ready is s).2, forksProc y = none := by
  intro is
  induction is with
  | nil => intro s y hy; cases hy
  | cons i is ih =>
    intro s y hy
    unfold vaPoll at hy
    split at hy
    · dsimp only [vaRelease] at hy
      rcases List.mem_cons.1 hy with rfl | hy
      · rfl
      · rcases List.mem_append.1 hy with hy | hy
        · rw [List.mem_singleton] at hy; subst hy; rfl
        · exact ih _ _ hy
    · exact ih _ _ hy

theorem fork_event {load : RpcService → Option SvcConf} {h : VaHistory} {s : VaState} (hr : VaRun load h s) {i : Nat} {e : VaEv}
    {o : List VaOut} (hi : h[i]? = some (e, o)) {y : VaOut} (hy : y ∈ o) (hf : forksProc y ≠ none) :
    (∀ z ∈ o, isStart z = true) ∧ ∀ fd hdr body, e ≠ .trigger fd hdr body := by
  obtain ⟨hlt, hx⟩ := List.getElem?_eq_some_iff.1 hi
  have hsplit : h = h.take i ++ (e, o) :: h.drop (i + 1) := by
    rw [← hx, List.getElem_cons_drop, List.take_append_drop]
  obtain ⟨s0, s1, h1, h2, h3⟩ := va_prefix hr _ _ _ _ hsplit
  have hva := va_inv h1
  cases e with
  | unknown => cases h3
  | refused ident =>
    simp only [vaStep, Option.some.injEq, Prod.mk.injEq] at h3
    obtain ⟨_, rfl⟩ := h3
    exfalso
    unfold vaRefused at hy
    split at hy
    · rw [List.mem_singleton] at hy; subst hy; exact hf rfl
    · rw [List.mem_singleton] at hy; subst hy; exact hf rfl
    · cases hy
  | trigger fd hdr body =>
    simp only [vaStep, Option.some.injEq, Prod.mk.injEq] at h3
    obtain ⟨_, rfl⟩ := h3
    exfalso
    unfold vaTrigger at hy
    split at hy
    · rw [List.mem_singleton] at hy; subst hy; exact hf rfl
    · split at hy
      · rw [List.mem_singleton] at hy; subst hy; exact hf rfl
      · split at hy <;> (rw [List.mem_singleton] at hy; subst hy; exact hf rfl)
  | poll ready =>
    simp only [vaStep, Option.some.injEq] at h3
    exfalso
    apply hf
    refine vaPoll_no_fork ready (List.range maxClients) s0 y ?_
    rw [h3]; exact hy
  | exec type d p body t session =>
    simp only [vaStep] at h3
    split at h3
    · cases h3
    split at h3
    · cases h3
    simp only [Option.some.injEq] at h3
    by_cases hc : type = msgConnect
    · exfalso
      have hw : wantsSession (vaJob load type d p body) = false := by
        unfold wantsSession vaJob
        rw [hc]
        rfl
      unfold vaInit at h3
      dsimp only at h3
      rw [hw] at h3
      simp only [Bool.false_eq_true, if_false] at h3
      unfold vaDo at h3
      rw [if_pos (show (vaJob load type d p body).type = msgConnect from hc)] at h3
      split at h3
      · split at h3
        · cases h3; cases hy
        · cases h3; rw [List.mem_singleton] at hy; subst hy; exact hf rfl
      · cases h3; cases hy
    · exact ⟨(start_slots hc h3).2, fun _ _ _ => by simp⟩
  | childExit pid tries =>
    simp only [vaStep, Option.some.injEq] at h3
    unfold vaReap at h3
    split at h3
    · obtain ⟨_, g2⟩ := vaFlush_slots tries (List.range maxClients) s0 (by
        intro i j hj
        rw [hva.wait i] at hj
        exact hva.kind j (List.mem_of_getElem? hj))
      generalize vaFlush tries (List.range maxClients) s0 = r at h3 g2
      cases h3
      exact ⟨g2, fun _ _ _ => by simp⟩
    · split at h3
      · cases h3; cases hy
      · exfalso
        unfold vaRelease at h3
        cases h3
        rw [List.mem_singleton] at hy; subst hy; exact hf rfl

/-- A process has a copy of the connection of a client exactly if the agent had the connection when the process was started. -/
theorem proc_has {load : RpcService → Option SvcConf} {h : VaHistory} {s : VaState} (hr : VaRun load h s) (hk : KernelOk h)
    (n k : Nat) (dead : Nat → Prop) :
    (∀ q ∈ (inhAt h n).procs, ¬ dead q.1 → ¬ HasConn q.2 k) ↔
      ∀ i p, i < n → HasConn (usesAt h i) k → StartsProc h i p → (∃ m, i < m ∧ m < n ∧ EndsProc h m p) ∨ dead p := by
  constructor
  · rintro hall i p hi hc ⟨e, o, ho, hp⟩
    by_contra hno
    have hnd : ¬ dead p := fun hd => hno (Or.inr hd)
    obtain ⟨y, hy, hf⟩ : ∃ y ∈ o, forksProc y = some p := by
      rcases hp with ⟨j, hj⟩ | ⟨u, s', hj⟩
      · exact ⟨_, hj, rfl⟩
      · exact ⟨_, hj, rfl⟩
    obtain ⟨pre, post, hop⟩ := List.append_of_mem hy
    obtain ⟨hst, hnt⟩ := fork_event hr ho hy (by rw [hf]; simp)
    refine hall (p, pre.foldl useOut (useEvent i (usesAt h i) e)) ((inh_procs h n _).2 ⟨i, hi, ⟨e, o, pre, y, post, ho, hop, hf, rfl⟩, ?_⟩) hnd ?_
    · intro m hm hm' he
      exact hno (Or.inl ⟨m, hm, hm', he⟩)
    · obtain ⟨g, hg⟩ := hc
      refine ⟨g, ?_⟩
      have hue : useEvent i (usesAt h i) e = usesAt h i := by
        cases e <;> first | rfl | exact absurd rfl (hnt _ _ _)
      dsimp only
      rw [hue, fold_untouched]
      · exact hg
      · intro z hz ht
        have hzo : z ∈ o := by rw [hop]; exact List.mem_append_left _ hz
        obtain ⟨fd, u, ty, d, p', t, j, rfl, rfl⟩ := isStart_touch (hst z hzo) ht
        have := hk.connect _ _ _ ho _ _ _ _ _ _ _ hzo
        rw [hg] at this
        cases this
  · intro hall q hq hd hc
    obtain ⟨i, hi, ⟨e, o, pre, y, post, ho, hop, hf, hq2⟩, hne⟩ := (inh_procs h n q).1 hq
    have hy : y ∈ o := by rw [hop]; exact List.mem_append_right _ List.mem_cons_self
    obtain ⟨hst, hnt⟩ := fork_event hr ho hy (by rw [hf]; simp)
    obtain ⟨g, hg⟩ := hc
    rw [hq2] at hg
    have hg := fold_request _ hg
    have hue : useEvent i (usesAt h i) e = usesAt h i := by
      cases e <;> first | rfl | exact absurd rfl (hnt _ _ _)
    rw [hue] at hg
    have hsp : StartsProc h i q.1 := by
      refine ⟨e, o, ho, ?_⟩
      have hs := hst y hy
      cases y <;> first | cases hs; done | (cases hf; done) | skip
      · simp only [forksProc] at hf
        subst hf
        exact Or.inl ⟨_, hy⟩
      · simp only [forksProc, Option.some.injEq] at hf
        subst hf
        exact Or.inr ⟨_, _, hy⟩
    rcases hall i q.1 hi ⟨g, hg⟩ hsp with ⟨m, hm, hm', he⟩ | hd'
    · exact hne m hm hm' he
    · exact hd hd'

/-! ## The theorems -/

/-- The table of the agent at a request that it has passed on: it is there until the answer. -/
theorem has_pending {load : RpcService → Option SvcConf} {h : VaHistory} {s : VaState} (hr : VaRun load h s) {ans : Nat → Nat}
    (hk : KernelOk h) (hd : DaemonOk h ans) {k : Nat} {fd : Nat} {hdr : Option (Nat × Nat)} {body : Option Wire} {ty l : Nat} {b : Wire}
    (hk0 : h[k]? = some (VaEv.trigger fd hdr body, [VaOut.forward ty l b])) {i : Nat} (hki : k < i) (hi : i ≤ h.length)
    (hno : ∀ m e o, m < i → h[m]? = some (e, o) → answerOf e ≠ none → ans m ≠ k) : usesAt h i fd = some (.request k) := by
  have hrun : ∃ s0, VaRun load (h.take i) s0 := by
    by_cases hil : i = h.length
    · rw [hil, List.take_length]; exact ⟨s, hr⟩
    · obtain ⟨x, hx⟩ : ∃ x, h[i]? = some x := ⟨h[i]'(by omega), List.getElem?_eq_getElem (by omega)⟩
      obtain ⟨hlt, hx'⟩ := List.getElem?_eq_some_iff.1 hx
      have hsplit : h = h.take i ++ (x.1, x.2) :: h.drop (i + 1) := by
        rw [← hx', List.getElem_cons_drop, List.take_append_drop]
      obtain ⟨s0, s1, h1, _, _⟩ := va_prefix hr _ _ _ _ hsplit
      exact ⟨s0, h1⟩
  obtain ⟨s0, h0⟩ := hrun
  have hlen : (h.take i).length = i := by rw [List.length_take]; omega
  have hinv := use_inv hr hk hd h0 (List.take_prefix _ _)
  rw [hlen] at hinv
  exact hinv.pend _ _ _ _ _ _ _ hki hk0 hno

/-- **C106, what holds.** Event `n` refuses the request that was event `ans n`. Then the client sees the end exactly when every
process has ended that the agent started between the request and its refusal: one that serves another call without a fork server, or
one that waits for a session. -/
theorem C106_refused_partial {load : RpcService → Option SvcConf} {h : VaHistory} {s : VaState} (hr : VaRun load h s) {ans : Nat → Nat}
    (hk : KernelOk h) (hd : DaemonOk h ans) {n : Nat} {ident : Wire} {o : List VaOut} (hn : h[n]? = some (.refused ident, o))
    {t : Nat} (ht : n < t) :
    SeesEnd h t (ans n) ↔ ∀ i p, ans n < i → i < n → StartsProc h i p → ∃ m, i < m ∧ m < t ∧ EndsProc h m p := by
  obtain ⟨fd, hdr, body, ty, l, b, h1, h2, h3, _⟩ := C69_right_client hr hk hd hn (show answerOf (.refused ident) ≠ none by simp [answerOf])
  have ho := h3 ⟨ident, rfl⟩
  have hlt : ans n < n := (hd.request n _ _ _ hn rfl).1
  have hnl : n < h.length := (List.getElem?_eq_some_iff.1 hn).1
  have hbefore : ∀ i, ans n < i → i ≤ n → usesAt h i fd = some (.request (ans n)) := by
    intro i hi hi'
    refine has_pending hr hk hd h1 hi (by omega) ?_
    intro m e o' hm hm' ha heq
    have := hd.once m n e _ o' o hm' hn ha (by simp [answerOf]) heq
    omega
  have hafter : ∀ i, n < i → ¬ HasConn (usesAt h i) (ans n) := by
    intro i hi
    refine request_gone h (n := n + 1) (by omega) ?_ i (by omega)
    rintro ⟨g, hg⟩
    rw [usesAt_succ hn, ho] at hg
    simp only [useStep, useEvent, List.foldl_cons, List.foldl_nil, useOut] at hg
    split at hg
    · cases hg
    · rename_i hgf
      obtain ⟨_, fd', hdr', body', o', h1', hgf'⟩ := request_trigger h _ _ _ hg
      rw [h1] at h1'
      cases h1'
      exact hgf hgf'
  unfold SeesEnd
  rw [inh_uses]
  have hp := proc_has hr hk t (ans n) (fun _ => False)
  simp only [not_false_eq_true, forall_true_left, or_false] at hp
  rw [hp]
  constructor
  · rintro ⟨_, hall⟩ i p hi hi' hs
    exact hall i p (by omega) ⟨fd, hbefore i hi (by omega)⟩ hs
  · intro hall
    refine ⟨hafter t ht, fun i p hi hc hs => ?_⟩
    by_cases hin : n < i
    · exact absurd hc (hafter i hin)
    · by_cases hii : i = n
      · exfalso
        obtain ⟨e, o', ho', hs⟩ := hs
        rw [hii, hn] at ho'
        cases ho'
        rw [ho] at hs
        rcases hs with ⟨j, hj⟩ | ⟨u, s', hj⟩ <;> simp at hj
      · obtain ⟨g, hg⟩ := hc
        exact hall i p (request_trigger h _ _ _ hg).1 (by omega) hs

/-- **C106.** If no process was started in between the client is told at once: so it is if all requests go to fork servers. -/
theorem C106_at_once {load : RpcService → Option SvcConf} {h : VaHistory} {s : VaState} (hr : VaRun load h s) {ans : Nat → Nat}
    (hk : KernelOk h) (hd : DaemonOk h ans) {n : Nat} {ident : Wire} {o : List VaOut} (hn : h[n]? = some (.refused ident, o))
    (hno : ∀ i p, ans n < i → i < n → ¬ StartsProc h i p) : SeesEnd h (n + 1) (ans n) :=
  (C106_refused_partial hr hk hd hn (Nat.lt_succ_self n)).2 fun i p hi hi' hs => absurd hs (hno i p hi hi')

/-- **C106.** Nobody is told too early: a client whose request has been passed on sees no end before the answer. -/
theorem C106_not_early {load : RpcService → Option SvcConf} {h : VaHistory} {s : VaState} (hr : VaRun load h s) {ans : Nat → Nat}
    (hk : KernelOk h) (hd : DaemonOk h ans) {k : Nat} {fd : Nat} {hdr : Option (Nat × Nat)} {body : Option Wire} {ty l : Nat} {b : Wire}
    (hk0 : h[k]? = some (VaEv.trigger fd hdr body, [VaOut.forward ty l b])) {i : Nat} (hki : k < i) (hi : i ≤ h.length)
    (hno : ∀ m e o, m < i → h[m]? = some (e, o) → answerOf e ≠ none → ans m ≠ k) : ¬ SeesEnd h i k := by
  rintro ⟨h1, _⟩
  rw [inh_uses] at h1
  exact h1 ⟨fd, has_pending hr hk hd hk0 hki hi hno⟩

/-- **C106.** A client whose request is not passed on is told at once, and nobody keeps its connection. -/
theorem C106_garbage {load : RpcService → Option SvcConf} {h : VaHistory} {s : VaState} (hr : VaRun load h s)
    (hk : KernelOk h) {k : Nat} {fd : Nat} {hdr : Option (Nat × Nat)} {body : Option Wire} {o : List VaOut}
    (hk0 : h[k]? = some (VaEv.trigger fd hdr body, o)) (hnf : ∀ ty l b, o ≠ [VaOut.forward ty l b]) {t : Nat} (ht : k < t) :
    SeesEnd h t k := by
  have ho : o = [.closed fd] := by
    obtain ⟨hlt, hx⟩ := List.getElem?_eq_some_iff.1 hk0
    have hsplit : h = h.take k ++ (VaEv.trigger fd hdr body, o) :: h.drop (k + 1) := by
      rw [← hx, List.getElem_cons_drop, List.take_append_drop]
    obtain ⟨s0, s1, _, _, h3⟩ := va_prefix hr _ _ _ _ hsplit
    simp only [vaStep, Option.some.injEq, Prod.mk.injEq] at h3
    obtain ⟨_, h3⟩ := h3
    unfold vaTrigger at h3
    split at h3
    · exact h3.symm
    · split at h3
      · exact h3.symm
      · split at h3
        · exact h3.symm
        · exact absurd h3.symm (hnf _ _ _)
  have hafter : ∀ i, k < i → ¬ HasConn (usesAt h i) k := by
    intro i hi
    refine request_gone h (n := k + 1) (by omega) ?_ i (by omega)
    rintro ⟨g, hg⟩
    rw [usesAt_succ hk0, ho] at hg
    simp only [useStep, useEvent, List.foldl_cons, List.foldl_nil, useOut] at hg
    split at hg
    · cases hg
    · have := (request_trigger h _ _ _ hg).1
      omega
  unfold SeesEnd
  rw [inh_uses]
  have hp := proc_has hr hk t k (fun _ => False)
  simp only [not_false_eq_true, forall_true_left, or_false] at hp
  rw [hp]
  refine ⟨hafter t ht, fun i p hi hc hs => ?_⟩
  obtain ⟨g, hg⟩ := hc
  exact absurd ⟨g, hg⟩ (hafter i (request_trigger h _ _ _ hg).1)

/-- **C106.** If the agent ends, a client that waits for the answer sees the end exactly when every process has ended
that the agent started since. -/
theorem C106_agent_ends {load : RpcService → Option SvcConf} {h : VaHistory} {s : VaState} (hr : VaRun load h s) {ans : Nat → Nat}
    (hk : KernelOk h) (hd : DaemonOk h ans) {k : Nat} {fd : Nat} {hdr : Option (Nat × Nat)} {body : Option Wire} {ty l : Nat} {b : Wire}
    (hk0 : h[k]? = some (VaEv.trigger fd hdr body, [VaOut.forward ty l b]))
    (hno : ∀ m e o, m < h.length → h[m]? = some (e, o) → answerOf e ≠ none → ans m ≠ k) (gone : Nat → Prop) :
    SeesEndWithout h h.length gone k ↔
      ∀ i p, k < i → StartsProc h i p → (∃ m, i < m ∧ EndsProc h m p) ∨ gone p := by
  unfold SeesEndWithout
  rw [proc_has hr hk]
  have hlen : ∀ i p, StartsProc h i p → i < h.length := by
    rintro i p ⟨e, o, ho, _⟩
    exact (List.getElem?_eq_some_iff.1 ho).1
  have hend : ∀ i p, EndsProc h i p → i < h.length := by
    rintro i p ⟨e, o, ho⟩
    exact (List.getElem?_eq_some_iff.1 ho).1
  constructor
  · intro hall i p hi hs
    have hil := hlen i p hs
    rcases hall i p hil ⟨fd, has_pending hr hk hd hk0 hi (by omega) fun m e o hm => hno m e o (by omega)⟩ hs with ⟨m, hm, _, he⟩ | hg
    · exact Or.inl ⟨m, hm, he⟩
    · exact Or.inr hg
  · intro hall i p hi hc hs
    obtain ⟨g, hg⟩ := hc
    rcases hall i p (request_trigger h _ _ _ hg).1 hs with ⟨m, hm, he⟩ | hg
    · exact Or.inl ⟨m, hm, hend m p he, he⟩
    · exact Or.inr hg

/-! ## A client that is not told -/

/-- A client asks; a command for a user is started; the client is refused. -/
def exampleUntold : VaHistory :=
  [(.trigger 7 (some (0x213, 164)) (some exampleBody), [.forward 0x213 164 (putIdent 7 exampleBody)]),
   (.exec 0x200 0 513 c!"root:nogui:sleep 9999\x00" { fork := some 100 } none,
     [.child (some 100) (vaJob exampleLoad 0x200 0 513 c!"root:nogui:sleep 9999\x00")]),
   (.refused (((putIdent 7 exampleBody).drop 128).take 32), [.closed 7])]

/-- Event 2 answers request 0. -/
def exampleUntoldAns : Nat → Nat := fun _ => 0

set_option maxRecDepth 20000 in
theorem exampleUntold_ok : (∃ s, VaRun exampleLoad exampleUntold s) ∧ KernelOk exampleUntold ∧ DaemonOk exampleUntold exampleUntoldAns := by
  have idx : ∀ n x, exampleUntold[n]? = some x → n = 0 ∨ n = 1 ∨ n = 2 := by
    intro n x h
    have := (List.getElem?_eq_some_iff.1 h).1
    have hl : exampleUntold.length = 3 := rfl
    omega
  refine ⟨⟨_, VaRun.step (tr := [_, _]) (VaRun.step (tr := [_]) (VaRun.step (tr := []) VaRun.start trivial rfl)
      ⟨?_, fresh_none _, fun p h => by cases h; exact ⟨by decide, by decide⟩⟩ rfl) trivial rfl⟩, ⟨?_, ?_, ?_, ?_⟩, ⟨?_, ?_⟩⟩
  · intro p hp
    cases hp
    exact ⟨by decide, fun i _ => by show (0 : Int) ≠ 100; decide⟩
  · intro n fd hdr body o h
    rcases idx n _ h with rfl | rfl | rfl <;> cases h <;> exact ⟨rfl, by decide⟩
  · intro n fd t l b o h
    rcases idx n _ h with rfl | rfl | rfl <;> cases h <;> rfl
  · intro n e o h fd u ty d p t j hm
    rcases idx n _ h with rfl | rfl | rfl <;> cases h <;> simp at hm
  · intro n ty d p body t ses o h hb
    rcases idx n _ h with rfl | rfl | rfl <;> cases h <;> cases hb
  · intro n e o ident h ha
    rcases idx n _ h with rfl | rfl | rfl <;> cases h <;> cases ha
    exact ⟨by decide, 7, _, _, _, _, _, rfl, rfl⟩
  · intro n m e e' o o' h h' ha ha' heq
    rcases idx n _ h with rfl | rfl | rfl <;> rcases idx m _ h' with rfl | rfl | rfl <;>
      first
      | rfl
      | (cases h; exact absurd rfl ha)
      | (cases h'; exact absurd rfl ha')

/-- **C106, violated.** A call that was refused is not told so while a command that has nothing to do with it runs, for however
long: nothing else that happens afterwards changes this. -/
theorem C106_violated {h : VaHistory} {s : VaState} (hr : VaRun exampleLoad h s) {ans : Nat → Nat}
    (hk : KernelOk h) (hd : DaemonOk h ans) (hpre : exampleUntold <+: h) (hans : ans 2 = 0)
    (hlive : ∀ m, ¬ EndsProc h m 100) : ∀ t, 2 < t → ¬ SeesEnd h t 0 := by
  intro t ht hse
  obtain ⟨post, rfl⟩ := hpre
  have := (C106_refused_partial hr hk hd (n := 2) (ident := ((putIdent 7 exampleBody).drop 128).take 32) (o := [.closed 7]) rfl ht).1
    (by rw [hans]; exact hse) 1 100 (by rw [hans]; decide) (by decide) ⟨_, _, rfl, Or.inl ⟨_, List.mem_singleton.2 rfl⟩⟩
  obtain ⟨m, _, _, he⟩ := this
  exact hlive m he

/-- The hypotheses of `C106_violated` are met. -/
example : ∀ t, 2 < t → ¬ SeesEnd exampleUntold t 0 := by
  obtain ⟨⟨s, hr⟩, hk, hd⟩ := exampleUntold_ok
  refine C106_violated hr hk hd (List.prefix_refl _) rfl ?_
  rintro m ⟨tries, o, ho⟩
  match m with
  | 0 => cases ho
  | 1 => cases ho
  | 2 => cases ho
  | m + 3 => cases ho

end Qrexec
