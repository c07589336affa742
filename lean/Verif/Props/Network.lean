import Verif.Lemmas.Network

/-!
# All qubes together (C116)
-/
namespace Qrexec

open Spec

/-- The commands among these actions have been handled. -/
def ToldAll (N : NConf) (tr : NHistory) (k : Nat) (acts : List ExAct) (w : ExWorld) : Prop :=
  ∀ ty d cmd, ExAct.command ty d cmd ∈ acts → ∃ b fd w' o, (.tell k w', .dmn b (.clientMsg fd ty d 0 cmd w') o) ∈ tr ∧
    (ty ≠ msgConnect → replyFits b fd o w.negotiate = true) ∧
    ∃ u z v, acts = u ++ z :: .command ty d cmd :: v ∧ z.leads N b = true

/-- A message of a call: what precedes it. -/
def Says (N : NConf) (tr : NHistory) (k b fd ty d p : Nat) (buf : Wire) (o : List DOut) : Prop :=
  ∃ (c : NCall) (sys : Option Info) (policy : Except Err (List Rule)) (agent : Agent) (w : ExWorld) (pre : List ExAct)
    (x y : ExAct) (rest : List ExAct),
    Asked N tr k c.owner c.rs c.target c.service c.ident ∧ Decided tr k sys policy agent w ∧
    c.actions N sys policy agent w = pre ++ x :: y :: rest ∧ x.leads N b = true ∧ y.message = some (ty, d, p, buf) ∧
    (ty ≠ msgConnect → replyFits b fd o w.negotiate = true) ∧ ToldAll N tr k (pre ++ [x]) w

/-- The state of a call. -/
def CallInv (N : NConf) (tr : NHistory) (k : Nat) (c : NCall) : Prop :=
  Asked N tr k c.owner c.rs c.target c.service c.ident ∧
  (c.decided = false ∧ c.todo = [] ∧ c.conn = none ∨
   ∃ (sys : Option Info) (policy : Except Err (List Rule)) (agent : Agent) (w : ExWorld) (done : List ExAct),
     c.decided = true ∧ Decided tr k sys policy agent w ∧ c.reply = w.negotiate ∧ c.actions N sys policy agent w = done ++ c.todo ∧
     (∀ b fd, c.conn = some (b, fd) → ∃ pre x, done = pre ++ [x] ∧ x.leads N b = true) ∧ ToldAll N tr k done w)

structure NInv (N : NConf) (tr : NHistory) (n : Net) : Prop where
  core : NCore N tr n
  call : ∀ k c, n.calls k = some c → CallInv N tr k c
  msg : ∀ l b fd ty d p buf w o, (l, NEff.dmn b (.clientMsg fd ty d p buf w) o) ∈ tr →
    l = .otherMsg b fd ty d p buf w ∨ ∃ k, l = .tell k w ∧ Says N tr k b fd ty d p buf o
  exec : ∀ l b ty d p body t ss o, (l, NEff.agent b (.exec ty d p body t ss) o) ∈ tr →
    ∃ len l' e o', (l', NEff.dmn b e o') ∈ tr ∧ DOut.forward ty len d p body ∈ o'

theorem Spec.Asked.mono {N : NConf} {tr tr' : NHistory} (hs : tr ⊆ tr') {k a : Nat} {rs : Option Str} {t s : Str} {i : Wire}
    (h : Asked N tr k a rs t s i) : Asked N tr' k a rs t s i := by
  obtain ⟨kind, data, pid, x, h1, h2⟩ := h
  exact ⟨kind, data, pid, x, hs h1, h2⟩

theorem Spec.Decided.mono {tr tr' : NHistory} (hs : tr ⊆ tr') {k : Nat} {sys : Option Info} {policy : Except Err (List Rule)}
    {agent : Agent} {w : ExWorld} (h : Decided tr k sys policy agent w) : Decided tr' k sys policy agent w := by
  obtain ⟨x, h⟩ := h
  exact ⟨x, hs h⟩

theorem ToldAll.mono {N : NConf} {tr tr' : NHistory} (hs : tr ⊆ tr') {k : Nat} {acts : List ExAct} {w : ExWorld} (h : ToldAll N tr k acts w) :
    ToldAll N tr' k acts w := by
  intro ty d cmd hc
  obtain ⟨b, fd, w', o, h1, h2⟩ := h ty d cmd hc
  exact ⟨b, fd, w', o, hs h1, h2⟩

theorem ToldAll.snoc {N : NConf} {tr : NHistory} {k : Nat} {acts : List ExAct} {w : ExWorld} {y : ExAct} (h : ToldAll N tr k acts w)
    (hy : ∀ ty d cmd, y = .command ty d cmd → ∃ b fd w' o, (.tell k w', .dmn b (.clientMsg fd ty d 0 cmd w') o) ∈ tr ∧
      (ty ≠ msgConnect → replyFits b fd o w.negotiate = true) ∧ ∃ u z, acts = u ++ [z] ∧ z.leads N b = true) :
    ToldAll N tr k (acts ++ [y]) w := by
  intro ty d cmd hm
  rcases List.mem_append.1 hm with hm | hm
  · obtain ⟨b, fd, w', o, h1, h2, u, z, v, h3, h4⟩ := h ty d cmd hm
    exact ⟨b, fd, w', o, h1, h2, u, z, v ++ [y], by rw [h3]; simp, h4⟩
  · obtain ⟨b, fd, w', o, h1, h2, u, z, h3, h4⟩ := hy ty d cmd (List.mem_singleton.1 hm).symm
    exact ⟨b, fd, w', o, h1, h2, u, z, [], by rw [h3, ← List.mem_singleton.1 hm]; simp, h4⟩

theorem Says.mono {N : NConf} {tr tr' : NHistory} (hs : tr ⊆ tr') {k b fd ty d p : Nat} {buf : Wire} {o : List DOut}
    (h : Says N tr k b fd ty d p buf o) : Says N tr' k b fd ty d p buf o := by
  obtain ⟨c, sys, policy, agent, w, pre, x, y, rest, h1, h2, h3, h4, h5, h6, h7⟩ := h
  exact ⟨c, sys, policy, agent, w, pre, x, y, rest, h1.mono hs, h2.mono hs, h3, h4, h5, h6, h7.mono hs⟩

theorem CallInv.mono {N : NConf} {tr tr' : NHistory} (hs : tr ⊆ tr') {k : Nat} {c : NCall} (h : CallInv N tr k c) :
    CallInv N tr' k c := by
  obtain ⟨h1, h2 | ⟨sys, policy, agent, w, done, h0, h2, h3, h4, h5, h6⟩⟩ := h
  · exact ⟨h1.mono hs, .inl h2⟩
  · exact ⟨h1.mono hs, .inr ⟨sys, policy, agent, w, done, h0, h2.mono hs, h3, h4, h5, h6.mono hs⟩⟩

/-- The invariant, from what is new. -/
theorem NInv.next {N : NConf} {tr : NHistory} {n n' : Net} {l : NLabel} {x : NEff} (ih : NInv N tr n)
    (h1 : NCore N (tr ++ [(l, x)]) n')
    (h2 : ∀ k c, n'.calls k = some c → n.calls k = some c ∨ CallInv N (tr ++ [(l, x)]) k c)
    (h3 : ∀ b fd ty d p buf w o, x = .dmn b (.clientMsg fd ty d p buf w) o →
      l = .otherMsg b fd ty d p buf w ∨ ∃ k, l = .tell k w ∧ Says N (tr ++ [(l, x)]) k b fd ty d p buf o)
    (h4 : ∀ b ty d p body t ss o, x = .agent b (.exec ty d p body t ss) o →
      ∃ len l' e o', (l', NEff.dmn b e o') ∈ tr ∧ DOut.forward ty len d p body ∈ o') : NInv N (tr ++ [(l, x)]) n' := by
  have hsub : tr ⊆ tr ++ [(l, x)] := fun y hy => List.mem_append_left _ hy
  refine ⟨h1, fun k c hc => ?_, fun l' b fd ty d p buf w o hm => ?_, fun l' b ty d p body t ss o hm => ?_⟩
  · rcases h2 k c hc with h | h
    · exact (ih.call k c h).mono hsub
    · exact h
  · rcases List.mem_append.1 hm with hm | hm
    · rcases ih.msg _ _ _ _ _ _ _ _ _ hm with h | ⟨k, h, hs⟩
      · exact .inl h
      · exact .inr ⟨k, h, hs.mono hsub⟩
    · obtain ⟨rfl, rfl⟩ := Prod.mk.inj (List.mem_singleton.1 hm)
      exact h3 _ _ _ _ _ _ _ _ rfl
  · have : ∃ len l' e o', (l', NEff.dmn b e o') ∈ tr ∧ DOut.forward ty len d p body ∈ o' := by
      rcases List.mem_append.1 hm with hm | hm
      · exact ih.exec _ _ _ _ _ _ _ _ _ hm
      · obtain ⟨rfl, rfl⟩ := Prod.mk.inj (List.mem_singleton.1 hm)
        exact h4 _ _ _ _ _ _ _ _ rfl
    obtain ⟨len, l', e, o', g1, g2⟩ := this
    exact ⟨len, l', e, o', hsub g1, g2⟩

theorem put_some {α : Type} {f : Nat → Option α} {k k' : Nat} {c c' : α} (h : put f k (some c') k' = some c) :
    f k' = some c ∨ k' = k ∧ c = c' := by
  unfold put at h
  split_ifs at h with hk
  · exact .inr ⟨hk, (Option.some.inj h).symm⟩
  · exact .inl h

theorem n_inv {N : NConf} {tr : NHistory} {n : Net} (hr : NRun N tr n) : NInv N tr n := by
  induction hr with
  | start =>
    refine ⟨⟨fun b => .start, fun b => ⟨[], .start, by simp⟩, fun b m hm => ?_⟩, fun k c hc => ?_, by simp, by simp⟩
    · cases hm
    · cases hc
  | @step tr n n' l x hr hs hp ih =>
    have hsub : ∀ y, tr ⊆ tr ++ [y] := fun y z hz => List.mem_append_left _ hz
    cases l with
    | ask a kind data pid k =>
      simp only [nstep] at hs
      split at hs
      · rename_i rs target service ident htr hk
        split at hs
        · rename_i n1 hd
          obtain ⟨rfl, rfl⟩ := Prod.mk.inj (Option.some.inj hs)
          have hcalls : n1.calls = n.calls := by obtain ⟨_, d, _, rfl⟩ := dmnStep_ok hd; rfl
          refine ih.next (NCore.same (ih.core.dmnStep _ hd) rfl rfl (fun _ _ h => h)) ?_ (by simp) (by simp)
          intro k' c hc
          rcases put_some hc with h | ⟨rfl, rfl⟩
          · rw [hcalls] at h; exact .inl h
          · exact .inr ⟨⟨kind, data, pid, _, List.mem_append_right _ (List.mem_singleton.2 rfl), htr⟩, .inl ⟨rfl, rfl, rfl⟩⟩
        · cases hs
      · cases hs
    | decide k sys policy agent w =>
      simp only [nstep] at hs
      split at hs
      · rename_i c hc
        split_ifs at hs with hd
        obtain ⟨rfl, rfl⟩ := Prod.mk.inj (Option.some.inj hs)
        refine ih.next (ih.core.none _ rfl rfl rfl) ?_ (by simp) (by simp)
        intro k' c' hc'
        rcases put_some hc' with h | ⟨rfl, rfl⟩
        · exact .inl h
        · obtain ⟨h1, h2⟩ := ih.call _ _ hc
          refine .inr ⟨h1.mono (hsub _), .inr ⟨sys, policy, agent, w, [], rfl, ⟨_, List.mem_append_right _ (List.mem_singleton.2 rfl)⟩, rfl, rfl, ?_, ?_⟩⟩
          · intro b fd hcn
            have hcn : c.conn = some (b, fd) := hcn
            rcases h2 with ⟨_, _, h⟩ | ⟨_, _, _, _, _, h⟩
            · rw [h] at hcn; cases hcn
            · exact absurd h.1 hd
          · intro _ _ _ hm; cases hm
      · cases hs
    | conn k b fd =>
      simp only [nstep] at hs
      split at hs
      · rename_i c hc
        split at hs
        · rename_i y todo htodo
          split_ifs at hs with hl
          split at hs
          · rename_i n1 o hd
            obtain ⟨rfl, rfl⟩ := Prod.mk.inj (Option.some.inj hs)
            have hcalls : n1.calls = n.calls := by obtain ⟨_, d, _, rfl⟩ := dmnStep_ok hd; rfl
            refine ih.next (NCore.same (ih.core.dmnStep _ hd) rfl rfl (fun _ _ h => h)) ?_ (by simp) (by simp)
            intro k' c' hc'
            rcases put_some hc' with h | ⟨rfl, rfl⟩
            · rw [hcalls] at h; exact .inl h
            · obtain ⟨h1, ⟨_, h2, _⟩ | ⟨sys, policy, agent, w, done, g0, g1, g2, g3, g4, g5⟩⟩ := ih.call _ _ hc
              · rw [h2] at htodo; cases htodo
              · rw [htodo] at g3
                refine .inr ⟨h1.mono (hsub _), .inr ⟨sys, policy, agent, w, done ++ [y], g0, g1.mono (hsub _), g2, ?_, ?_, ?_⟩⟩
                · rw [List.append_assoc]; exact g3
                · intro b' fd' hcn
                  cases hcn
                  exact ⟨done, y, rfl, hl⟩
                · exact (g5.mono (hsub _)).snoc (fun ty d cmd hy => by rw [hy] at hl; cases hl)
          · cases hs
        · cases hs
      · cases hs
    | tell k written =>
      simp only [nstep] at hs
      split at hs
      · rename_i c hc
        split at hs
        · rename_i y todo b fd htodo hconn
          split at hs
          · rename_i type domain port buf hmsg
            split_ifs at hs with hpeer
            split at hs
            · rename_i n1 o hd
              split_ifs at hs with hfit
              obtain ⟨rfl, rfl⟩ := Prod.mk.inj (Option.some.inj hs)
              have hcalls : n1.calls = n.calls := by obtain ⟨_, d, _, rfl⟩ := dmnStep_ok hd; rfl
              obtain ⟨h1, ⟨_, h2, _⟩ | ⟨sys, policy, agent, w, done, g0, g1, g2, g3, g4, g5⟩⟩ := ih.call _ _ hc
              · rw [h2] at htodo; cases htodo
              have hfit : type ≠ msgConnect → replyFits b fd o w.negotiate = true := by
                intro ht
                rw [← g2]
                simp only [Bool.or_eq_true, beq_iff_eq] at hfit
                rcases hfit with h | h
                · exact absurd h ht
                · exact h
              rw [htodo] at g3
              obtain ⟨pre, z, rfl, hz⟩ := g4 b fd hconn
              refine ih.next (NCore.same (ih.core.dmnStep _ hd) rfl rfl (fun _ _ h => h)) ?_ ?_ (by simp)
              · intro k' c' hc'
                rcases put_some hc' with h | ⟨rfl, rfl⟩
                · rw [hcalls] at h; exact .inl h
                · refine .inr ⟨h1.mono (hsub _), .inr ⟨sys, policy, agent, w, pre ++ [z] ++ [y], g0, g1.mono (hsub _), g2, ?_, ?_, ?_⟩⟩
                  · rw [List.append_assoc (pre ++ [z])]; exact g3
                  · intro b' fd' hcn; cases hcn
                  · refine (g5.mono (hsub _)).snoc (fun ty d cmd hy => ?_)
                    rw [hy] at hmsg
                    cases hmsg
                    exact ⟨b, fd, written, o, by simp, hfit, pre, z, rfl, hz⟩
              · intro b' fd' ty d p buf' w' o' he
                cases he
                refine .inr ⟨k, rfl, c, sys, policy, agent, w, pre, z, y, todo, h1.mono (hsub _), g1.mono (hsub _), ?_, hz, hmsg,
                  hfit, g5.mono (hsub _)⟩
                rw [g3]; simp
            · cases hs
          · cases hs
        · cases hs
      · cases hs
    | skip k =>
      simp only [nstep] at hs
      split at hs
      · rename_i c hc
        split at hs
        · rename_i y todo htodo
          split_ifs at hs with hl
          obtain ⟨rfl, rfl⟩ := Prod.mk.inj (Option.some.inj hs)
          refine ih.next (ih.core.none _ rfl rfl rfl) ?_ (by simp) (by simp)
          intro k' c' hc'
          rcases put_some hc' with h | ⟨rfl, rfl⟩
          · exact .inl h
          · obtain ⟨h1, ⟨_, h2, _⟩ | ⟨sys, policy, agent, w, done, g0, g1, g2, g3, g4, g5⟩⟩ := ih.call _ _ hc
            · rw [h2] at htodo; cases htodo
            · rw [htodo] at g3
              refine .inr ⟨h1.mono (hsub _), .inr ⟨sys, policy, agent, w, done ++ [y], g0, g1.mono (hsub _), g2, ?_, ?_, ?_⟩⟩
              · rw [List.append_assoc]; exact g3
              · intro b' fd' hcn; cases hcn
              · exact (g5.mono (hsub _)).snoc (fun ty d cmd hy => by rw [hy] at hl; cases hl)
        · cases hs
      · cases hs
    | otherConn b fd =>
      simp only [nstep] at hs
      split at hs
      · rename_i n1 o hd
        obtain ⟨rfl, rfl⟩ := Prod.mk.inj (Option.some.inj hs)
        have hcalls : n1.calls = n.calls := by obtain ⟨_, d, _, rfl⟩ := dmnStep_ok hd; rfl
        refine ih.next (NCore.same (ih.core.dmnStep _ hd) rfl rfl (fun _ _ h => h)) ?_ (by simp) (by simp)
        intro k c hc
        exact .inl (by rw [← hcalls]; exact hc)
      · cases hs
    | otherMsg b fd type domain port buf written =>
      simp only [nstep] at hs
      split_ifs at hs with hpeer
      split at hs
      · rename_i n1 o hd
        obtain ⟨rfl, rfl⟩ := Prod.mk.inj (Option.some.inj hs)
        have hcalls : n1.calls = n.calls := by obtain ⟨_, d, _, rfl⟩ := dmnStep_ok hd; rfl
        refine ih.next (ih.core.dmnStep _ hd) ?_ ?_ (by simp)
        · intro k c hc
          exact .inl (by rw [← hcalls]; exact hc)
        · intro b' fd' ty d p buf' w' o' he
          cases he
          exact .inl rfl
      · cases hs
    | dmn b e =>
      have key : ∀ (hne : ∀ fd ty d p buf w, e ≠ .clientMsg fd ty d p buf w) n1 o, n.dmnStep N b e = some (n1, o) →
          (n1, NEff.dmn b e o) = (n', x) → NInv N (tr ++ [(NLabel.dmn b e, x)]) n' := by
        intro hne n1 o hd he
        obtain ⟨rfl, rfl⟩ := Prod.mk.inj he
        have hcalls : n1.calls = n.calls := by obtain ⟨_, d, _, rfl⟩ := dmnStep_ok hd; rfl
        refine ih.next (ih.core.dmnStep _ hd) ?_ ?_ (by simp)
        · intro k c hc
          exact .inl (by rw [← hcalls]; exact hc)
        · intro b' fd' ty d p buf' w' o' he
          cases he
          exact absurd rfl (hne _ _ _ _ _ _)
      have go : (∀ fd ty d p buf w, e ≠ .clientMsg fd ty d p buf w) →
          (match n.dmnStep N b e with
            | some (n', o) => some (n', NEff.dmn b e o)
            | none => none) = some (n', x) → NInv N (tr ++ [(NLabel.dmn b e, x)]) n' := by
        intro hne h
        split at h
        · rename_i n1 o hd
          exact key hne n1 o hd (Option.some.inj h)
        · cases h
      simp only [nstep] at hs
      cases e with
      | clientMsg => cases hs
      | trigger => cases hs
      | restart => cases hs
      | newClient fd hello => cases hello with
        | true => cases hs
        | false => exact go (by simp) hs
      | clientHello => exact go (by simp) hs
      | clientGone => exact go (by simp) hs
      | badTrigger => exact go (by simp) hs
      | childExit => exact go (by simp) hs
      | terminated => exact go (by simp) hs
    | deliver b t session =>
      simp only [nstep] at hs
      split at hs
      · rename_i m rest hq
        split at hs
        · rename_i e he
          split at hs
          · rename_i n1 o hd
            obtain ⟨rfl, rfl⟩ := Prod.mk.inj (Option.some.inj hs)
            have hsame : n1.calls = n.calls ∧ n1.toAgent = n.toAgent := by obtain ⟨a, _, rfl⟩ := agentStep_ok hd; exact ⟨rfl, rfl⟩
            refine ih.next (NCore.same (ih.core.agentStep _ hd hp) rfl rfl ?_) ?_ (by simp) ?_
            · intro b' m' hm'
              dsimp only at hm'
              by_cases hb : b = b'
              · subst hb
                rw [put_same] at hm'
                rw [hsame.2, hq]
                exact List.mem_cons_of_mem _ hm'
              · rwa [put_other' hb] at hm'
            · intro k c hc
              exact .inl (by rw [← hsame.1]; exact hc)
            · intro b' ty d p body t' ss o' hx
              cases hx
              cases m with
              | forward ty' len d' p' text =>
                simp only [deliverEv, Option.some.injEq, VaEv.exec.injEq] at he
                obtain ⟨rfl, rfl, rfl, rfl, rfl, rfl⟩ := he
                obtain ⟨l', e', o'', q1, q2⟩ := ih.core.queue b (.forward ty' len d' p' text) (by rw [hq]; simp)
                exact ⟨len, l', e', o'', q1, q2⟩
              | refused => simp [deliverEv] at he
              | portReply => simp [deliverEv] at he
              | closed => simp [deliverEv] at he
          · cases hs
        · cases hs
      · cases hs
    | agent b e =>
      have go : (∀ ty d p body t ss, e ≠ .exec ty d p body t ss) →
          (match n.agentStep N b e with
            | some (n', o) => some (n', NEff.agent b e o)
            | none => none) = some (n', x) → NInv N (tr ++ [(NLabel.agent b e, x)]) n' := by
        intro hne h
        split at h
        · rename_i n1 o hd
          obtain ⟨rfl, rfl⟩ := Prod.mk.inj (Option.some.inj h)
          have hsame : n1.calls = n.calls := by obtain ⟨a, _, rfl⟩ := agentStep_ok hd; rfl
          refine ih.next (ih.core.agentStep _ hd hp) ?_ (by simp) ?_
          · intro k c hc
            exact .inl (by rw [← hsame]; exact hc)
          · intro b' ty d p body t' ss o' hx
            cases hx
            exact absurd rfl (hne _ _ _ _ _ _)
        · cases h
      simp only [nstep] at hs
      cases e with
      | exec => cases hs
      | refused => cases hs
      | unknown => exact go (by simp) hs
      | childExit => exact go (by simp) hs
      | poll => exact go (by simp) hs
      | trigger => exact go (by simp) hs
    | restart b =>
      simp only [nstep] at hs
      split at hs
      · rename_i n1 o hd
        obtain ⟨rfl, rfl⟩ := Prod.mk.inj (Option.some.inj hs)
        have hcalls : n1.calls = n.calls := by obtain ⟨_, d, _, rfl⟩ := dmnStep_ok hd; rfl
        have hc := ih.core.dmnStep (.restart b) hd
        refine ih.next ⟨hc.dmn, fun b' => ?_, fun b' m hm => ?_⟩ ?_ (by simp) (by simp)
        · dsimp only
          by_cases hb : b = b'
          · subst hb
            rw [put_same]
            exact ⟨[], .start, by simp⟩
          · rw [put_other' hb]
            exact hc.agent b'
        · dsimp only at hm
          by_cases hb : b = b'
          · subst hb
            rw [put_same] at hm
            cases hm
          · rw [put_other' hb] at hm
            exact hc.queue b' m hm
        · intro k c hc
          exact .inl (by rw [← hcalls]; exact hc)
      · cases hs


theorem n_prefix {N : NConf} {tr : NHistory} {n : Net} (hr : NRun N tr n) :
    ∀ pre l x post, tr = pre ++ (l, x) :: post →
      ∃ n0 n1, NRun N pre n0 ∧ nstep N n0 l = some (n1, x) ∧ x.Possible n0 := by
  induction hr with
  | start => intro pre l x post h; simp at h
  | @step tr n n' l' x' hr hs hp ih =>
    intro pre l x post he
    rcases List.eq_nil_or_concat post with rfl | ⟨post', y, rfl⟩
    · obtain ⟨rfl, h2⟩ := List.append_inj' he rfl
      cases h2
      exact ⟨n, n', hr, hs, hp⟩
    · have he' : tr ++ [(l', x')] = (pre ++ (l, x) :: post') ++ [y] := by rw [he]; simp [List.concat_eq_append]
      exact ih _ _ _ _ (List.append_inj' he' rfl).1

theorem nstep_agent {N : NConf} {n n' : Net} {l : NLabel} {b : Nat} {e : VaEv} {o : List VaOut}
    (h : nstep N n l = some (n', .agent b e o)) : ∃ a, vaStep (N.load b) (n.agent b) e = some (a, o) := by
  cases l with
  | deliver b' t ss =>
    simp only [nstep] at h
    split at h
    · split at h
      · split at h
        · rename_i hd
          cases h
          obtain ⟨a, ha, _⟩ := agentStep_ok hd
          exact ⟨a, ha⟩
        · cases h
      · cases h
    · cases h
  | agent b' e' =>
    have go : ∀ e', (match n.agentStep N b' e' with
        | some (n', o) => some (n', NEff.agent b' e' o)
        | none => none) = some (n', .agent b e o) → ∃ a, vaStep (N.load b) (n.agent b) e = some (a, o) := by
      intro e' h
      split at h
      · rename_i hd
        cases h
        obtain ⟨a, ha, _⟩ := agentStep_ok hd
        exact ⟨a, ha⟩
      · cases h
    simp only [nstep] at h
    cases e' with
    | exec => cases h
    | refused => cases h
    | unknown => exact go .unknown h
    | childExit p t => exact go (.childExit p t) h
    | poll r => exact go (.poll r) h
    | trigger f h' bd => exact go (.trigger f h' bd) h
  | dmn b' e' =>
    simp only [nstep] at h
    split at h
    all_goals first | (cases h; done) | (split at h <;> cases h)
  | ask =>
    simp only [nstep] at h
    split at h
    · split at h <;> cases h
    · cases h
  | decide =>
    simp only [nstep] at h
    split at h
    · split at h <;> cases h
    · cases h
  | conn =>
    simp only [nstep] at h
    split at h
    · split at h
      · split at h
        · split at h <;> cases h
        · cases h
      · cases h
    · cases h
  | tell =>
    simp only [nstep] at h
    split at h
    · split at h
      · split at h
        · split at h
          · split at h
            · split at h <;> cases h
            · cases h
          · cases h
        · cases h
      · cases h
    · cases h
  | skip =>
    simp only [nstep] at h
    split at h
    · split at h
      · split at h <;> cases h
      · cases h
    · cases h
  | otherConn =>
    simp only [nstep] at h
    split at h <;> cases h
  | otherMsg =>
    simp only [nstep] at h
    split at h
    · split at h <;> cases h
    · cases h
  | restart =>
    simp only [nstep] at h
    split at h <;> cases h

/-- A call goes on only if there are a system state and a policy. -/
theorem call_some {sys : Option Info} {policy : Except Err (List Rule)} {agent : Agent} {proto kind : Nat} {data : Wire}
    {rs : Option Str} {t s : Str} {ident : Wire} {remote : Str} (h : triggerMsg proto kind data = .request rs t s ident)
    (hr : (∀ c ∈ remote, c.toNat < 128) ∧ '\n' ∉ remote ∧ remote.length ≤ 65000)
    (hn : ∀ info, sys = some info → OrdinaryNames info ∧ NoNewlines info)
    (hrules : ∀ rules, policy = .ok rules → ∀ r ∈ rules, IsRule r ∧
      ∀ u t d n b, (r.action = .allow t (some u) n b ∨ r.action = .ask t d (some u) n b) → '\n' ∉ u)
    {answer : Wire} (hans : (handleClient sys policy agent (requestText remote rs t s)).2 = some answer) (hnul : '\x00' ∉ answer)
    {qube : Str} {isUuid autostart : Bool} {cmd : Str}
    (hcall : agentCall sys policy agent remote rs t s = .runVm qube isUuid autostart cmd) :
    ∃ info rules, sys = some info ∧ policy = .ok rules := by
  obtain ⟨hans', hascii⟩ := (C53_evaluated _ _ _ _ _ _ _ _ _ _ _ h hr answer).1 hans
  have hs := (C53_safe _ _ _ _ _ _ _ h).1
  have hsn : '\n' ∉ s := fun hc => (plain_ascii c!"+" (by decide) _ (hs _ hc)).2 rfl
  rcases C22_engine_answer_understood sys policy agent {} remote t s (rs.getD []) hn hrules hsn rfl _ answer
      (Prod.ext rfl hans') hnul with ⟨_, hp⟩ | ⟨info, rules, _, _, _, _, _, _, _, h1, h2, _⟩
  · exfalso
    unfold agentCall at hcall
    rw [hans] at hcall
    unfold serviceChild connectDaemon at hcall
    simp only [Option.getD_some, hp] at hcall
    cases hcall
  · exact ⟨info, rules, h1, h2⟩

/-- The message of a call that is not `MSG_SERVICE_CONNECT`. -/
theorem message_command {y : ExAct} {ty d p : Nat} {buf : Wire} (h : y.message = some (ty, d, p, buf)) (ht : ty ≠ 0x202) :
    y = .command ty d buf ∧ p = 0 := by
  cases y with
  | command a b c => cases h; exact ⟨rfl, rfl⟩
  | serviceConnect => cases h; exact absurd rfl ht
  | _ => cases h

theorem message_connect {y : ExAct} {d p : Nat} {buf : Wire} (h : y.message = some (0x202, d, p, buf)) :
    y = .serviceConnect d p buf ∨ y = .command 0x202 d buf := by
  cases y with
  | command a b c => cases h; exact .inr rfl
  | serviceConnect => cases h; exact .inl rfl
  | _ => cases h

/-- **C116.** Any number of qubes, any behaviour of their agents towards their daemons, any interleaving, policies that change at
any time: if in some qube `b` a program is started for a request of its daemon, then either another program in dom0 (not the process
of a request) sent exactly this request to the daemon of `b`; or before, a qube `a` had asked for a service, the policy in force when
this was decided granted it (for `a`, or a remote domain it relays for) with `b` as the target - or a new disposable, which is
`b` -, and the program is the service that was asked for, told the qube that asked, run as the user the policy means; and the
data connection it is told to make is to `a`. -/
theorem C116_runs (N : NConf) (hN : UsualNames N) {tr : NHistory} {n : Net} (hr : NRun N tr n) (hd : UsualDecisions N tr)
    {pre post : NHistory} {l : NLabel} {b : Nat} {e : VaEv} {o : List VaOut} (htr : tr = pre ++ (l, .agent b e o) :: post)
    {job : VaJob} (hj : job ∈ startedJobs o)
    (dw : DeWorld) (root : dw.creds.uid = 0) (sw : StartWorld) (res : List DeEvent × DeEnd)
    (hp : jobProcess dw sw job.cmd = some res) (prog : RunProg) (hs : .started prog ∈ res.1) :
    (∃ buf, OtherSent pre b job.type job.domain buf ∧
      job = vaJob (N.load b) job.type job.domain job.port (sentText (N.user b) job.type buf)) ∨
    ∃ k a rs t s ident info rules agent w req r user autostart out qube svc user',
      Asked N pre k a rs t s ident ∧ Decided pre k (some info) (.ok rules) agent w ∧
      requestOf s (N.name a) t info (rs.getD []) = .ok req ∧
      Granted rules req {} agent r user autostart out ∧ ¬ Dom0 out ∧ RunsAs info req out user qube svc user' ∧
      IsQube N w qube b ∧ job.domain = a ∧
      ∃ sv conf p pw gs script, sv.source = req.source ∧ sv.descriptor = svc ∧ N.load b sv = some conf ∧
        LoginOk dw (conf.user.getD (accountOf (N.user b) user')) pw gs ∧ prog.creds = ⟨pw.uid, pw.gid, gs⟩ ∧
        FirstPlace true sw.fs (servicePlaces (pathDirs sw.pathList) sv) p ∧ FileAt true sw.fs p (.other true) ∧
        script ∈ shellScripts ∧ prog.call.path = c!"/bin/sh" ∧
        prog.call.argv = [c!"/bin/sh", c!"-lc", script, c!"sh", p, svc, req.source,
          ((splitOnce '+' svc).map Prod.snd).getD []] := by
  obtain ⟨n0, n1, hr0, hs0, hp0⟩ := n_prefix hr _ _ _ _ htr
  obtain ⟨va, hva⟩ := nstep_agent hs0
  have hi0 := n_inv hr0
  have hi1 := n_inv (.step hr0 hs0 hp0)
  obtain ⟨h, hrun, hmem⟩ := hi0.core.agent b
  have hall := C68_all (VaRun.step hrun hp0 hva)
  have hjob : job ∈ (h ++ [(e, o)]).filterMap fun x => Spec.requestOf (N.load b) x.1 := by
    rw [hall.mem_iff]
    simp only [List.flatMap_append, List.flatMap_cons, List.flatMap_nil, List.append_nil, List.mem_append]
    exact .inl (.inr hj)
  obtain ⟨⟨e1, o1⟩, hx, hreq⟩ := List.mem_filterMap.1 hjob
  have hx : ∃ l1, (l1, NEff.agent b e1 o1) ∈ pre ++ [(l, NEff.agent b e o)] := by
    rcases List.mem_append.1 hx with hx | hx
    · obtain ⟨l1, hl1⟩ := hmem _ hx
      exact ⟨l1, by simp [hl1]⟩
    · cases List.mem_singleton.1 hx
      exact ⟨l, by simp⟩
  obtain ⟨l1, hl1⟩ := hx
  cases e1 with
  | exec ty d p body t ss =>
    simp only [Spec.requestOf] at hreq
    split_ifs at hreq with ht
    have hreq := (Option.some.inj hreq).symm
    subst hreq
    obtain ⟨len, l2, e2, o2, hm2, hfwd⟩ := hi1.exec _ _ _ _ _ _ _ _ _ hl1
    have hm2 : (l2, NEff.dmn b e2 o2) ∈ pre := by
      rcases List.mem_append.1 hm2 with h | h
      · exact h
      · cases List.mem_singleton.1 h
    have hh2 : (e2, o2) ∈ dhist b pre := mem_dhist.2 ⟨l2, hm2⟩
    obtain ⟨fd, p', buf, w', he2, _, _, _, _, htext, _⟩ := C60_forward _ _ _ (hi0.core.dmn b) _ _ hh2 _ _ _ _ _ hfwd
    subst he2
    rcases hi0.msg _ _ _ _ _ _ _ _ _ hm2 with rfl | ⟨k, rfl, c, sys, policy, agent, w, acts, x, y, rest, g1, g2, g3, g4, g5, g6, g7⟩
    · left
      refine ⟨buf, ⟨fd, p', w', _, hm2⟩, ?_⟩
      rw [htext]
      rfl
    · right
      obtain ⟨rfl, rfl⟩ := message_command g5 ht
      have hsub : ∀ y, y ∈ pre → y ∈ tr := by intro y hy; rw [htr]; exact List.mem_append_left _ hy
      obtain ⟨⟨answer, hans, hnul⟩, hinfo, hrules⟩ := hd _ _ _ _ _ _ _ _ _ _ (g1.mono hsub) (g2.mono hsub)
      obtain ⟨kind, data, pid, xx, hask, htrig⟩ := g1
      obtain ⟨na1, na2, na3, na4, _⟩ := hN c.owner
      unfold NCall.actions at g3
      split at g3
      · rename_i qube isUuid autostart cmd hcall
        have hch := chain_exec qube autostart c.owner (cmd ++ ['\x00']) (cString c.ident) false isUuid w
        have hmem : ExAct.command ty d buf ∈
            (executeVm qube autostart c.owner (cmd ++ ['\x00']) (cString c.ident) false false isUuid w).1 := by rw [g3]; simp
        rw [g3] at hch
        obtain ⟨q, rfl, hq⟩ := (chain_at (a := ExAct.waitEnd :: acts) hch).1 _ _ _ rfl
        obtain ⟨info, rules, rfl, rfl⟩ := call_some htrig ⟨na1, na2, na3⟩ (fun i hi => ⟨(hinfo i hi).1, (hinfo i hi).2.1⟩)
          (fun x hx r hr => ⟨(hrules x hx r hr).1, fun u t d n b hu => ((hrules x hx r hr).2 u t d n b hu).1⟩) hans hnul hcall
        obtain ⟨hi1, hi2, hi3, hi4⟩ := hinfo info rfl
        obtain ⟨hdom, req, r, user, out, svc, user', q1, q2, q3, q4, q5⟩ := C94_runs info rules agent _ kind data _ _ _ _ _ htrig
          ⟨na1, na2, na3⟩ na4 ⟨hi1, hi2, hi3⟩ hi4 (hrules rules rfl) answer hans hnul qube isUuid autostart cmd hcall _ _ false w
          ty d buf hmem (N.conf b) _ _ (hi0.core.dmn b) (hN b).2.2.2.2 fd w' o2 hh2 ty len d p body hfwd (N.load b) dw root sw res hp
          prog hs
        refine ⟨k, c.owner, c.rs, c.target, c.service, c.ident, info, rules, agent, w, req, r, user, autostart, out, qube, svc, user',
          ⟨kind, data, pid, xx, hask, htrig⟩, g2, q1, q2, q3, q4, ?_, hdom, q5⟩
        rcases hq with rfl | ⟨name, z1, z2, z3, rfl⟩
        · exact .inl g4
        · exact .inr ⟨q, z1, z2, z3, g4⟩
      · simp at g3
  | _ => cases hreq


/-! ## The connection -/

theorem do_client {s : VaState} {j : VaJob} {t : VaTry} {m : Int} {d p : Nat} (h : VaOut.toClient m d p ∈ (vaDo s j t).2) :
    j.type = msgConnect ∧ scanSocket j.cmdline = .fd m ∧ j.domain = d ∧ j.port = p := by
  unfold vaDo at h
  split_ifs at h with ht
  · split at h
    · rename_i x hx
      split_ifs at h
      · simp at h
      · simp only [List.mem_singleton, VaOut.toClient.injEq] at h
        obtain ⟨rfl, rfl, rfl⟩ := h
        exact ⟨ht, hx, rfl, rfl⟩
    · simp at h
  · split at h <;> simp at h

theorem do_waiting (s : VaState) (j : VaJob) (t : VaTry) : (vaDo s j t).1.waiting = s.waiting := by
  have hreg : ∀ pid fd d p, (vaRegister s pid fd d p).waiting = s.waiting := by
    intro pid fd d p
    unfold vaRegister
    split <;> rfl
  unfold vaDo
  split
  · split
    · split
      · rfl
      · exact hreg _ _ _ _
    · rfl
  · split
    · exact hreg _ _ _ _
    · exact hreg _ _ _ _

theorem flush_client {tries : Nat → VaTry} {m : Int} {d p : Nat} : ∀ {is : List Nat} {s : VaState},
    (∀ i j, s.waiting i = some j → j.type ≠ msgConnect) → VaOut.toClient m d p ∉ (vaFlush tries is s).2
  | [], s, _ => by simp [vaFlush]
  | i :: is, s, h => by
    unfold vaFlush
    split
    · exact flush_client h
    · rename_i j hj
      simp only [List.mem_append, not_or]
      refine ⟨fun hc => h i j hj (do_client hc).1, flush_client ?_⟩
      intro i' j' h'
      dsimp only at h'
      unfold put at h'
      split_ifs at h'
      rw [do_waiting] at h'
      exact h i' j' h'

theorem to_client {load : RpcService → Option SvcConf} {h : VaHistory} {s s' : VaState} {e : VaEv} {o : List VaOut}
    (hi : VaInv load h s) (hs : vaStep load s e = some (s', o)) {m : Int} {d p : Nat} (hm : VaOut.toClient m d p ∈ o) :
    ∃ body t ss, e = .exec 0x202 d p body t ss ∧ scanSocket (cString (ensureNul body)) = .fd m := by
  cases e with
  | exec ty d' p' body t ss =>
    simp only [vaStep] at hs
    split_ifs at hs
    have ho : o = (vaInit load s ty d' p' body t ss).2 := by rw [Option.some.inj hs]
    rw [ho] at hm
    have fin : ∀ s1, VaOut.toClient m d p ∈ (vaDo s1 (vaJob load ty d' p' body) t).2 →
        ∃ body' t' ss', VaEv.exec ty d' p' body t ss = .exec 0x202 d p body' t' ss' ∧ scanSocket (cString (ensureNul body')) = .fd m := by
      intro s1 h1
      obtain ⟨g1, g2, g3, g4⟩ := do_client h1
      have g1 : ty = 0x202 := g1
      have g3 : d' = d := g3
      have g4 : p' = p := g4
      subst g1; subst g3; subst g4
      exact ⟨body, t, ss, rfl, g2⟩
    unfold vaInit at hm
    dsimp only at hm
    split_ifs at hm with hw
    · have hsess : VaOut.toClient m d p ∉ (waitForSession s (vaJob load ty d' p' body) ss).2.2 := by
        unfold waitForSession
        split
        · simp
        · split
          · simp
          · dsimp only
            split <;> simp
      generalize waitForSession s (vaJob load ty d' p' body) ss = r at hm hsess
      obtain ⟨b, s1, o1⟩ := r
      cases b with
      | true =>
        dsimp only at hm hsess
        split at hm
        · exact absurd hm hsess
        · rcases List.mem_append.1 hm with h1 | h1
          · exact absurd h1 hsess
          · exact fin _ h1
      | false =>
        dsimp only at hm hsess
        rcases List.mem_append.1 hm with h1 | h1
        · exact absurd h1 hsess
        · exact fin _ h1
    · exact fin _ hm
  | refused ident =>
    cases hs
    unfold vaRefused at hm
    split at hm <;> simp at hm
  | unknown => cases hs
  | childExit pid tries =>
    exfalso
    have ho : o = (vaReap s pid tries).2 := by simp only [vaStep] at hs; rw [Option.some.inj hs]
    rw [ho] at hm
    unfold vaReap at hm
    split_ifs at hm
    · refine flush_client ?_ hm
      intro i j hj
      rw [hi.wait i] at hj
      exact hi.kind j (List.mem_of_getElem? hj)
    · split at hm
      · simp at hm
      · simp [vaRelease] at hm
  | poll ready =>
    exfalso
    have ho : o = (vaPoll ready (List.range maxClients) s).2 := by simp only [vaStep] at hs; rw [Option.some.inj hs]
    rw [ho] at hm
    have : ∀ (is : List Nat) (s : VaState), VaOut.toClient m d p ∉ (vaPoll ready is s).2 := by
      intro is
      induction is with
      | nil => intro s; simp [vaPoll]
      | cons i is ih =>
        intro s
        unfold vaPoll
        split_ifs
        · simp [vaRelease, ih]
        · exact ih s
    exact this _ _ hm
  | trigger fd hdr body =>
    cases hs
    unfold vaTrigger at hm
    split at hm
    · simp at hm
    · split_ifs at hm
      · simp at hm
      · split at hm <;> simp at hm

/-- A port is told to a client together with its command to the agent. -/
theorem reply_forward {c : DConf} {s s' : DState} {fd ty d p' : Nat} {buf : Wire} {w : Bool} {o : List DOut} {q port : Nat}
    (h : cmdline c s fd ty d p' buf w = (s', o)) (hm : DOut.portReply q port ∈ o) :
    513 ≤ port ∧ ∃ len text, DOut.forward ty len d port text ∈ o := by
  have ht : ∀ s f, DOut.portReply q port ∉ (terminateClient s f).2 := by intro s f; simp [terminateClient]
  have hrel : ∀ s i z, DOut.portReply q port ∉ (releasePort s i z).2 := by
    intro s i z
    unfold releasePort
    split
    · dsimp only
      split
      · exact ht _ _
      · simp
    · simp
  have hf : ∀ dm pt bf, ∃ len text, forwardMsg c ty dm pt bf = .forward ty len dm pt text := by
    intro dm pt bf
    unfold forwardMsg
    dsimp only
    split <;> exact ⟨_, _, rfl⟩
  have ho : o = (cmdline c s fd ty d p' buf w).2 := by rw [h]
  rw [ho] at hm ⊢
  revert hm
  unfold cmdline
  dsimp only
  split
  · intro hm; exact absurd hm (ht _ _)
  split
  · intro hm; exact absurd hm (ht _ _)
  split
  · intro hm; exact absurd hm (ht _ _)
  split
  · intro hm; exact absurd hm (ht _ _)
  generalize (match findPending s (cString buf) with
    | some i => if (ty == msgConnect) = true then { s with pend := put s.pend i { s.pend i with sent := .allow } } else s
    | none => s) = s1
  split
  · split
    · intro hm; exact absurd hm (ht _ _)
    · rename_i i _
      split
      · intro hm
        obtain ⟨len, text, e⟩ := hf d (baseDataPort + i) buf
        rw [e] at hm ⊢
        simp only [List.mem_cons, DOut.portReply.injEq, reduceCtorEq, List.not_mem_nil, or_false] at hm
        obtain ⟨rfl, rfl⟩ := hm
        exact ⟨by unfold baseDataPort; omega, len, text, by simp⟩
      · intro hm
        rcases List.mem_append.1 hm with h | h
        · exact absurd h (ht _ _)
        · exact absurd h (hrel _ _ _)
  · split
    · intro hm
      obtain ⟨len, text, e⟩ := hf d p' buf
      rw [e] at hm
      simp at hm
    · intro hm; exact absurd hm (ht _ _)

theorem ident_short {proto kind : Nat} {data : Wire} {rs : Option Str} {t s : Str} {ident : Wire}
    (h : triggerMsg proto kind data = .request rs t s ident) : (cString ident).length ≤ 31 ∧ '\x00' ∉ cString ident := by
  obtain ⟨_, rs0, t0, s0, hl, ⟨name, k, hk, hname⟩, _⟩ := (C53_accepted _ _ _ _ _ _ _).1 h
  have hlen : ident.length = 32 := by
    cases hl with
    | v2 h1 h2 h3 h4 h5 => exact h3
    | v3 h1 h2 h3 h4 h5 => exact h2
    | v4 h1 h2 h3 h4 h5 h6 h7 => exact h3
  have hz : '\x00' ∉ name := by
    intro hc
    rcases hname _ hc with h | h
    · exact absurd h (by decide)
    · exact absurd h (by decide)
  have hcs : cString ident = name := by
    rw [hk, List.replicate_succ]; exact cString_nul hz
  rw [hcs]
  rw [hk] at hlen
  simp at hlen
  exact ⟨by omega, hz⟩

/-- **C116, the connection.** When the agent of a qube `a` tells one of its clients a domain and a port, then either another program
in dom0 has sent this to the daemon of `a`; or before, `a` had asked for a service with the identifier of exactly this client, the
decision was to run it in the qube with the id of this domain, and the daemon of that qube had passed the command for exactly
this request on to its agent, with `a` as the peer and exactly this port. So calls are never mixed up. -/
theorem C116_connected (N : NConf) {tr : NHistory} {n : Net} (hr : NRun N tr n)
    {pre post : NHistory} {l : NLabel} {a : Nat} {e : VaEv} {o : List VaOut} (htr : tr = pre ++ (l, .agent a e o) :: post)
    {m : Int} {dom port : Nat} (hm : VaOut.toClient m dom port ∈ o) :
    (∃ buf, OtherSent pre a 0x202 dom buf) ∨
    ∃ k rs t s ident sys policy agent w qube isUuid autostart cmd fd written o' len text,
      Asked N pre k a rs t s ident ∧ scanSocket (cString ident) = .fd m ∧ Decided pre k sys policy agent w ∧
      agentCall sys policy agent (N.name a) rs t s = .runVm qube isUuid autostart cmd ∧ IsQube N w qube dom ∧
      (.tell k written, .dmn dom (.clientMsg fd 0x200 a 0 (cmd ++ ['\x00']) written) o') ∈ pre ∧
      .forward 0x200 len a port text ∈ o' := by
  obtain ⟨n0, n1, hr0, hs0, hp0⟩ := n_prefix hr _ _ _ _ htr
  obtain ⟨va, hva⟩ := nstep_agent hs0
  have hi0 := n_inv hr0
  have hi1 := n_inv (.step hr0 hs0 hp0)
  obtain ⟨h, hrun, hmem⟩ := hi0.core.agent a
  obtain ⟨body, t, ss, rfl, hscan⟩ := to_client (va_inv hrun) hva hm
  obtain ⟨len, l2, e2, o2, hm2, hfwd⟩ := hi1.exec _ _ _ _ _ _ _ _ _ (List.mem_append_right _ (List.mem_singleton.2 rfl))
  have hm2 : (l2, NEff.dmn a e2 o2) ∈ pre := by
    rcases List.mem_append.1 hm2 with h | h
    · exact h
    · cases List.mem_singleton.1 h
  obtain ⟨fd, p', buf, w', he2, _, _, _, _, htext, _, _, _, hpp, _⟩ :=
    C60_forward _ _ _ (hi0.core.dmn a) _ _ (mem_dhist.2 ⟨l2, hm2⟩) _ _ _ _ _ hfwd
  subst he2
  rcases hi0.msg _ _ _ _ _ _ _ _ _ hm2 with rfl | ⟨k, rfl, c, sys, policy, agent, w, acts, x, y, rest, g1, g2, g3, g4, g5, g6, g7⟩
  · exact .inl ⟨buf, fd, p', w', _, hm2⟩
  right
  unfold NCall.actions at g3
  split at g3
  · rename_i qube isUuid autostart cmd hcall
    have hch := chain_exec qube autostart c.owner (cmd ++ ['\x00']) (cString c.ident) false isUuid w
    have hy : y = .serviceConnect dom p' buf := by
      rcases message_connect g5 with h | h
      · exact h
      · have hc : ExAct.command 0x202 dom buf ∈
            (executeVm qube autostart c.owner (cmd ++ ['\x00']) (cString c.ident) false false isUuid w).1 := by rw [g3, h]; simp
        exact absurd (exec_command hc).1 (by decide)
    subst hy
    have htold : ExAct.serviceConnect dom p' buf ∈
        (executeVm qube autostart c.owner (cmd ++ ['\x00']) (cString c.ident) false false isUuid w).1 := by rw [g3]; simp
    have hneg : w.negotiate = some (dom, p') ∧ buf = identField (cString c.ident) := by
      rcases C61_told qube autostart c.owner (cmd ++ ['\x00']) (cString c.ident) false false isUuid w with ⟨_, h⟩ |
        ⟨_, _, q, dom', port', pre', rest', _, h1, h2, h3, h4⟩
      · exact absurd rfl (h _ htold _ _ _)
      · rw [h2] at htold
        rcases List.mem_append.1 htold with hm | hm
        · rcases h3 _ hm with ⟨_, _, h⟩ | h | h <;> cases h
        · simp only [List.mem_cons, reduceCtorEq, false_or, ExAct.serviceConnect.injEq] at hm
          rcases hm with ⟨rfl, rfl, rfl⟩ | hm
          · exact ⟨h1, rfl⟩
          · rcases h4 _ hm with h | h <;> cases h
    rw [g3] at hch
    have hx : x = .connectSource c.owner := (chain_at (a := ExAct.waitEnd :: acts) hch).2.2 _ _ _ rfl
    subst hx
    have hown : c.owner = a := by
      simp only [ExAct.leads, beq_iff_eq] at g4
      exact g4
    have hcmd : ∃ acts', acts = acts' ++ [.command 0x200 c.owner (cmd ++ ['\x00'])] := by
      rcases List.eq_nil_or_concat acts with rfl | ⟨acts', z, rfl⟩
      · have := ((chain_at (a := []) (y := .connectSource c.owner) hch).2.1 _ rfl).1
        cases this
      · rw [List.concat_eq_append, List.append_assoc] at hch
        have := ((chain_at (a := ExAct.waitEnd :: acts') (y := .connectSource c.owner) hch).2.1 _ rfl).1
        exact ⟨acts', by rw [this, List.concat_eq_append]⟩
    obtain ⟨acts', rfl⟩ := hcmd
    obtain ⟨b, fd', w2, o', ht, hfit, u, z, v, huz, hz⟩ := g7 0x200 c.owner (cmd ++ ['\x00']) (by simp)
    have hfit := hfit (by decide)
    rw [hneg.1] at hfit
    simp only [replyFits, Bool.and_eq_true, beq_iff_eq, decide_eq_true_eq] at hfit
    obtain ⟨rfl, hrep⟩ := hfit
    obtain ⟨pr, po, hsplit⟩ := List.append_of_mem (mem_dhist.2 ⟨_, ht⟩)
    obtain ⟨s0, s1, _, _, hst⟩ := run_split (hi0.core.dmn dom) _ _ _ hsplit
    simp only [dstep, Option.some.injEq] at hst
    obtain ⟨hp513, len', text, hf⟩ := reply_forward hst hrep
    have hport : port = p' := hpp (by omega)
    have hq : IsQube N w qube dom := by
      have e1 : (executeVm qube autostart c.owner (cmd ++ ['\x00']) (cString c.ident) false false isUuid w).1 =
          u ++ z :: .command 0x200 c.owner (cmd ++ ['\x00']) :: (v ++ (.serviceConnect dom p' buf :: rest)) := by
        rw [g3]
        have : acts' ++ [.command 0x200 c.owner (cmd ++ ['\x00'])] ++ .connectSource c.owner :: .serviceConnect dom p' buf :: rest =
            (acts' ++ [.command 0x200 c.owner (cmd ++ ['\x00'])] ++ [.connectSource c.owner]) ++ .serviceConnect dom p' buf :: rest := by
          simp
        rw [this, huz]
        simp
      have hch2 := chain_exec qube autostart c.owner (cmd ++ ['\x00']) (cString c.ident) false isUuid w
      rw [e1] at hch2
      obtain ⟨q, rfl, hq⟩ := (chain_at (a := ExAct.waitEnd :: u) hch2).1 _ _ _ rfl
      rcases hq with rfl | ⟨name, z1, z2, z3, rfl⟩
      · exact .inl hz
      · exact .inr ⟨q, z1, z2, z3, hz⟩
    subst hown
    subst hport
    refine ⟨k, c.rs, c.target, c.service, c.ident, sys, policy, agent, w, qube, isUuid, autostart, cmd, fd', w2, o', len', text, g1, ?_,
      g2, hcall, hq, ht, hf⟩
    obtain ⟨kind, data, pid, xx, hask, htrig⟩ := g1
    obtain ⟨i1, i2⟩ := ident_short htrig
    have hbody : ∃ r, body = cString c.ident ++ '\x00' :: r ∧ (cString c.ident ++ '\x00' :: r).length = 32 := by
      rw [htext]
      unfold sentText
      rw [if_neg (by simp), hneg.2]
      unfold identField
      generalize cString c.ident = y at i1
      rw [List.take_of_length_le i1, show 32 - y.length = (31 - y.length) + 1 by omega, List.replicate_succ]
      exact ⟨_, rfl, by simp; omega⟩
    obtain ⟨r, hb1, hb2⟩ := hbody
    rw [hb1] at hscan
    have hft : FieldText (cString c.ident ++ '\x00' :: r) (cString c.ident) := ⟨i2, Or.inl ⟨r, rfl⟩⟩
    obtain ⟨r', hr'⟩ := ensureNul_eq hft
    rw [hr', cString_nul i2] at hscan
    exact hscan
  · simp at g3

end Qrexec
