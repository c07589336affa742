import Verif.Spec.Network
import Verif.Props.EndToEnd
import Verif.Props.VmConn

namespace Qrexec

open Spec

theorem put_other' {α : Type} {f : Nat → α} {i j : Nat} {x : α} (h : ¬ i = j) : put f i x j = f j := by
  unfold put; rw [if_neg (fun e => h e.symm)]

/-- The events of a daemon. -/
def dhist (b : Nat) (tr : NHistory) : History :=
  tr.filterMap fun x => match x.2 with
    | .dmn b' e o => if b' = b then some (e, o) else none
    | _ => none

theorem mem_dhist {b : Nat} {tr : NHistory} {e : DEv} {o : List DOut} :
    (e, o) ∈ dhist b tr ↔ ∃ l, (l, .dmn b e o) ∈ tr := by
  unfold dhist
  rw [List.mem_filterMap]
  constructor
  · rintro ⟨⟨l, x⟩, h1, h2⟩
    cases x with
    | none => cases h2
    | agent => cases h2
    | dmn b' e' o' =>
      dsimp only at h2
      split_ifs at h2 with hb
      cases h2
      subst hb
      exact ⟨l, h1⟩
  · rintro ⟨l, h⟩
    exact ⟨_, h, by simp⟩

theorem dhist_snoc (b : Nat) (tr : NHistory) (l : NLabel) (x : NEff) :
    dhist b (tr ++ [(l, x)]) = dhist b tr ++ (match x with
      | .dmn b' e o => if b' = b then [(e, o)] else []
      | _ => []) := by
  unfold dhist
  rw [List.filterMap_append]
  congr 1
  cases x with
  | none => rfl
  | agent => rfl
  | dmn b' e o =>
    by_cases hb : b' = b <;> simp [List.filterMap_cons, hb]

/-- What holds of daemons and agents. -/
structure NCore (N : NConf) (tr : NHistory) (n : Net) : Prop where
  dmn : ∀ b, DRun (N.conf b) (dhist b tr) (n.dmn b)
  agent : ∀ b, ∃ h, VaRun (N.load b) h (n.agent b) ∧ ∀ x ∈ h, ∃ l, (l, NEff.agent b x.1 x.2) ∈ tr
  queue : ∀ b m, m ∈ n.toAgent b → ∃ l e o, (l, NEff.dmn b e o) ∈ tr ∧ m ∈ o

theorem dmnStep_ok {N : NConf} {n n' : Net} {b : Nat} {e : DEv} {o : List DOut} (h : n.dmnStep N b e = some (n', o)) :
    e.possible (n.dmn b) = true ∧ ∃ d, dstep (N.conf b) (n.dmn b) e = some (d, o) ∧
      n' = { n with dmn := put n.dmn b d, toAgent := put n.toAgent b (n.toAgent b ++ o.filter DOut.isMsg) } := by
  unfold Net.dmnStep at h
  split_ifs at h with hp
  split at h
  · cases h
  · rename_i d o' hd
    simp only [Option.some.injEq, Prod.mk.injEq] at h
    obtain ⟨rfl, rfl⟩ := h
    exact ⟨hp, d, hd, rfl⟩

theorem agentStep_ok {N : NConf} {n n' : Net} {b : Nat} {e : VaEv} {o : List VaOut} (h : n.agentStep N b e = some (n', o)) :
    ∃ a, vaStep (N.load b) (n.agent b) e = some (a, o) ∧ n' = { n with agent := put n.agent b a } := by
  unfold Net.agentStep at h
  split at h
  · cases h
  · rename_i a o' ha
    simp only [Option.some.injEq, Prod.mk.injEq] at h
    obtain ⟨rfl, rfl⟩ := h
    exact ⟨a, ha, rfl⟩

theorem NCore.none {N : NConf} {tr : NHistory} {n n' : Net} (hc : NCore N tr n) (l : NLabel) (h1 : n'.dmn = n.dmn)
    (h2 : n'.agent = n.agent) (h3 : n'.toAgent = n.toAgent) : NCore N (tr ++ [(l, .none)]) n' := by
  refine ⟨fun b => ?_, fun b => ?_, fun b m hm => ?_⟩
  · rw [dhist_snoc, h1, List.append_nil]; exact hc.dmn b
  · obtain ⟨h, hr, hm⟩ := hc.agent b
    rw [h2]
    exact ⟨h, hr, fun x hx => by obtain ⟨l, hl⟩ := hm x hx; exact ⟨l, by simp [hl]⟩⟩
  · rw [h3] at hm
    obtain ⟨l, e, o, h, hm⟩ := hc.queue b m hm
    exact ⟨l, e, o, by simp [h], hm⟩

theorem NCore.dmnStep {N : NConf} {tr : NHistory} {n n' : Net} {b : Nat} {e : DEv} {o : List DOut} (hc : NCore N tr n)
    (l : NLabel) (h : n.dmnStep N b e = some (n', o)) : NCore N (tr ++ [(l, .dmn b e o)]) n' := by
  obtain ⟨hp, d, hd, rfl⟩ := dmnStep_ok h
  refine ⟨fun b' => ?_, fun b' => ?_, fun b' m hm => ?_⟩
  · rw [dhist_snoc]
    dsimp only
    by_cases hb : b = b'
    · subst hb
      rw [if_pos rfl, put_same]
      exact .step (hc.dmn b) hp hd
    · rw [if_neg hb, List.append_nil, put_other' hb]
      exact hc.dmn b'
  · obtain ⟨h, hr, hm⟩ := hc.agent b'
    exact ⟨h, hr, fun x hx => by obtain ⟨l, hl⟩ := hm x hx; exact ⟨l, by simp [hl]⟩⟩
  · have hold : m ∈ n.toAgent b' → ∃ l' e' o', (l', NEff.dmn b' e' o') ∈ tr ++ [(l, .dmn b e o)] ∧ m ∈ o' := by
      intro hm
      obtain ⟨l, e, o, h, hm⟩ := hc.queue b' m hm
      exact ⟨l, e, o, by simp [h], hm⟩
    dsimp only at hm
    by_cases hb : b = b'
    · subst hb
      rw [put_same, List.mem_append, List.mem_filter] at hm
      rcases hm with hm | hm
      · exact hold hm
      · exact ⟨l, e, o, by simp, hm.1⟩
    · rw [put_other' hb] at hm
      exact hold hm

theorem NCore.agentStep {N : NConf} {tr : NHistory} {n n' : Net} {b : Nat} {e : VaEv} {o : List VaOut} (hc : NCore N tr n)
    (l : NLabel) (h : n.agentStep N b e = some (n', o)) (hp : e.Possible (n.agent b)) :
    NCore N (tr ++ [(l, .agent b e o)]) n' := by
  obtain ⟨a, ha, rfl⟩ := agentStep_ok h
  refine ⟨fun b' => ?_, fun b' => ?_, fun b' m hm => ?_⟩
  · rw [dhist_snoc, List.append_nil]
    exact hc.dmn b'
  · obtain ⟨h, hr, hm⟩ := hc.agent b'
    dsimp only
    by_cases hb : b = b'
    · subst hb
      rw [put_same]
      refine ⟨_, .step hr hp ha, ?_⟩
      intro x hx
      rcases List.mem_append.1 hx with hx | hx
      · obtain ⟨l, hl⟩ := hm x hx; exact ⟨l, by simp [hl]⟩
      · rw [List.mem_singleton.1 hx]; exact ⟨l, by simp⟩
    · rw [put_other' hb]
      exact ⟨h, hr, fun x hx => by obtain ⟨l, hl⟩ := hm x hx; exact ⟨l, by simp [hl]⟩⟩
  · obtain ⟨l', e, o, h, hm⟩ := hc.queue b' m hm
    exact ⟨l', e, o, by simp [h], hm⟩

theorem NCore.same {N : NConf} {tr : NHistory} {n n' : Net} (hc : NCore N tr n) (h1 : n'.dmn = n.dmn)
    (h2 : n'.agent = n.agent) (h3 : ∀ b m, m ∈ n'.toAgent b → m ∈ n.toAgent b) : NCore N tr n' := by
  refine ⟨fun b => ?_, fun b => ?_, fun b m hm => hc.queue b m (h3 b m hm)⟩
  · rw [h1]; exact hc.dmn b
  · rw [h2]; exact hc.agent b

/-! ## The actions of a call -/

/-- What comes before what. -/
def ActOrder (remote : Nat) (cmd : Wire) (ok : Str → Prop) (x y : ExAct) : Prop :=
  (∀ ty d buf, y = .command ty d buf → ∃ q, x = .connect q ∧ ok q) ∧
  (∀ d, y = .connectSource d → x = .command 0x200 remote cmd ∧ d = remote) ∧
  (∀ d p f, y = .serviceConnect d p f → x = .connectSource remote)

theorem chain_talk (dd : Bool) (t : Str) (remote : Nat) (cmd : Wire) (ident : Str) (wait : Bool) (w : ExWorld) (conn : Conn)
    (ok : Str → Prop) (ht : ok t) :
    (ExAct.connect t :: (exTalk dd t remote cmd ident false wait w conn).1).IsChain (ActOrder remote cmd ok) := by
  unfold exTalk exKill
  have k1 : ∀ x, ActOrder remote cmd ok x (.kill t) := fun x => ⟨by simp, by simp, by simp⟩
  have k2 : ∀ x, ActOrder remote cmd ok x .waitEnd := fun x => ⟨by simp, by simp, by simp⟩
  have k3 : ActOrder remote cmd ok (.connect t) (.command 0x200 remote cmd) := ⟨fun _ _ _ _ => ⟨t, rfl, ht⟩, by simp, by simp⟩
  have k4 : ActOrder remote cmd ok (.command 0x200 remote cmd) (.connectSource remote) := ⟨by simp, by simp, by simp⟩
  have k5 : ∀ d p f, ActOrder remote cmd ok (.connectSource remote) (.serviceConnect d p f) := fun d p f => ⟨by simp, by simp, by simp⟩
  have e : (if false = true then msgJustExec else msgExec) = 0x200 := rfl
  simp only [e]
  cases w.negotiate with
  | none => split <;> cases dd <;> simp [List.isChain_cons_cons, k1, k3]
  | some dp =>
    obtain ⟨d, p⟩ := dp
    split <;> cases dd <;> cases wait <;> cases w.source <;> simp [List.isChain_cons_cons, k1, k2, k3, k4, k5]

theorem chain_run (dd : Bool) (t : Str) (autostart : Bool) (remote : Nat) (cmd : Wire) (ident : Str) (wait : Bool) (w : ExWorld)
    (ok : Str → Prop) (ht : ok t) (hd : dd = true → autostart = true) (x : ExAct) :
    (x :: (exRun dd t autostart remote cmd ident false wait w).1).IsChain (ActOrder remote cmd ok) := by
  have k1 : ∀ x, ActOrder remote cmd ok x (.start t) := fun x => ⟨by simp, by simp, by simp⟩
  have k2 : ∀ x, ActOrder remote cmd ok x (.connect t) := fun x => ⟨by simp, by simp, by simp⟩
  rcases exRun_cases dd t autostart remote cmd ident false wait w with ⟨h1, h2, ⟨_, h3⟩ | ⟨_, h3⟩⟩ | ⟨h1, h3⟩
  · rw [h3]
    cases dd <;> simp [List.isChain_cons_cons, k1, k2]
  · rw [h3]
    have := chain_talk dd t remote cmd ident wait w w.connect2 ok ht
    cases dd <;> simp [List.isChain_cons_cons, k1, k2, this]
  · rw [h3]
    cases dd with
    | true => exact absurd ⟨Or.inl rfl, hd rfl⟩ h1
    | false =>
      have := chain_talk false t remote cmd ident wait w w.connect1 ok ht
      simp [List.isChain_cons_cons, k2, this]

/-- The order of the actions. -/
theorem chain_exec (target : Str) (autostart : Bool) (remote : Nat) (cmd : Wire) (ident : Str) (wait uuid : Bool) (w : ExWorld) :
    (ExAct.waitEnd :: (executeVm target autostart remote cmd ident false wait uuid w).1).IsChain (ActOrder remote cmd
      fun q => q = target ∨ ∃ name, c!"@dispvm:" <+: target ∧ w.create = some (c!"0\x00" ++ name) ∧ '\x00' ∉ name ∧ q = name) := by
  unfold executeVm
  split
  · simp
  split
  · rename_i hdv
    have hcr : ∀ x tt u ok, ActOrder remote cmd ok x (.create tt u) := fun x tt u ok => ⟨by simp, by simp, by simp⟩
    split
    · simp
    · rename_i ha
      simp only [Bool.false_eq_true, if_false]
      split
      · simp [List.isChain_cons_cons, hcr]
      · rename_i b hb
        split
        · simp [List.isChain_cons_cons, hcr]
        · rename_i name hname
          have hok : (name = target ∨ ∃ name', c!"@dispvm:" <+: target ∧ w.create = some (c!"0\x00" ++ name') ∧
              '\x00' ∉ name' ∧ name = name') := by
            right
            obtain ⟨tt, htt⟩ := startsWith_iff.1 hdv
            refine ⟨name, ⟨tt, htt.symm⟩, ?_⟩
            unfold disposableName at hname
            split_ifs at hname with g1 g2 g3 g4
            cases hname
            unfold replyOk at g1
            obtain ⟨rest, rfl⟩ := startsWith_iff.1 g1
            have hd : (c!"0\x00" ++ rest).drop 2 = rest := rfl
            rw [hd] at *
            unfold qubesdReply at hb
            split at hb
            · cases hb
            · rename_i bb hbb
              split_ifs at hb
              cases hb
              exact ⟨hbb, by simpa using g2, rfl⟩
          have := chain_run true name autostart remote cmd ident true w
            (fun q => q = target ∨ ∃ name, c!"@dispvm:" <+: target ∧ w.create = some (c!"0\x00" ++ name) ∧ '\x00' ∉ name ∧ q = name)
            hok (fun _ => by simpa using ha) (.create (target.drop 8) uuid)
          simp only [List.isChain_cons_cons]
          exact ⟨hcr _ _ _ _, this⟩
  · exact chain_run false target autostart remote cmd ident wait w _ (Or.inl rfl) (by simp) .waitEnd

theorem chain_at {R : ExAct → ExAct → Prop} {a : List ExAct} {x y : ExAct} {r : List ExAct}
    (h : (a ++ x :: y :: r).IsChain R) : R x y := by
  induction a with
  | nil => exact (List.isChain_cons_cons.1 h).1
  | cons z a ih =>
    apply ih
    cases ha : a ++ x :: y :: r with
    | nil => simp at ha
    | cons u v =>
      rw [List.cons_append, ha] at h
      exact (List.isChain_cons_cons.1 h).2

end Qrexec
