import Verif.Lemmas.Register
import Verif.Props.AdminConc
import Mathlib.Data.List.Induction

/-! # C40: `policy.RegisterArgument` -/
namespace Qrexec
open Spec

/-- Executing one registration alone. -/
def register (h : Host) (c : RegConf) (d : Disk) (call : RegCall) :
    Disk × Except AdminErr (Option Bytes) := runPlan d (registerPlan h c call)

/-- What a successful plan means. -/
theorem registerPlan_ok {h : Host} {c : RegConf} {d : Disk} {call : RegCall} {plan : Plan}
    (hp : registerPlan h c call d = .ok plan) : ∃ b f s rules,
      call.backend = some b ∧ call.frontend = some f ∧ call.rpcname = some s ∧
      ValidArgument call.input ∧
      filePolicy (d.fs h) c.legacy [c.runtime, c.policy] c.depth = .ok rules ∧
      (∀ r ∈ rules, ¬ (r.service = some s ∧ r.argument = some ('+' :: call.input))) ∧
      plan = (none, [.touch (registeredFile c d),
        .appendText (registeredFile c d) (Registration.mk b f s call.input).line]) := by
  unfold registerPlan at hp
  split at hp
  · rename_i b f s hb hf hs
    split at hp
    · cases hp
    · rename_i h1
      split at hp
      · cases hp
      · rename_i h2
        split at hp
        · cases hp
        · rename_i h3
          split at hp
          · cases hp
          · split at hp
            · cases hp
            · rename_i rules hr
              split at hp
              · cases hp
              · rename_i hany
                cases hp
                refine ⟨b, f, s, rules, hb, hf, hs, (validArgument_iff _).2
                  ⟨h1, by simpa using h2, by simpa using h3⟩, hr, ?_, rfl⟩
                rintro r hrm ⟨e1, e2⟩
                apply hany
                rw [List.any_eq_true]
                exact ⟨r, hrm, by rw [e1, e2]; simp⟩
  · cases hp

/-- **C40.** A call with an argument that is not 1 to 64 of the characters `A-Za-z0-9-._` changes
nothing and fails. -/
theorem C40_invalid_argument (h : Host) (c : RegConf) (d : Disk) (call : RegCall)
    (hbad : ¬ ValidArgument call.input) : ∃ e, register h c d call = (d, .error e) := by
  unfold register runPlan
  cases hp : registerPlan h c call d with
  | error e => exact ⟨e, rfl⟩
  | ok plan =>
    obtain ⟨_, _, _, _, _, _, _, hv, _⟩ := registerPlan_ok hp
    exact absurd hv hbad

/-- **C40.** A call either fails and changes no file's content, or the argument was valid, the policy
loaded and had no rule for this service and argument, and one line is appended to the file of
registered arguments; no other file changes. -/
theorem C40_effect (h : Host) (c : RegConf) (d d' : Disk) (r : Registration)
    (res : Except AdminErr (Option Bytes)) (hrun : register h c d r.call = (d', res)) :
    (∃ e, res = .error e ∧ ∀ q, d'.content q = d.content q) ∨
    (res = .ok none ∧ ValidArgument r.argument ∧
      (∃ rules, filePolicy (d.fs h) c.legacy [c.runtime, c.policy] c.depth = .ok rules ∧
        ∀ x ∈ rules, ¬ (x.service = some r.service ∧ x.argument = some ('+' :: r.argument))) ∧
      d'.content (registeredFile c d) =
        some ((d.content (registeredFile c d)).getD [] ++ r.line) ∧
      ∀ q, q ≠ registeredFile c d → d'.content q = d.content q) := by
  unfold register runPlan at hrun
  cases hp : registerPlan h c r.call d with
  | error e => rw [hp] at hrun; cases hrun; exact Or.inl ⟨e, rfl, fun _ => rfl⟩
  | ok plan =>
    obtain ⟨b, f, s, rules, hb, hf, hs, hv, hl, hno, rfl⟩ := registerPlan_ok hp
    cases hb; cases hf; cases hs
    rw [hp] at hrun
    simp only [runWrites] at hrun
    cases h1 : d.apply (.touch (registeredFile c d)) with
    | error e => rw [h1] at hrun; cases hrun; exact Or.inl ⟨_, rfl, fun _ => rfl⟩
    | ok d1 =>
      have e1 : d1 = if (d.content (registeredFile c d)).isSome then d
          else d.setFile (registeredFile c d) [] := by
        simp only [Disk.apply] at h1
        split at h1
        · cases h1
        · cases h1; rfl
      have hc1 : d1.content (registeredFile c d) =
          some ((d.content (registeredFile c d)).getD []) := by
        rw [e1]
        cases hc : d.content (registeredFile c d) with
        | none => simp [setFile_self_content]
        | some x => simp [hc]
      rw [h1] at hrun
      simp only [Disk.apply, hc1] at hrun
      cases hrun
      refine Or.inr ⟨rfl, hv, ⟨rules, hl, hno⟩, by rw [setFile_self_content]; rfl, ?_⟩
      intro q hq
      rw [setFile_content, if_neg hq, e1]
      split
      · rfl
      · rw [setFile_content, if_neg hq]

/-- **C40.** The line says: allow this frontend to call this service with this argument in this
backend, with no redirection and no further qualifiers. -/
theorem C40_line_meaning (r : Registration) (path : Path) (src tgt : Token)
    (hs : r.service ≠ [] ∧ ∀ c ∈ r.service, NameChar c ∧ c ≠ '+')
    (ha : ValidArgument r.argument) (hf : PlainWord r.frontend) (hb : PlainWord r.backend)
    (hsrc : TokenText .source r.frontend src) (htgt : TokenText .target r.backend tgt)
    (hd : tgt ≠ .default) :
    ruleFromLine r.line path =
      .ok ⟨some r.service, some ('+' :: r.argument), src, tgt, .allow none none false true, path⟩ := by
  have hp : r.Plain := ⟨⟨hs.1, fun c hc => (hs.2 c hc).1⟩, hb, hf⟩
  refine (C23_rule_line _ _ _).2
    ⟨[r.service, '+' :: r.argument, r.frontend, r.backend, c!"allow"], ?_, ?_⟩
  · rw [line_core]
    refine words_append_gap ?_ (by decide)
    exact words_iff.2 (words_core hp ha)
  · refine .mk (kvs := []) (.name ?_ hs.2) (.arg fun c hc => argChar_nameChar (ha.2.2 c hc))
      (by simp) hsrc htgt ⟨rfl, by simp⟩ (by simp) (by simp)
      (.allow (Or.inl ⟨by simp, rfl⟩) (Or.inl ⟨by simp, rfl⟩) (Or.inl ⟨by simp, rfl⟩)
        (Or.inl ⟨by simp, rfl⟩)) (fun h => absurd h hd)
    intro e
    have := (nameChar_word (hs.2 '*' (by rw [e]; simp)).1).2.2.2.2
    exact this rfl

/-! ## Concurrent calls -/

/-- The processes: registrations and others. -/
def regWorld (h : Host) (c : RegConf) (regs : Nat → Option Registration) (other : Nat → Prog)
    (i : Nat) : Prog :=
  match regs i with
  | some r => registerPlan h c r.call
  | none => other i

/-- Service and argument of a registration. -/
def regKey (x : Nat × Registration) : Str × Bytes := (x.2.service, x.2.argument)

/-- The invariant; `added` are the registrations whose line has been written, in order. -/
structure RegInv (c : RegConf) (d0 : Disk) (regs : Nat → Option Registration)
    (added : List (Nat × Registration)) (s : World) : Prop where
  state : RegState c d0 s.disk
  alone : ∀ i j, (s.proc i).holds = true → (s.proc j).holds = true → i = j
  text : (s.disk.content (registeredFile c d0)).getD [] =
    (d0.content (registeredFile c d0)).getD [] ++ added.flatMap (·.2.line)
  mem : ∀ x ∈ added, regs x.1 = some x.2 ∧ ValidArgument x.2.argument ∧
    ((∃ a, s.proc x.1 = .done (.ok a)) ∨ s.proc x.1 = .killed ∨ ∃ a, s.proc x.1 = .writing a [])
  done : ∀ i r a, regs i = some r → s.proc i = .done (.ok a) → (i, r) ∈ added
  keys : (added.map regKey).Nodup
  mine : ∀ i r a ws, regs i = some r → s.proc i = .writing a ws → ValidArgument r.argument ∧
    (((ws = [.touch (registeredFile c d0), .appendText (registeredFile c d0) r.line] ∨
        ws = [.appendText (registeredFile c d0) r.line]) ∧ regKey (i, r) ∉ added.map regKey) ∨
      (ws = [] ∧ (i, r) ∈ added))
  others : ∀ i a ws, regs i = none → s.proc i = .writing a ws → ∀ w ∈ ws, ∀ q, w.touches q →
    q ≠ registeredFile c d0 ∧ q.dropLast ≠ d0.resolve c.runtime

theorem endsOk_lines (added : List (Nat × Registration)) :
    EndsOk (added.flatMap (·.2.line)) := by
  induction added using List.reverseRecOn with
  | nil => exact Or.inl rfl
  | append_singleton xs x _ =>
    refine Or.inr ⟨xs.flatMap (·.2.line) ++ regCore x.2, ?_⟩
    simp [List.flatMap_append, line_core]

/-- When a plan is made, nobody has registered the same argument. -/
theorem fresh_of_plan {h : Host} (hh : AsciiHost h) {c : RegConf} {d0 d : Disk}
    (hr : RegisterReady h c d0) {regs : Nat → Option Registration}
    (hplain : ∀ i r, regs i = some r → r.Plain) {added : List (Nat × Registration)}
    (hs : RegState c d0 d)
    (htext : (d.content (registeredFile c d0)).getD [] =
      (d0.content (registeredFile c d0)).getD [] ++ added.flatMap (·.2.line))
    (hmem : ∀ x ∈ added, regs x.1 = some x.2 ∧ ValidArgument x.2.argument)
    {r : Registration} {plan : Plan} (hp : registerPlan h c r.call d = .ok plan) (i : Nat) :
    ValidArgument r.argument ∧ plan.2 = [.touch (registeredFile c d0),
      .appendText (registeredFile c d0) r.line] ∧ regKey (i, r) ∉ added.map regKey := by
  obtain ⟨b, f, s, rules, hb, hf, hsv, hv, hl, hno, rfl⟩ := registerPlan_ok hp
  cases hb; cases hf; cases hsv
  have hfile : registeredFile c d = registeredFile c d0 := by
    unfold registeredFile; rw [hs.resolve]
  refine ⟨hv, by rw [hfile]; rfl, ?_⟩
  intro hk
  obtain ⟨x, hx, hkey⟩ := List.mem_map.1 hk
  obtain ⟨pre, post, rfl⟩ := List.append_of_mem hx
  simp only [regKey, Prod.mk.injEq] at hkey
  have hxm := hmem x hx
  -- the text at the beginning
  obtain ⟨t0, ht0, hends⟩ : ∃ t0, h.decode ((d0.content (registeredFile c d0)).getD []) = some t0 ∧
      EndsOk t0 := by
    cases hc : d0.content (registeredFile c d0) with
    | none => exact ⟨[], hh.empty, Or.inl rfl⟩
    | some b => obtain ⟨t, h1, h2⟩ := hr.text b hc; exact ⟨t, h1, h2⟩
  have hchars : ∀ ch ∈ (pre ++ x :: post).flatMap (·.2.line), ch.toNat < 128 ∧ ch ≠ '\r' := by
    intro ch hch
    obtain ⟨y, hy, hch⟩ := List.mem_flatMap.1 hch
    obtain ⟨h1, h2⟩ := hmem y hy
    exact line_chars (hplain _ _ h1) h2 ch hch
  have hdec := hh.append _ _ ((pre ++ x :: post).flatMap (·.2.line)) ht0
    fun ch hch => (hchars ch hch).1
  rw [← htext] at hdec
  have hsplit : (pre ++ x :: post).flatMap (·.2.line) =
      pre.flatMap (·.2.line) ++ (regCore x.2 ++ '\n' :: post.flatMap (·.2.line)) := by
    simp [List.flatMap_append, line_core]
  -- the file exists
  cases hc : d.content (registeredFile c d0) with
  | none =>
    rw [hc, hsplit] at htext
    simp only [Option.getD_none] at htext
    have := congrArg List.length htext
    simp at this
  | some b =>
    rw [hc] at hdec
    have hline : regCore x.2 ∈ fileLines (t0 ++ (pre ++ x :: post).flatMap (·.2.line)) := by
      rw [hsplit] at hchars ⊢
      refine fileLines_mem_line hends (endsOk_lines pre) ?_ fun hm => (hchars _ hm).2 rfl
      exact fun hm => (core_chars (hplain _ _ hxm.1) hxm.2 _ hm).2.1 rfl
    obtain ⟨y, hy, e1, e2⟩ := registered_rule hr hs (hplain _ _ hxm.1) hxm.2 hc hdec hline hl
    refine hno y hy ⟨by rw [e1, hkey.1], by rw [e2, hkey.2]; rfl⟩

theorem regInv_step {h : Host} (hh : AsciiHost h) {c : RegConf} {d0 : Disk}
    (hr : RegisterReady h c d0) {regs : Nat → Option Registration}
    (hplain : ∀ i r, regs i = some r → r.Plain) {other : Nat → Prog}
    (hother : ∀ i, regs i = none → Leaves c d0 (other i))
    {added : List (Nat × Registration)} {s s' : World} {ev : Option Ev}
    (hinv : RegInv c d0 regs added s) (hs : ConcStep (regWorld h c regs other) s ev s') :
    ∃ added', RegInv c d0 regs added' s' := by
  -- a process that is not `i` is where it was
  have hoth : ∀ i p j, j ≠ i → s.set i p j = s.proc j := fun i p j hj => set_other s p hj
  -- lock: the processes other than the holder do not hold it
  have hnot : ∀ i, (s.proc i).holds = true → ∀ p j, j ≠ i → (s.set i p j).holds = false := by
    intro i hi p j hj
    rw [hoth i p j hj]
    cases hh' : (s.proc j).holds with
    | false => rfl
    | true => exact absurd (hinv.alone j i hh' hi) hj
  have halone : ∀ i p, (∀ j, j ≠ i → (s.set i p j).holds = false) →
      ∀ a b, (s.set i p a).holds = true → (s.set i p b).holds = true → a = b := by
    intro i p hn a b ha hb
    by_cases h1 : a = i
    · by_cases h2 : b = i
      · rw [h1, h2]
      · rw [hn b h2] at hb; cases hb
    · rw [hn a h1] at ha; cases ha
  -- ending process `i` in the place `p`, without a change of the disk
  have hend : ∀ i p, p.holds = false → (∀ r a, regs i = some r → p = .done (.ok a) → (i, r) ∈ added) →
      (∀ x ∈ added, x.1 = i → (∃ a, p = .done (.ok a)) ∨ p = .killed) →
      ((s.proc i).holds = true ∨ s.proc i = .waiting) →
      ∃ added', RegInv c d0 regs added' ⟨s.disk, s.set i p⟩ := by
    intro i p hph hdone hmem hwas
    have hhold : ∀ j, (s.set i p j).holds = true → (s.proc j).holds = true := by
      intro j hj
      by_cases h1 : j = i
      · subst h1; rw [set_self, hph] at hj; cases hj
      · rwa [hoth i p j h1] at hj
    refine ⟨added, hinv.state, fun a b ha hb => hinv.alone a b (hhold a ha) (hhold b hb),
      hinv.text, ?_, ?_, hinv.keys, ?_, ?_⟩
    · intro x hx
      obtain ⟨h1, h2, h3⟩ := hinv.mem x hx
      refine ⟨h1, h2, ?_⟩
      by_cases hxi : x.1 = i
      · simp only [hxi, set_self]
        rcases hmem x hx hxi with h4 | h4
        · exact Or.inl h4
        · exact Or.inr (Or.inl h4)
      · simp only [hoth i p x.1 hxi]; exact h3
    · intro j r a hj hp
      by_cases h1 : j = i
      · subst h1; simp only [set_self] at hp; exact hdone r a hj hp
      · simp only [hoth i p j h1] at hp; exact hinv.done j r a hj hp
    · intro j r a ws hj hp
      by_cases h1 : j = i
      · subst h1; simp only [set_self] at hp; rw [hp] at hph; cases hph
      · simp only [hoth i p j h1] at hp; exact hinv.mine j r a ws hj hp
    · intro j a ws hj hp
      by_cases h1 : j = i
      · subst h1; simp only [set_self] at hp; rw [hp] at hph; cases hph
      · simp only [hoth i p j h1] at hp; exact hinv.others j a ws hj hp
  cases hs with
  | @acquire i hw hnone =>
    refine ⟨added, hinv.state, halone i _ fun j hj => ?_, hinv.text, ?_, ?_, hinv.keys, ?_, ?_⟩
    · rw [hoth i _ j hj]; exact hnone j
    · intro x hx
      obtain ⟨h1, h2, h3⟩ := hinv.mem x hx
      refine ⟨h1, h2, ?_⟩
      by_cases hxi : x.1 = i
      · rw [hxi, hw] at h3
        rcases h3 with ⟨a, h3⟩ | h3 | ⟨a, h3⟩ <;> cases h3
      · simp only [hoth i _ x.1 hxi]; exact h3
    · intro j r a hj hp
      by_cases h1 : j = i
      · subst h1; simp only [set_self] at hp; cases hp
      · simp only [hoth i _ j h1] at hp; exact hinv.done j r a hj hp
    · intro j r a ws hj hp
      by_cases h1 : j = i
      · subst h1; simp only [set_self] at hp; cases hp
      · simp only [hoth i _ j h1] at hp; exact hinv.mine j r a ws hj hp
    · intro j a ws hj hp
      by_cases h1 : j = i
      · subst h1; simp only [set_self] at hp; cases hp
      · simp only [hoth i _ j h1] at hp; exact hinv.others j a ws hj hp
  | @plan i reply ws hl hp =>
    have hi : (s.proc i).holds = true := by rw [hl]; rfl
    refine ⟨added, hinv.state, halone i _ (hnot i hi _), hinv.text, ?_, ?_, hinv.keys, ?_, ?_⟩
    · intro x hx
      obtain ⟨h1, h2, h3⟩ := hinv.mem x hx
      refine ⟨h1, h2, ?_⟩
      by_cases hxi : x.1 = i
      · rw [hxi, hl] at h3
        rcases h3 with ⟨a, h3⟩ | h3 | ⟨a, h3⟩ <;> cases h3
      · simp only [hoth i _ x.1 hxi]; exact h3
    · intro j r a hj hp'
      by_cases h1 : j = i
      · subst h1; simp only [set_self] at hp'; cases hp'
      · simp only [hoth i _ j h1] at hp'; exact hinv.done j r a hj hp'
    · intro j r a ws' hj hp'
      by_cases h1 : j = i
      · subst h1
        simp only [set_self] at hp'
        cases hp'
        simp only [regWorld, hj] at hp
        obtain ⟨e1, e2, e3⟩ := fresh_of_plan hh hr hplain hinv.state hinv.text
          (fun x hx => ⟨(hinv.mem x hx).1, (hinv.mem x hx).2.1⟩) hp j
        exact ⟨e1, Or.inl ⟨Or.inl e2, e3⟩⟩
      · simp only [hoth i _ j h1] at hp'; exact hinv.mine j r a ws' hj hp'
    · intro j a ws' hj hp'
      by_cases h1 : j = i
      · subst h1
        simp only [set_self] at hp'
        cases hp'
        simp only [regWorld, hj] at hp
        intro w hw q hq
        refine hother j hj s.disk _ _ hinv.state.resolve hp w hw q ?_
        cases w <;> exact hq
      · simp only [hoth i _ j h1] at hp'; exact hinv.others j a ws' hj hp'
  | @refuse i e hl hp =>
    have hi : (s.proc i).holds = true := by rw [hl]; rfl
    refine hend i _ rfl (fun r a _ h' => by cases h') ?_ (Or.inl hi)
    intro x hx hxi
    have h3 := (hinv.mem x hx).2.2
    rw [hxi, hl] at h3
    rcases h3 with ⟨a, h3⟩ | h3 | ⟨a, h3⟩ <;> cases h3
  | @fail i reply w ws e hw ha =>
    have hi : (s.proc i).holds = true := by rw [hw]; rfl
    refine hend i _ rfl (fun r a _ h' => by cases h') ?_ (Or.inl hi)
    intro x hx hxi
    have h3 := (hinv.mem x hx).2.2
    rw [hxi, hw] at h3
    rcases h3 with ⟨a, h3⟩ | h3 | ⟨a, h3⟩ <;> cases h3
  | @finish i reply hw =>
    have hi : (s.proc i).holds = true := by rw [hw]; rfl
    refine hend i _ rfl ?_ (fun x hx _ => Or.inl ⟨reply, rfl⟩) (Or.inl hi)
    intro r a hreg _
    rcases (hinv.mine i r reply [] hreg hw).2 with ⟨h1 | h1, _⟩ | h1
    · cases h1
    · cases h1
    · exact h1.2
  | @kill i hnd hnk =>
    refine hend i .killed rfl (fun r a _ h' => by cases h') (fun x hx _ => Or.inr rfl) ?_
    cases hpi : s.proc i with
    | done r => exact absurd hpi (hnd r)
    | killed => exact absurd hpi hnk
    | locked => exact Or.inl rfl
    | writing a ws => exact Or.inl rfl
    | waiting => exact Or.inr rfl
  | @write i reply w ws d' hw ha =>
    have hi : (s.proc i).holds = true := by rw [hw]; rfl
    cases hreg : regs i with
    | none =>
      obtain ⟨hst, hcont⟩ := regState_other hr hinv.state ha
        (hinv.others i reply (w :: ws) hreg hw w (by simp))
      refine ⟨added, hst, halone i _ (hnot i hi _), by rw [← hinv.text]; exact congrArg (Option.getD · []) hcont,
        ?_, ?_, hinv.keys, ?_, ?_⟩
      · intro x hx
        obtain ⟨h1, h2, h3⟩ := hinv.mem x hx
        refine ⟨h1, h2, ?_⟩
        by_cases hxi : x.1 = i
        · rw [hxi, hreg] at h1; cases h1
        · simp only [hoth i _ x.1 hxi]; exact h3
      · intro j r a hj hp'
        by_cases h1 : j = i
        · subst h1; rw [hreg] at hj; cases hj
        · simp only [hoth i _ j h1] at hp'; exact hinv.done j r a hj hp'
      · intro j r a ws' hj hp'
        by_cases h1 : j = i
        · subst h1; rw [hreg] at hj; cases hj
        · simp only [hoth i _ j h1] at hp'; exact hinv.mine j r a ws' hj hp'
      · intro j a ws' hj hp'
        by_cases h1 : j = i
        · subst h1
          simp only [set_self] at hp'
          cases hp'
          exact fun v hv => hinv.others j _ _ hj hw v (by simp [hv])
        · simp only [hoth i _ j h1] at hp'; exact hinv.others j a ws' hj hp'
    | some r =>
      have hnotmem : ∀ x ∈ added, x.1 ≠ i := by
        intro x hx hxi
        have h3 := (hinv.mem x hx).2.2
        rw [hxi, hw] at h3
        rcases h3 with ⟨a, h3⟩ | h3 | ⟨a, h3⟩ <;> cases h3
      obtain ⟨hv, hmine⟩ := hinv.mine i r reply (w :: ws) hreg hw
      rcases hmine with ⟨hws, hfresh⟩ | ⟨h0, _⟩
      · have hothers : ∀ j a ws', regs j = none → s.set i (.writing reply ws) j = .writing a ws' →
            ∀ w ∈ ws', ∀ q, w.touches q →
              q ≠ registeredFile c d0 ∧ q.dropLast ≠ d0.resolve c.runtime := by
          intro j a ws' hj hp'
          by_cases h1 : j = i
          · subst h1; rw [hreg] at hj; cases hj
          · simp only [hoth i _ j h1] at hp'; exact hinv.others j a ws' hj hp'
        have hdone : ∀ j r' a, regs j = some r' →
            s.set i (.writing reply ws) j = .done (.ok a) → (j, r') ∈ added := by
          intro j r' a hj hp'
          by_cases h1 : j = i
          · subst h1; simp only [set_self] at hp'; cases hp'
          · simp only [hoth i _ j h1] at hp'; exact hinv.done j r' a hj hp'
        have hmem : ∀ x ∈ added, regs x.1 = some x.2 ∧ ValidArgument x.2.argument ∧
            ((∃ a, s.set i (.writing reply ws) x.1 = .done (.ok a)) ∨
              s.set i (.writing reply ws) x.1 = .killed ∨
              ∃ a, s.set i (.writing reply ws) x.1 = .writing a []) := by
          intro x hx
          obtain ⟨h1, h2, h3⟩ := hinv.mem x hx
          refine ⟨h1, h2, ?_⟩
          rw [hoth i _ x.1 (hnotmem x hx)]; exact h3
        rcases hws with hws | hws
        · cases hws
          obtain ⟨hst, hcont⟩ := regState_touch hr hinv.state ha
          refine ⟨added, hst, halone i _ (hnot i hi _), ?_, hmem, hdone, hinv.keys, ?_, hothers⟩
          · rw [hcont]; exact hinv.text
          · intro j r' a ws' hj hp'
            by_cases h1 : j = i
            · subst h1
              rw [hreg] at hj; cases hj
              simp only [set_self] at hp'
              cases hp'
              exact ⟨hv, Or.inl ⟨Or.inr rfl, hfresh⟩⟩
            · simp only [hoth i _ j h1] at hp'; exact hinv.mine j r' a ws' hj hp'
        · cases hws
          obtain ⟨hst, old, ho1, ho2⟩ := regState_append hr hinv.state ha
          refine ⟨added ++ [(i, r)], hst, halone i _ (hnot i hi _), ?_, ?_, ?_, ?_, ?_, hothers⟩
          · rw [ho2]
            have := hinv.text
            rw [ho1] at this
            simp only [Option.getD_some] at this ⊢
            rw [this]
            simp [List.flatMap_append]
          · intro x hx
            rcases List.mem_append.1 hx with hx | hx
            · exact hmem x hx
            · rw [List.mem_singleton] at hx
              subst hx
              exact ⟨hreg, hv, Or.inr (Or.inr ⟨reply, set_self s i _⟩)⟩
          · intro j r' a hj hp'
            exact List.mem_append_left _ (hdone j r' a hj hp')
          · rw [List.map_append, List.nodup_append]
            refine ⟨hinv.keys, by simp, ?_⟩
            intro x hx y hy
            simp only [List.map_cons, List.map_nil, List.mem_singleton] at hy
            subst hy
            rintro rfl
            exact hfresh hx
          · intro j r' a ws' hj hp'
            by_cases h1 : j = i
            · subst h1
              rw [hreg] at hj; cases hj
              simp only [set_self] at hp'
              cases hp'
              exact ⟨hv, Or.inr ⟨rfl, by simp⟩⟩
            · simp only [hoth i _ j h1] at hp'
              have := hinv.alone j i (by rw [hp']; rfl) hi
              exact absurd this h1
      · cases h0

/-- **C40.** Any number of concurrent registrations, together with any other programs that take the
lock and leave the file of registered arguments alone, whatever the schedule and whichever
processes are killed.  When nobody holds the lock: the file has grown by one line for each
registration that succeeded (and perhaps for some that were killed), and by nothing else; no two
of these lines are for the same service and argument. -/
theorem C40_concurrent_partial (h : Host) (hh : AsciiHost h) (c : RegConf) (d0 : Disk)
    (hready : RegisterReady h c d0) (regs : Nat → Option Registration) (other : Nat → Prog)
    (hplain : ∀ i r, regs i = some r → r.Plain)
    (hother : ∀ i, regs i = none → Leaves c d0 (other i)) (evs : List Ev) (s : World)
    (hrun : ConcRun (regWorld h c regs other) (startWorld d0) evs s)
    (hidle : ∀ i, (s.proc i).holds = false) :
    ∃ added : List (Nat × Registration),
      (s.disk.content (registeredFile c d0)).getD [] =
        (d0.content (registeredFile c d0)).getD [] ++ added.flatMap (fun x => x.2.line) ∧
      (added.map fun x => (x.2.service, x.2.argument)).Nodup ∧
      (∀ i r a, regs i = some r → s.proc i = .done (.ok a) → (i, r) ∈ added) ∧
      (∀ x ∈ added, regs x.1 = some x.2 ∧ ValidArgument x.2.argument ∧
        ((∃ a, s.proc x.1 = .done (.ok a)) ∨ s.proc x.1 = .killed)) := by
  have hinv : ∃ added, RegInv c d0 regs added s := by
    clear hidle
    induction hrun with
    | start =>
      refine ⟨[], regState_start hready, ?_, by simp [startWorld], by simp, ?_, by simp, ?_, ?_⟩
      · intro i j hi; simp [startWorld, Proc.holds] at hi
      · intro i r a _ hi; simp [startWorld] at hi
      · intro i r a ws _ hi; simp [startWorld] at hi
      · intro i a ws _ hi; simp [startWorld] at hi
    | step _ hs ih =>
      obtain ⟨added, hinv⟩ := ih
      exact regInv_step hh hready hplain hother hinv hs
  obtain ⟨added, hinv⟩ := hinv
  refine ⟨added, hinv.text, hinv.keys, hinv.done, fun x hx => ?_⟩
  obtain ⟨h1, h2, h3⟩ := hinv.mem x hx
  refine ⟨h1, h2, ?_⟩
  rcases h3 with h3 | h3 | ⟨a, h3⟩
  · exact Or.inl h3
  · exact Or.inr h3
  · have := hidle x.1
    rw [h3] at this; cases this

theorem nodup_map_inj {α β : Type} {f : α → β} {l : List α} (h : (l.map f).Nodup) {x y : α}
    (hx : x ∈ l) (hy : y ∈ l) (he : f x = f y) : x = y := by
  induction l with
  | nil => cases hx
  | cons a as ih =>
    rw [List.map_cons, List.nodup_cons] at h
    rcases List.mem_cons.1 hx with rfl | hx'
    · rcases List.mem_cons.1 hy with rfl | hy'
      · rfl
      · exact absurd (he ▸ List.mem_map_of_mem hy') h.1
    · rcases List.mem_cons.1 hy with rfl | hy'
      · exact absurd (he ▸ List.mem_map_of_mem hx') h.1
      · exact ih h.2 hx' hy'

/-- **C40.** Two different calls for the same service and argument do not both succeed, whatever
the frontends and backends. -/
theorem C40_at_most_once_partial (h : Host) (hh : AsciiHost h) (c : RegConf) (d0 : Disk)
    (hready : RegisterReady h c d0) (regs : Nat → Option Registration) (other : Nat → Prog)
    (hplain : ∀ i r, regs i = some r → r.Plain)
    (hother : ∀ i, regs i = none → Leaves c d0 (other i)) (evs : List Ev) (s : World)
    (hrun : ConcRun (regWorld h c regs other) (startWorld d0) evs s)
    (hidle : ∀ i, (s.proc i).holds = false) (i j : Nat) (r q : Registration)
    (a b : Option Bytes) (hi : regs i = some r) (hj : regs j = some q)
    (hri : s.proc i = .done (.ok a)) (hrj : s.proc j = .done (.ok b)) (hij : i ≠ j) :
    ¬ (r.service = q.service ∧ r.argument = q.argument) := by
  obtain ⟨added, _, hk, hd, _⟩ := C40_concurrent_partial h hh c d0 hready regs other hplain hother evs s
    hrun hidle
  rintro ⟨e1, e2⟩
  have h1 := hd i r a hi hri
  have h2 := hd j q b hj hrj
  have := nodup_map_inj hk h1 h2 (by simp [e1, e2])
  simp only [Prod.mk.injEq] at this
  exact hij this.1

/-- Admin API requests for other files are among the programs `C40_concurrent_partial` allows. -/
theorem C40_admin_requests (h : Host) (c : RegConf) (ac : AdminConf) (d0 : Disk)
    (hready : RegisterReady h c d0) (service arg : Str) (payload : Bytes)
    (hrt : ∀ a : Area, a.dir ac ≠ d0.resolve c.runtime)
    (hfile : ∀ a : Area, fileOf ac d0 a arg ≠ registeredFile c d0) :
    Leaves c d0 (fun d => adminPlan h ac d service arg payload) := by
  intro d reply ws hres hp w hw q hq
  have hq : w.touches q := by cases w <;> exact hq
  have hfo : ∀ a, fileOf ac d a arg = fileOf ac d0 a arg := by
    intro a; unfold fileOf; rw [hres]
  rcases plan_cases hp with h0 | ⟨a, n, t, x, rfl⟩ | ⟨a, n, t, rfl⟩
  · simp only at h0; rw [h0] at hw; cases hw
  · obtain ⟨token, data, text, h1, h2, h3, h4, h5, h6, h7, h8, he⟩ := replace_ok.1 hp
    cases he
    rcases replaceWrites_touches hw hq with rfl | rfl
    · refine ⟨?_, by rw [tempPath_dropLast, h3]; exact hrt a⟩
      rw [hready.noLink]
      unfold tempPath
      intro e
      have := (List.append_inj' e rfl).2
      simp only [List.cons.injEq, and_true] at this
      have := this.1
      revert this
      decide
    · refine ⟨?_, by rw [h3]; exact hrt a⟩
      rw [hfo]; exact hfile a
  · obtain ⟨h1, h2, h3, h4, h5, h6, h7, he⟩ := remove_ok.1 hp
    cases he
    rw [List.mem_singleton] at hw
    subst hw
    cases hq
    refine ⟨?_, by rw [h3]; exact hrt a⟩
    rw [hfo]; exact hfile a

/-! ## Examples, and where C40 fails -/

/-- A small disk: `/r` and `/p` are the policy directories. -/
def regDisk (text : Option Bytes) : Disk := exampleDisk
  (match text with
    | some t => [([c!"p", regFileName], t)]
    | none => [])
  [([c!"r"], []), ([c!"p"], match text with | some _ => [regFileName] | none => []), ([c!"l"], [])]

def regConf : RegConf := ⟨[c!"r"], [c!"p"], [c!"l"], 4⟩

def regA : Registration := ⟨c!"back", c!"front", c!"ex.Do", c!"A"⟩

/-- The hypotheses of `C40_concurrent_partial` can be met. -/
theorem exampleHost_ascii : AsciiHost exampleHost := ⟨rfl, by rintro a t b ⟨⟩ _; rfl⟩

theorem regDisk_ready : RegisterReady exampleHost regConf (regDisk none) where
  distinct := by
    intro p ns h
    have := find_entries h
    simp only [List.mem_cons, List.not_mem_nil, or_false, Prod.mk.injEq] at this
    rcases this with ⟨_, rfl⟩ | ⟨_, rfl⟩ | ⟨_, rfl⟩ <;> simp
  noLink := rfl
  apart := by decide
  notHidden := by
    intro ns h
    have : ns = [] := by
      have h' : some [] = some ns := h
      cases h'; rfl
    rw [this]; simp
  listed := by intro ns h; exact absurd rfl h
  text := by intro b h; cases h

theorem regA_plain : regA.Plain := by
  refine ⟨⟨by decide, ?_⟩, ⟨by decide, by decide⟩, ⟨by decide, by decide⟩⟩
  have : ∀ c ∈ regA.service, c ∈ c!"ABCDEFGHIJKLMNOPQRSTUVWXYZabcdefghijklmnopqrstuvwxyz0123456789+-._" := by
    decide
  exact this

/-- A registration, and the same one by someone else. -/
example : (register exampleHost regConf (regDisk none) regA.call).2 = .ok none ∧
    (register exampleHost regConf (register exampleHost regConf (regDisk none) regA.call).1
      (Registration.mk c!"other" c!"front2" c!"ex.Do" c!"A").call).2 = .error .died := by
  constructor <;> rfl

example : (register exampleHost regConf (regDisk none) regA.call).1.content [c!"p", regFileName] =
    some c!"ex.Do +A front back allow\n" := by rfl

/-- An execution of two processes that want to register the same argument. -/
example : ∃ evs s, ConcRun (regWorld exampleHost regConf (fun _ => some regA) (fun _ _ => .error .died))
    (startWorld (regDisk none)) evs s ∧ (∀ i, (s.proc i).holds = false) ∧
    s.proc 0 = .done (.ok none) ∧ s.proc 1 = .done (.error .died) := by
  refine ⟨_, _, .step (.step (.step (.step (.step (.step (.step .start
    (.acquire (i := 0) rfl (fun _ => rfl)))
    (.plan (i := 0) rfl rfl))
    (.write (i := 0) rfl rfl)) (.write (i := 0) rfl rfl)) (.finish (i := 0) rfl))
    (.acquire (i := 1) rfl ?_)) (.refuse (i := 1) rfl rfl), ?_, rfl, rfl⟩
  · intro j
    by_cases hj : j = 0
    · subst hj; rfl
    · simp [World.set, hj, startWorld, Proc.holds]
  · intro j
    by_cases hj : j = 1
    · subst hj; rfl
    · by_cases hj0 : j = 0
      · subst hj0; rfl
      · simp [World.set, hj, hj0, startWorld, Proc.holds]

/-- C40 is false of the code when the file of registered arguments does not end with a newline:
the call succeeds, but the line is no rule, and the same argument can be registered again, by
another backend. -/
theorem C40_violated_no_newline :
    let d1 := register exampleHost regConf (regDisk (some c!"# comment")) regA.call
    let d2 := register exampleHost regConf (regDisk (some c!"# comment\n# x")) regA.call
    d1.2 = .ok none ∧ d2.2 = .ok none ∧
    d1.1.content [c!"p", regFileName] = some c!"# commentex.Do +A front back allow\n" ∧
    (register exampleHost regConf d1.1
      (Registration.mk c!"other" c!"front" c!"ex.Do" c!"A").call).2 = .ok none := by
  refine ⟨rfl, rfl, rfl, rfl⟩

/-- C40 is false of the code when the runtime directory has a file of the same name: the line is
added to a file that is not loaded, any number of times. -/
theorem C40_violated_hidden :
    let d := exampleDisk [([c!"r", regFileName], [])]
      [([c!"r"], [regFileName]), ([c!"p"], []), ([c!"l"], [])]
    let d1 := register exampleHost regConf d regA.call
    d1.2 = .ok none ∧ (register exampleHost regConf d1.1 regA.call).2 = .ok none := by
  refine ⟨rfl, rfl⟩

/-- C40 is false of the code for a service name with a `+` (the call
`policy.RegisterArgument+a+b`): the call succeeds and from then on the policy does not load, so
every qrexec call is refused.  So it is for an empty service name. -/
theorem C40_violated_breaks_policy (s : Str) (hs : s = c!"a+b" ∨ s = []) :
    let d1 := register exampleHost regConf (regDisk none)
      (Registration.mk c!"back" c!"front" s c!"A").call
    filePolicy ((regDisk none).fs exampleHost) regConf.legacy [regConf.runtime, regConf.policy]
      regConf.depth = .ok [] ∧
    d1.2 = .ok none ∧
    filePolicy (d1.1.fs exampleHost) regConf.legacy [regConf.runtime, regConf.policy]
      regConf.depth = .error .policySyntax := by
  rcases hs with rfl | rfl <;> refine ⟨rfl, rfl, rfl⟩

end Qrexec
