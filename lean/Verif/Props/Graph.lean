import Verif.Lemmas.Graph
import Verif.Props.Total

/-!
# C76: the policy graph
-/
namespace Qrexec
open Spec

/-- What the resolution of a call looks like. -/
theorem evaluate_shape {rules : List Rule} {req : Request} {res : Resolution} (h : evaluate rules req = .ok res) :
    res.parts.2.1 = req ∧ res.parts.1 ∈ rules ∧
    ((∃ r t u n a, res = .allow r ∧ r.rule.action = .allow t u n a) ∨
     (∃ r t d u n a, res = .ask r ∧ r.rule.action = .ask t d u n a)) := by
  unfold evaluate at h
  obtain ⟨r, hr, h⟩ := bind_eq_ok.1 h
  have hm := findMatchingRule_mem hr
  unfold evalAction at h
  split at h
  · simp at h
  · rename_i t u n a hact
    obtain ⟨x, hx, rfl⟩ := map_eq_ok.1 h
    unfold evalAllow at hx
    simp only [bind_eq_ok, pure_ok, Except.ok.injEq] at hx
    obtain ⟨_, _, _, _, _, _, _, _, _, _, _, _, _, _, rfl⟩ := hx
    exact ⟨rfl, hm, Or.inl ⟨_, t, u, n, a, rfl, hact⟩⟩
  · rename_i t d u n a hact
    obtain ⟨x, hx, rfl⟩ := map_eq_ok.1 h
    obtain ⟨_, _, _, _, _, _, _, _, rfl⟩ := evalAsk_ok hx
    exact ⟨rfl, hm, Or.inr ⟨_, t, d, u, n, a, rfl, hact⟩⟩

theorem graphNode_text {labels : Str → Option Str} {node line : Str} (h : graphNode labels node = .ok line) :
    IsNodeText line := by
  unfold graphNode at h
  split_ifs at h
  · cases h
    exact ⟨node, c!"style = dotted", by simp⟩
  · split at h
    · cases h
    · rename_i l _
      cases h
      exact ⟨node, c!"color = \"" ++ replaceAux c!"0x" c!"#" 0 l ++ c!"\", penwidth = 3", by simp⟩

/-- The base of a label. -/
theorem graphLabel_ok {args : GraphArgs} {service : Option Str} {rule : Rule} {l : Str}
    (h : graphLabel args service rule = .ok l) :
    edgeLabel args service rule = if args.fullOutput then l ++ c!" " ++ rule.action.print else l := by
  unfold graphLabel at h
  unfold edgeLabel
  by_cases h1 : args.skipLabels = true
  · rw [if_pos h1] at h
    cases h
    simp only [h1, if_true]
  · rw [if_neg h1] at h
    simp only [h1]
    by_cases h2 : args.fullOutput = true
    · simp only [h2, if_true, Bool.true_and] at h ⊢
      by_cases h3 : (rule.argument.getD []).isEmpty = true
      · rw [if_neg (by simp [h3])] at h
        cases h
        have : rule.argument.getD [] = [] := by simpa using h3
        simp [this]
      · rw [if_pos (by simp [h3])] at h
        cases service with
        | none => cases h
        | some s =>
          cases h
          rfl
    · simp only [h2, Bool.false_and] at h ⊢
      cases h
      simp

theorem graphAction_ok {args : GraphArgs} {labels : Str → Option Str} {service : Option Str} {res : Resolution}
    {rules : List Rule} {req : Request} (hres : evaluate rules req = .ok res) {lines : List Str}
    (h : graphAction args labels service res = .ok lines) :
    (∀ line ∈ lines, IsNodeText line ∨ ∃ target label colour, line = edgeText req.source target label colour ∧
      Shown args service res target label colour) ∧
    (∀ target label colour, Shown args service res target label colour →
      edgeText req.source target label colour ∈ lines) := by
  obtain ⟨hq, hm, hshape⟩ := evaluate_shape hres
  unfold graphAction at h
  obtain ⟨l, hl, h⟩ := bind_eq_ok.1 h
  have hlab := graphLabel_ok hl
  rw [hq] at h
  -- the only edge that may be shown
  have hone : ∀ target label colour, Shown args service res target label colour →
      target = graphTarget res.parts.1 req ∧ label = edgeLabel args service res.parts.1 ∧
      colour = graphColour res.parts.2.2 ∧ (args.target = [] ∨ target ∈ args.target) ∧
      (res.parts.2.2 = false ∨ args.includeAsk = true ∨ args.fullOutput = true) := by
    intro target label colour hs
    cases hs with
    | @allow r t u n a ha ht =>
      have e : (t.getD r.request.target).str = graphTarget r.rule req := by
        have : r.request = req := hq
        rw [← this]
        unfold graphTarget
        rw [ha]
        cases t <;> rfl
      exact ⟨e, rfl, rfl, ht, Or.inl rfl⟩
    | @ask r t d u n a ha hi ht =>
      have e : (t.getD r.request.target).str = graphTarget r.rule req := by
        have : r.request = req := hq
        rw [← this]
        unfold graphTarget
        rw [ha]
        cases t <;> rfl
      exact ⟨e, rfl, rfl, ht, Or.inr hi⟩
  have hshown : (args.target = [] ∨ graphTarget res.parts.1 req ∈ args.target) →
      (res.parts.2.2 = false ∨ args.includeAsk = true ∨ args.fullOutput = true) →
      Shown args service res (graphTarget res.parts.1 req) (edgeLabel args service res.parts.1)
        (graphColour res.parts.2.2) := by
    intro ht hi
    rcases hshape with ⟨r, t, u, n, a, rfl, ha⟩ | ⟨r, t, d, u, n, a, rfl, ha⟩
    · have e : (t.getD r.request.target).str = graphTarget r.rule req := by
        have : r.request = req := hq
        rw [← this]
        unfold graphTarget
        rw [ha]
        cases t <;> rfl
      have := Shown.allow (args := args) (service := service) (r := r) ha (by rw [e]; exact ht)
      rw [e] at this
      exact this
    · have e : (t.getD r.request.target).str = graphTarget r.rule req := by
        have : r.request = req := hq
        rw [← this]
        unfold graphTarget
        rw [ha]
        cases t <;> rfl
      have := Shown.ask (args := args) (service := service) (r := r) ha
        (by rcases hi with hi | hi; exact absurd hi (by simp [Resolution.parts]); exact hi) (by rw [e]; exact ht)
      rw [e] at this
      exact this
  by_cases hf : (!args.target.isEmpty && !args.target.contains (graphTarget res.parts.1 req)) = true
  · rw [if_pos hf] at h
    cases h
    refine ⟨by simp, ?_⟩
    intro target label colour hs
    obtain ⟨e, _, _, ht, _⟩ := hone _ _ _ hs
    exfalso
    simp only [Bool.and_eq_true, Bool.not_eq_true', List.isEmpty_eq_false_iff, List.contains_eq_mem,
      decide_eq_false_iff_not] at hf
    rcases ht with ht | ht
    · exact hf.1 ht
    · exact hf.2 (e ▸ ht)
  · rw [if_neg hf] at h
    have ht : args.target = [] ∨ graphTarget res.parts.1 req ∈ args.target := by
      simp only [Bool.and_eq_true, Bool.not_eq_true', List.isEmpty_eq_false_iff, List.contains_eq_mem,
        decide_eq_false_iff_not] at hf
      tauto
    simp only [bind_eq_ok, pure_ok, Except.ok.injEq] at h
    obtain ⟨n1, hn1, n2, hn2, rfl⟩ := h
    have hedges : graphEdges args l res.parts.1 req.source (graphTarget res.parts.1 req) res.parts.2.2 =
        if (res.parts.2.2 = false ∨ args.includeAsk = true ∨ args.fullOutput = true) then
          [edgeText req.source (graphTarget res.parts.1 req) (edgeLabel args service res.parts.1)
            (graphColour res.parts.2.2)] else [] := by
      unfold graphEdges
      rw [hlab]
      by_cases h2 : args.fullOutput = true
      · rw [if_pos h2, if_pos h2, if_pos (Or.inr (Or.inr h2))]
        rfl
      · rw [if_neg h2, if_neg h2]
        by_cases h3 : (res.parts.2.2 && !args.includeAsk) = true
        · rw [if_pos h3, if_neg]
          simp only [Bool.and_eq_true, Bool.not_eq_true'] at h3
          rintro (h | h | h)
          · rw [h3.1] at h; cases h
          · rw [h3.2] at h; cases h
          · exact h2 h
        · rw [if_neg h3, if_pos]
          · rfl
          · simp only [Bool.and_eq_true, Bool.not_eq_true', not_and, Bool.not_eq_false] at h3
            cases hb : res.parts.2.2
            · exact Or.inl rfl
            · exact Or.inr (Or.inl (h3 hb))
    rw [hedges]
    by_cases hi : (res.parts.2.2 = false ∨ args.includeAsk = true ∨ args.fullOutput = true)
    · rw [if_pos hi]
      refine ⟨?_, ?_⟩
      · intro line hline
        simp only [List.isEmpty_cons, Bool.false_eq_true, if_false, List.cons_append, List.nil_append,
          List.mem_cons, List.not_mem_nil, or_false] at hline
        rcases hline with rfl | rfl | rfl
        · exact Or.inl (graphNode_text hn1)
        · exact Or.inl (graphNode_text hn2)
        · exact Or.inr ⟨_, _, _, rfl, hshown ht hi⟩
      · intro target label colour hs
        obtain ⟨rfl, rfl, rfl, _⟩ := hone _ _ _ hs
        simp
    · rw [if_neg hi]
      refine ⟨by simp, ?_⟩
      intro target label colour hs
      obtain ⟨_, _, _, _, hi'⟩ := hone _ _ _ hs
      exact absurd hi' hi

theorem graphQuery_ok {args : GraphArgs} {rules : List Rule} {info : Info} {labels : Str → Option Str}
    {entry : Option Str × Option Str} {src tgt : Str} {lines : List Str}
    (h : graphQuery args rules info labels entry src tgt = .ok lines) :
    (∀ line ∈ lines, IsNodeText line ∨ ∃ res target label colour, line = edgeText src target label colour ∧
      CallResult rules info (requestService entry.1) (requestArgument entry.2) src tgt res ∧
      Shown args entry.1 res target label colour) ∧
    (∀ res target label colour, CallResult rules info (requestService entry.1) (requestArgument entry.2) src tgt res →
      Shown args entry.1 res target label colour → edgeText src target label colour ∈ lines) := by
  unfold graphQuery at h
  split at h
  · rename_i res hres
    obtain ⟨req, h1, h2⟩ := bind_eq_ok.1 hres
    obtain ⟨_, _, _, _, _, _, hsrc⟩ := mkRequest_ok h1
    have hs : req.source = src := by
      rcases hsrc with ⟨_, h, _⟩ | ⟨h, _⟩
      · exact h
      · exact absurd rfl h
    obtain ⟨ha, hb⟩ := graphAction_ok h2 h
    rw [hs] at ha hb
    refine ⟨?_, ?_⟩
    · intro line hl
      rcases ha line hl with hn | ⟨t, l, c, e, hsh⟩
      · exact Or.inl hn
      · exact Or.inr ⟨res, t, l, c, e, ⟨req, h1, h2⟩, hsh⟩
    · rintro res' t l c ⟨req', h1', h2'⟩ hsh
      rw [h1] at h1'
      cases h1'
      rw [h2] at h2'
      cases h2'
      exact hb t l c hsh
  · rename_i e he
    split_ifs at h
    cases h
    refine ⟨by simp, ?_⟩
    rintro res' t l c ⟨req', h1', h2'⟩ hsh
    rw [h1'] at he
    simp only [ok_bind] at he
    rw [h2'] at he
    cases he

theorem mem_graphNames {info : Info} {k : Str} :
    k ∈ graphNames info ↔ k ∈ info.map Prod.fst ∧ ¬ ∃ t, k = c!"uuid" ++ t := by
  unfold graphNames
  rw [List.mem_filter]
  simp only [Bool.not_eq_true', ← Bool.not_eq_true, startsWith_iff]

theorem mem_graphSources {args : GraphArgs} {info : Info} {src : Str} :
    src ∈ graphSources args info ↔ DrawnSource args info src := by
  unfold graphSources DrawnSource
  by_cases h : args.source = []
  · simp [h, mem_graphNames]
  · rw [if_neg (by simpa using h)]
    simp [h]

theorem mem_graphTargets {info : Info} {tgt : Str} : tgt ∈ graphTargets info ↔ DrawnTarget info tgt := by
  unfold graphTargets DrawnTarget
  simp only [List.mem_append, mem_graphNames, List.mem_cons, List.not_mem_nil, or_false, List.mem_map, List.mem_filter,
    Bool.and_eq_true, Bool.not_eq_true', ← Bool.not_eq_true, startsWith_iff]
  constructor
  · rintro (((h | h) | ⟨⟨T, d⟩, ⟨h1, h2, h3⟩, rfl⟩) | h)
    · exact Or.inl h
    · exact Or.inr (Or.inl h)
    · exact Or.inr (Or.inr (Or.inr ⟨T, d, rfl, h1, h3, h2⟩))
    · exact Or.inr (Or.inr (Or.inl h))
  · rintro (h | h | h | ⟨T, d, rfl, h1, h2, h3⟩)
    · exact Or.inl (Or.inl (Or.inl h))
    · exact Or.inl (Or.inl (Or.inr h))
    · exact Or.inr h
    · exact Or.inl (Or.inr ⟨(T, d), ⟨h1, h3, h2⟩, rfl⟩)

theorem graphSkip_ok {args : GraphArgs} {entry : Option Str × Option Str} {b : Bool} (h : graphSkip args entry = .ok b) :
    b = false ↔ (args.service = [] ∨ ∃ s, entry.1 = some s ∧ (s ∈ args.service ∨ s ++ entry.2.getD [] ∈ args.service)) := by
  unfold graphSkip at h
  by_cases he : args.service.isEmpty = true
  · rw [if_pos he] at h
    cases h
    simp [List.isEmpty_iff.1 he]
  · rw [if_neg he] at h
    have hne : args.service ≠ [] := by simpa using he
    split at h
    · cases h
    · rename_i s hs
      cases h
      simp only [Bool.and_eq_false_iff, Bool.not_eq_false', List.contains_iff_mem, hne, false_or, hs,
        Option.some.injEq, exists_eq_left']

/-- An edge of the graph, and the calls it was computed from. -/
theorem graphMain_iff {args : GraphArgs} {rules : List Rule} {info : Info} {labels : Str → Option Str} {out : List Str}
    (h : graphMain args rules info labels = .ok out) :
    (∀ line ∈ out, IsNodeText line ∨ ∃ entry src tgt res target label colour,
      line = edgeText src target label colour ∧ Listed args rules entry ∧ DrawnSource args info src ∧
      DrawnTarget info tgt ∧
      CallResult rules info (requestService entry.1) (requestArgument entry.2) src tgt res ∧
      Shown args entry.1 res target label colour) ∧
    (∀ entry src tgt res target label colour, Listed args rules entry → DrawnSource args info src →
      DrawnTarget info tgt →
      CallResult rules info (requestService entry.1) (requestArgument entry.2) src tgt res →
      Shown args entry.1 res target label colour → edgeText src target label colour ∈ out) ∧ out.Nodup := by
  unfold graphMain at h
  obtain ⟨lines, hl, h⟩ := bind_eq_ok.1 h
  cases h
  have hk : ∀ e, e ∈ graphServices args rules ↔ ((∃ r ∈ rules, e = (r.service, r.argument)) ∨
      (∃ x ∈ args.service, '+' ∉ x ∧ e = (some x, none)) ∨
      (∃ x ∈ args.service, ∃ s a, x = s ++ c!"+" ++ a ∧ '+' ∉ s ∧ e = (some s, some (c!"+" ++ a)))) := by
    intro e
    unfold graphServices
    rw [mem_sortBy, mem_addAll]
    simp only [List.not_mem_nil, false_or, List.mem_append, List.mem_map]
    constructor
    · rintro (⟨r, hr, rfl⟩ | ⟨x, hx, hxe⟩)
      · exact Or.inl ⟨r, hr, rfl⟩
      · rcases graphEntry_spec.1 hxe with ⟨h1, h2⟩ | ⟨s, a, h1, h2, h3⟩
        · exact Or.inr (Or.inl ⟨x, hx, h1, h2⟩)
        · exact Or.inr (Or.inr ⟨x, hx, s, a, h1, h2, h3⟩)
    · rintro (⟨r, hr, rfl⟩ | ⟨x, hx, h1, h2⟩ | ⟨x, hx, s, a, h1, h2, h3⟩)
      · exact Or.inl ⟨r, hr, rfl⟩
      · exact Or.inr ⟨x, hx, graphEntry_spec.2 (Or.inl ⟨h1, h2⟩)⟩
      · exact Or.inr ⟨x, hx, graphEntry_spec.2 (Or.inr ⟨s, a, h1, h2, h3⟩)⟩
  refine ⟨?_, ?_, addAll_nodup (by simp)⟩
  · intro line hline
    rw [mem_addAll] at hline
    rcases hline with hline | hline
    · simp at hline
    obtain ⟨e, he, ys, hys, hy⟩ := (mem_concatMapE hl line).1 hline
    unfold graphService at hys
    obtain ⟨skip, hskip, hys⟩ := bind_eq_ok.1 hys
    have hsk := graphSkip_ok hskip
    cases skip with
    | true =>
      cases hys
      simp at hy
    | false =>
      obtain ⟨src, hsrc, ys', hys', hy'⟩ := (mem_concatMapE hys line).1 hy
      obtain ⟨tgt, htgt, ys'', hys'', hy''⟩ := (mem_concatMapE hys' line).1 hy'
      rcases (graphQuery_ok hys'').1 line hy'' with hn | ⟨res, t, l, c, e1, hc, hs⟩
      · exact Or.inl hn
      · exact Or.inr ⟨e, src, tgt, res, t, l, c, e1, ⟨(hk e).1 he, hsk.1 rfl⟩, mem_graphSources.1 hsrc,
          mem_graphTargets.1 htgt, hc, hs⟩
  · intro e src tgt res t l c hlist hsrc htgt hc hs
    rw [mem_addAll]
    refine Or.inr ?_
    have he := (hk e).2 hlist.known
    obtain ⟨ys, hys⟩ := concatMapE_each hl e he
    refine (mem_concatMapE hl _).2 ⟨e, he, ys, hys, ?_⟩
    unfold graphService at hys
    obtain ⟨skip, hskip, hys⟩ := bind_eq_ok.1 hys
    have hsk := (graphSkip_ok hskip).2 hlist.wanted
    subst hsk
    rw [if_neg (by simp)] at hys
    have hsrc' := mem_graphSources.2 hsrc
    obtain ⟨ys', hys'⟩ := concatMapE_each hys src hsrc'
    refine (mem_concatMapE hys _).2 ⟨src, hsrc', ys', hys', ?_⟩
    have htgt' := mem_graphTargets.2 htgt
    obtain ⟨ys'', hys''⟩ := concatMapE_each hys' tgt htgt'
    exact (mem_concatMapE hys' _).2 ⟨tgt, htgt', ys'', hys'', (graphQuery_ok hys'').2 _ _ _ _ hc hs⟩

/-- The calls a line stands for are those to which the same rules apply as to the call the tool evaluates. -/
theorem stands_columns {args : GraphArgs} {rules : List Rule} (hrules : ∀ r ∈ rules, IsRule r)
    {entry : Option Str × Option Str} (hl : Listed args rules entry) {svc arg : Str} (h : Stands rules entry svc arg) :
    startsWith c!"+" arg = true ∧ startsWith c!"+" (requestArgument entry.2) = true ∧
    ∀ r ∈ rules, Columns r svc arg ↔ Columns r (requestService entry.1) (requestArgument entry.2) := by
  obtain ⟨s?, a?⟩ := entry
  cases s? with
  | some s =>
    cases a? with
    | some a =>
      obtain ⟨rfl, rfl⟩ := h
      have ha : startsWith c!"+" arg = true := by
        rcases hl.known with ⟨r, hr, e⟩ | ⟨x, _, _, e⟩ | ⟨x, _, s, a, _, _, e⟩
        · simp only [Prod.mk.injEq] at e
          exact (isRule_columns (hrules r hr)).2.2 _ e.2.symm
        · cases e
        · cases e
          rfl
      have he : requestArgument (some arg) = arg := by
        unfold requestArgument
        obtain ⟨t, rfl⟩ := startsWith_iff.1 ha
        rfl
      refine ⟨ha, by rw [he]; exact ha, ?_⟩
      intro r hr
      rw [he]
      rfl
    | none =>
      obtain ⟨rfl, hp, h⟩ := h
      refine ⟨startsWith_plus.2 hp, rfl, ?_⟩
      intro r hr
      show Columns r svc arg ↔ Columns r svc c!"+"
      unfold Columns
      obtain ⟨hc1, _, _⟩ := isRule_columns (hrules r hr)
      rcases h with rfl | h
      · rfl
      · constructor
        · rintro ⟨h1, h2⟩
          refine ⟨h1, ?_⟩
          rcases h2 with h2 | h2
          · exact Or.inl h2
          · rcases h1 with h1 | h1
            · rw [hc1 h1] at h2; cases h2
            · exact absurd h2 (h r hr h1).1
        · rintro ⟨h1, h2⟩
          refine ⟨h1, ?_⟩
          rcases h2 with h2 | h2
          · exact Or.inl h2
          · rcases h1 with h1 | h1
            · rw [hc1 h1] at h2; cases h2
            · exact absurd h2 (h r hr h1).2
  | none =>
    cases a? with
    | some a => exact absurd h id
    | none =>
      obtain ⟨hp, h⟩ := h
      refine ⟨startsWith_plus.2 hp, rfl, ?_⟩
      intro r hr
      show Columns r svc arg ↔ Columns r c!" " c!"+"
      unfold Columns
      obtain ⟨hc1, hc2, _⟩ := isRule_columns (hrules r hr)
      constructor
      · rintro ⟨h1, h2⟩
        rcases h1 with h1 | h1
        · exact ⟨Or.inl h1, Or.inl (hc1 h1)⟩
        · rcases h2 with h2 | h2
          · exact absurd h2 (h r hr h1).1
          · exact absurd h2 (h r hr h1).2
      · rintro ⟨h1, h2⟩
        rcases h1 with h1 | h1
        · exact ⟨Or.inl h1, Or.inl (hc1 h1)⟩
        · exact absurd (List.mem_singleton.2 rfl) (hc2 _ h1)

theorem shown_withCall {args : GraphArgs} {service : Option Str} {res : Resolution} {t l c svc arg : Str} :
    Shown args service (res.withCall svc arg) t l c ↔ Shown args service res t l c := by
  constructor
  · intro h
    cases res with
    | allow r =>
      generalize hz : Resolution.withCall (.allow r) svc arg = z at h
      cases h with
      | allow h1 h2 =>
        cases hz
        exact Shown.allow (r := r) h1 h2
      | ask => cases hz
    | ask r =>
      generalize hz : Resolution.withCall (.ask r) svc arg = z at h
      cases h with
      | allow h1 h2 => cases hz
      | ask h1 h2 h3 =>
        cases hz
        exact Shown.ask (r := r) h1 h2 h3
  · intro h
    cases h with
    | allow h1 h2 =>
      rename_i r t u n a
      exact Shown.allow (r := { r with request := withCall r.request svc arg }) h1 h2
    | ask h1 h2 h3 =>
      rename_i r t d u n a
      exact Shown.ask (r := { r with request := withCall r.request svc arg }) h1 h2 h3

/-- Some call is shown by each line considered. -/
theorem stands_some {args : GraphArgs} {rules : List Rule} (hrules : ∀ r ∈ rules, IsRule r)
    {entry : Option Str × Option Str} (hl : Listed args rules entry) : ∃ svc arg, Stands rules entry svc arg := by
  obtain ⟨s?, a?⟩ := entry
  cases s? with
  | some s =>
    cases a? with
    | some a => exact ⟨s, a, rfl, rfl⟩
    | none => exact ⟨s, c!"+", rfl, ⟨[], rfl⟩, Or.inl rfl⟩
  | none =>
    cases a? with
    | some a =>
      rcases hl.known with ⟨r, hr, e⟩ | ⟨x, _, _, e⟩ | ⟨x, _, s, a, _, _, e⟩
      · simp only [Prod.mk.injEq] at e
        have := (isRule_columns (hrules r hr)).1 e.1.symm
        rw [← e.2] at this
        cases this
      · cases e
      · cases e
    | none =>
      refine ⟨c!" ", c!"+", ⟨[], rfl⟩, ?_⟩
      intro r hr hs
      exact absurd (List.mem_singleton.2 rfl) ((isRule_columns (hrules r hr)).2.1 _ hs)

/-- **C76 (sound).** Every line of the graph describes a node or an edge, and an edge means what it says: each of the
calls it stands for (there is one), made from that source, gets from the policy an answer that is drawn in this
colour: red means allowed, orange means asked, and the edge points to the target the rule decides on. -/
theorem C76_sound (args : GraphArgs) (rules : List Rule) (hrules : ∀ r ∈ rules, IsRule r) (info : Info)
    (labels : Str → Option Str) (out : List Str) (h : graphMain args rules info labels = .ok out) :
    ∀ line ∈ out, IsNodeText line ∨ ∃ entry src tgt target label colour,
      line = edgeText src target label colour ∧ Listed args rules entry ∧ DrawnSource args info src ∧
      (∃ svc arg, Stands rules entry svc arg) ∧
      ∀ svc arg, Stands rules entry svc arg →
        ∃ res, CallResult rules info svc arg src tgt res ∧ Shown args entry.1 res target label colour := by
  intro line hline
  rcases (graphMain_iff h).1 line hline with hn | ⟨e, src, tgt, res, t, l, c, e1, hl, hsrc, _, hc, hs⟩
  · exact Or.inl hn
  · refine Or.inr ⟨e, src, tgt, t, l, c, e1, hl, hsrc, stands_some hrules hl, ?_⟩
    intro svc arg hst
    obtain ⟨h1, h2, h3⟩ := stands_columns hrules hl hst
    exact ⟨_, callResult_withCall hc h1 h3, shown_withCall.2 hs⟩

/-- **C76 (complete).** If the tool ends normally, every call from a source and to a target it considers, which the
policy allows (or asks about, with `--include-ask`), is drawn for every line that stands for it. -/
theorem C76_complete (args : GraphArgs) (rules : List Rule) (hrules : ∀ r ∈ rules, IsRule r) (info : Info)
    (labels : Str → Option Str) (out : List Str) (h : graphMain args rules info labels = .ok out)
    (entry : Option Str × Option Str) (hl : Listed args rules entry) (svc arg src tgt : Str)
    (hst : Stands rules entry svc arg) (hsrc : DrawnSource args info src) (htgt : DrawnTarget info tgt)
    (res : Resolution) (hres : CallResult rules info svc arg src tgt res) (target label colour : Str)
    (hs : Shown args entry.1 res target label colour) : edgeText src target label colour ∈ out := by
  obtain ⟨h1, h2, h3⟩ := stands_columns hrules hl hst
  have hc := callResult_withCall hres h2 (fun r hr => (h3 r hr).symm)
  exact (graphMain_iff h).2.1 entry src tgt _ target label colour hl hsrc htgt hc (shown_withCall.2 hs)

theorem findMatchingRule_isMatch {rules : List Rule} {req : Request} {r : Rule}
    (h : findMatchingRule req rules = .ok r) : r.isMatch req = .ok true := by
  induction rules with
  | nil => simp [findMatchingRule] at h
  | cons x xs ih =>
    simp only [findMatchingRule] at h
    split at h
    · simp at h
    · rename_i hx
      cases h
      exact hx
    · exact ih h

theorem columns_of_isMatch {r : Rule} {req : Request} (h : r.isMatch req = .ok true) :
    Columns r req.service req.argument := by
  unfold Rule.isMatch at h
  split at h
  · cases h
  · cases h
  · rename_i hm
    rw [isMatchButTarget_columns] at hm
    split_ifs at hm with hc
    · exact columns_iff.1 hc
    · cases hm

/-- **C76 (every call).** Every call the policy does not refuse, whatever service and argument, is shown by a line of
the policy that the graph considers, except for those in the gap. -/
theorem C76_covered (args : GraphArgs) (hargs : args.service = []) (rules : List Rule) (hrules : ∀ r ∈ rules, IsRule r)
    (info : Info) (svc arg src tgt : Str) (res : Resolution) (hres : CallResult rules info svc arg src tgt res)
    (hgap : ¬ Gap rules svc arg) : ∃ entry, Listed args rules entry ∧ Stands rules entry svc arg := by
  obtain ⟨req, h1, h2⟩ := hres
  obtain ⟨e1, e2, _, hp, _⟩ := mkRequest_ok h1
  have hp' := startsWith_plus.1 hp
  -- a rule for this call exists
  obtain ⟨r0, hr0, hc0⟩ : ∃ r ∈ rules, Columns r svc arg := by
    unfold evaluate at h2
    obtain ⟨r, hr, _⟩ := bind_eq_ok.1 h2
    refine ⟨r, findMatchingRule_mem hr, ?_⟩
    have := columns_of_isMatch (findMatchingRule_isMatch hr)
    rwa [e1, e2] at this
  by_cases hexact : ∃ r ∈ rules, r.service = some svc ∧ r.argument = some arg
  · obtain ⟨r, hr, hs, ha⟩ := hexact
    exact ⟨(some svc, some arg), ⟨Or.inl ⟨r, hr, by rw [hs, ha]⟩, Or.inl hargs⟩, rfl, rfl⟩
  by_cases hany : ∃ r ∈ rules, r.service = some svc ∧ r.argument = none
  · obtain ⟨r, hr, hs, ha⟩ := hany
    refine ⟨(some svc, none), ⟨Or.inl ⟨r, hr, by rw [hs, ha]⟩, Or.inl hargs⟩, rfl, hp', Or.inr ?_⟩
    intro x hx hxs
    refine ⟨fun hxa => hexact ⟨x, hx, hxs, hxa⟩, fun hxa => hgap ?_⟩
    exact ⟨⟨r, hr, hs, ha⟩, ⟨x, hx, hxs, hxa⟩, fun y hy hys hya => hexact ⟨y, hy, hys, hya⟩⟩
  · have hs : r0.service = none := by
      rcases hc0 with ⟨h3, h4⟩
      rcases h3 with h3 | h3
      · exact h3
      · rcases h4 with h4 | h4
        · exact absurd ⟨r0, hr0, h3, h4⟩ hany
        · exact absurd ⟨r0, hr0, h3, h4⟩ hexact
    refine ⟨(none, none), ⟨Or.inl ⟨r0, hr0, by rw [hs, (isRule_columns (hrules r0 hr0)).1 hs]⟩, Or.inl hargs⟩, hp', ?_⟩
    intro x hx hxs
    exact ⟨fun hxa => hany ⟨x, hx, hxs, hxa⟩, fun hxa => hexact ⟨x, hx, hxs, hxa⟩⟩

/-- **C76.** Without options, the graph has an edge for every call the policy allows, outside the gap. -/
theorem C76_allowed_drawn_partial (rules : List Rule) (hrules : ∀ r ∈ rules, IsRule r) (info : Info)
    (labels : Str → Option Str) (out : List Str) (h : graphMain {} rules info labels = .ok out)
    (svc arg src tgt : Str) (hsrc : DrawnSource {} info src) (htgt : DrawnTarget info tgt) (r : AllowRes)
    (hres : CallResult rules info svc arg src tgt (.allow r)) (hgap : ¬ Gap rules svc arg) :
    ∃ t u n a service, r.rule.action = .allow t u n a ∧ (service = svc ∨ service = c!"None") ∧
      edgeText src (t.getD r.request.target).str service c!"red" ∈ out := by
  obtain ⟨entry, hl, hst⟩ := C76_covered {} rfl rules hrules info svc arg src tgt _ hres hgap
  obtain ⟨req, h1, h2⟩ := hres
  obtain ⟨_, _, hsh⟩ := evaluate_shape h2
  rcases hsh with ⟨r', t, u, n, a, e, ha⟩ | ⟨r', t, d, u, n, a, e, _⟩
  · cases e
    refine ⟨t, u, n, a, entry.1.getD c!"None", ha, ?_, ?_⟩
    · obtain ⟨s?, a?⟩ := entry
      cases s? with
      | none => exact Or.inr rfl
      | some s =>
        cases a? with
        | none => exact Or.inl hst.1.symm
        | some a => exact Or.inl hst.1.symm
    · have := C76_complete {} rules hrules info labels out h entry hl svc arg src tgt hst hsrc htgt _ ⟨req, h1, h2⟩
        _ _ _ (Shown.allow (args := {}) (service := entry.1) (r := r) ha (Or.inl rfl))
      have el : edgeLabel {} entry.1 r.rule = entry.1.getD c!"None" := by simp [edgeLabel]
      rw [el] at this
      exact this
  · cases e

/-- **C76.** No line is written twice. -/
theorem C76_once (args : GraphArgs) (rules : List Rule) (info : Info) (labels : Str → Option Str) (out : List Str)
    (h : graphMain args rules info labels = .ok out) : out.Nodup := (graphMain_iff h).2.2

/-- The text is these lines, each followed by a newline. -/
def LinesOf (text : Str) (ls : List Str) : Prop :=
  text = ls.flatMap (· ++ c!"\n")

/-- **C76, the file.** The whole output is `digraph g {`, the lines of the graph, `}`, each on a line of its own. -/
theorem C76_text (args : GraphArgs) (rules : List Rule) (info : Info) (labels : Str → Option Str) (text : Str)
    (h : graphText args rules info labels = .ok text) :
    ∃ out, graphMain args rules info labels = .ok out ∧ ∃ body : List Str, out = body.map (· ++ c!"\n") ∧
      LinesOf text ([c!"digraph g {"] ++ body ++ [c!"}"]) := by
  unfold graphText at h
  obtain ⟨out, ho, h⟩ := bind_eq_ok.1 h
  refine ⟨out, ho, ?_⟩
  cases h
  have key : ∀ ls : List Str, (∀ l ∈ ls, ∃ b, l = b ++ c!"\n") → ∃ body : List Str, ls = body.map (· ++ c!"\n") := by
    intro ls
    induction ls with
    | nil => intro _; exact ⟨[], rfl⟩
    | cons l ls ih =>
      intro hl
      obtain ⟨b, rfl⟩ := hl l (List.mem_cons_self ..)
      obtain ⟨bs, hbs⟩ := ih (fun x hx => hl x (List.mem_cons_of_mem _ hx))
      exact ⟨b :: bs, by rw [hbs]; rfl⟩
  obtain ⟨body, hb⟩ := key out (by
    intro l hl
    rcases (graphMain_iff ho).1 l hl with ⟨n, a, rfl⟩ | ⟨_, src, _, _, t, lb, c, rfl, _⟩
    · exact ⟨c!"  \"" ++ n ++ c!"\" [" ++ a ++ c!"];", by simp⟩
    · exact ⟨c!"  \"" ++ src ++ c!"\" -> \"" ++ t ++ c!"\" [label=\"" ++ lb ++ c!"\" color=" ++ c ++ c!"];",
        by simp [edgeText]⟩)
  refine ⟨body, hb, ?_⟩
  unfold LinesOf
  rw [hb, List.flatMap_append, List.flatMap_append, List.flatMap_def (l := body)]
  rfl

/-- The gap is real: `work` may call `svc+x`, and the graph is empty. -/
theorem C76_gap :
    let deny : Rule := { exDeny with source := .wildcard, argument := some c!"+" }
    (∃ r, CallResult [deny, exAllow] exInfo c!"svc" c!"+x" c!"work" c!"vault" (.allow r)) ∧
    graphMain {} [deny, exAllow] exInfo (fun _ => some c!"0xff0000") = .ok [] := by
  refine ⟨⟨_, _, rfl, rfl⟩, by decide⟩

/-- `--service` makes the tool fail if the policy has any rule for all services. -/
theorem C76_service_crash (args : GraphArgs) (hargs : args.service ≠ []) (rules : List Rule) (info : Info)
    (labels : Str → Option Str) (r : Rule) (hr : r ∈ rules) (hs : r.service = none) (out : List Str) :
    graphMain args rules info labels ≠ .ok out := by
  intro h
  unfold graphMain at h
  obtain ⟨lines, hl, h⟩ := bind_eq_ok.1 h
  have he : (r.service, r.argument) ∈ graphServices args rules := by
    unfold graphServices
    rw [mem_sortBy, mem_addAll]
    exact Or.inr (List.mem_append.2 (Or.inl (List.mem_map.2 ⟨r, hr, rfl⟩)))
  obtain ⟨ys, hys⟩ := concatMapE_each hl _ he
  unfold graphService graphSkip at hys
  rw [if_neg (by simpa using hargs)] at hys
  simp only [hs, error_bind] at hys
  cases hys

/-- A rule naming `@dispvm:dvm` makes the tool fail when some qube has no default disposable template. -/
theorem C76_dispvm_crash :
    graphMain {} [{ exAllow with target := .dispvmTemplate c!"dvm" }] exInfo (fun _ => some c!"0xff0000") =
      .error .attributeError := by decide

theorem exAllow_isRule : IsRule exAllow :=
  ⟨some c!"svc", some c!"*", c!"@anyvm", c!"@anyvm", c!"allow", [], [], by decide⟩

/-- A graph with an edge: the policy allows `svc` between all qubes except from `vault`. -/
example : ∃ out, graphMain {} [exDeny, exAllow] exInfo (fun _ => some c!"0xff0000") = .ok out ∧
    edgeText c!"work" c!"vault" c!"svc" c!"red" ∈ out ∧ edgeText c!"vault" c!"work" c!"svc" c!"red" ∉ out ∧
    (∀ r ∈ [exDeny, exAllow], IsRule r) ∧ DrawnSource {} exInfo c!"work" ∧ DrawnTarget exInfo c!"vault" ∧
    ¬ Gap [exDeny, exAllow] c!"svc" c!"+x" ∧
    ∃ r, CallResult [exDeny, exAllow] exInfo c!"svc" c!"+x" c!"work" c!"vault" (.allow r) := by
  refine ⟨_, rfl, by decide, by decide, ?_, Or.inr ⟨rfl, by decide, ?_⟩, Or.inl ⟨by decide, ?_⟩, ?_, ⟨_, _, rfl, rfl⟩⟩
  · intro r hr
    rcases List.mem_cons.1 hr with rfl | hr
    · exact ⟨some c!"svc", some c!"*", c!"vault", c!"@anyvm", c!"deny", [], [], by decide⟩
    · rw [List.mem_singleton.1 hr]
      exact exAllow_isRule
  · rintro ⟨t, h⟩; cases h
  · rintro ⟨t, h⟩; cases h
  · rintro ⟨_, ⟨r, hr, _, h⟩, _⟩
    rcases List.mem_cons.1 hr with rfl | hr
    · cases h
    · rw [List.mem_singleton.1 hr] at h
      cases h

end Qrexec
