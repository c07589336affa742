import Verif.Lemmas.Total
import Verif.Props.Ask

/-!
# C11, C29, C30: totality, isolation, deny monotonicity
-/
namespace Qrexec
open Spec

/-! ## C11 -/

/-- **C11 (part).** In a consistent state, for rules and requests that come from the parsers,
evaluation ends with a resolution or a refusal, provided that
* a plain `@dispvm` request comes from a source with a default disposable template,
* the templates named by `@dispvm:T` in the policy exist,
* an `ask target=X autostart=no` names an existing `X`.
Each proviso is needed: `C11_violated_no_default`, `C11_violated_missing_template`,
`C11_violated_ask_target` are the exceptions raised without them. -/
theorem C11_total_partial (rules : List Rule) (req : Request) (hs : SystemInfo req.info)
    (hrules : ∀ r ∈ rules, IsRule r) (hq : IsRequest req) (hd : DispvmReady req)
    (hsrc : ∃ d, req.info.get? req.source = some d)
    (hex : ∀ r ∈ rules, ∀ v, AboutTarget r (.dispvmTemplate v) → ∃ d, req.info.get? v = some d)
    (hask : ∀ r ∈ rules, ∀ t d u n, r.action = .ask (some t) d u n false →
      Dom0 t.str ∨ (∃ s, t.str = c!"@dispvm" ++ s) ∨ req.info.get? t.str ≠ none) :
    (∃ res, evaluate rules req = .ok res) ∨
    ∃ e, evaluate rules req = .error e ∧ e.isAccessDenied = true := by
  have ht := isRequest_targetExists hq
  by_cases hm : ¬ ∃ r ∈ rules, RuleMatches r req
  · refine Or.inr ⟨_, C02_default_deny rules req hs.ordinary hd ht (fun r hr h => hm ⟨r, hr, h⟩), rfl⟩
  -- split at the first match
  have hm := Classical.not_not.1 hm
  have hfm : ∃ r pre post, FirstMatch rules pre r post req := by
    have : ∀ l : List Rule, (∃ r ∈ l, RuleMatches r req) →
        ∃ r pre post, FirstMatch l pre r post req := by
      intro l
      induction l with
      | nil => rintro ⟨r, h, _⟩; simp at h
      | cons y ys ih =>
        rintro ⟨r, hr, hrm⟩
        by_cases hy : RuleMatches y req
        · exact ⟨y, [], ys, rfl, by simp, hy⟩
        · rcases List.mem_cons.1 hr with rfl | hr
          · exact absurd hrm hy
          · obtain ⟨r', pre, post, rfl, hb, hh⟩ := ih ⟨r, hr, hrm⟩
            refine ⟨r', y :: pre, post, rfl, ?_, hh⟩
            intro z hz
            rcases List.mem_cons.1 hz with rfl | hz
            · exact hy
            · exact hb z hz
    exact this rules hm
  obtain ⟨r, pre, post, hf⟩ := hfm
  have hr : r ∈ rules := by rw [hf.split]; simp
  have hmt := (isMatch_true_iff hs.ordinary hd ht).2 hf.here
  unfold evaluate
  rw [findMatchingRule_of hs.ordinary hd ht hf]
  simp only [ok_bind, evalAction]
  cases ha : r.action with
  | deny n => exact Or.inr ⟨_, rfl, rfl⟩
  | allow t u n a =>
    simp only
    cases h : evalAllow r t u n a req with
    | ok res => exact Or.inl ⟨_, rfl⟩
    | error e => exact Or.inr ⟨e, rfl, evalAllow_error (hrules r hr) hq ha hmt h⟩
  | ask t d u n a =>
    simp only
    have htargets : ∃ ts0, askTargets rules t req = .ok ts0 ∧
        (a = false → ∀ x ∈ ts0, Dom0 x ∨ (∃ s, x = c!"@dispvm" ++ s) ∨ req.info.get? x ≠ none) := by
      cases t with
      | none =>
        obtain ⟨dd, hdd⟩ := hsrc
        obtain ⟨ts0, h0⟩ := collectLoop_total hs (l := rules.reverse) (by
          intro y hy v hv
          exact hex y (by simpa using hy) v ((aboutTarget_iff y _).2 hv)) []
        obtain ⟨ts, hts⟩ := collectTargets_total hs hdd h0
        exact ⟨ts, hts, fun _ => collectTargets_auto hs hts⟩
      | some t =>
        refine ⟨_, rfl, ?_⟩
        rintro rfl x hx
        have := hask r hr t d u n ha
        split_ifs at hx with h0
        · simp at hx; subst hx; exact Or.inl (Or.inl rfl)
        · simp at hx; subst hx; exact this
    obtain ⟨ts0, h0, h0a⟩ := htargets
    obtain ⟨ts, hts⟩ := autostartFilter_total (info := req.info) h0a
    obtain ⟨dt, hdt⟩ := askDefault_total hs d
    simp only [evalAsk, hmt, require, ok_bind, if_true, h0, hts, hdt, pure_ok]
    by_cases he : ts.isEmpty = true
    · exact Or.inr ⟨.accessDenied true, by simp [he, Except.map], rfl⟩
    · exact Or.inl ⟨_, by simp [he, Except.map]; rfl⟩

example : SystemInfo (exReq c!"work" .dispvm).info ∧ IsRequest (exReq c!"work" .dispvm) ∧
    DispvmReady (exReq c!"work" .dispvm) ∧
    (∃ d, (exReq c!"work" .dispvm).info.get? (exReq c!"work" .dispvm).source = some d) ∧
    IsRule exAsk := by
  refine ⟨exInfo_system, ⟨c!"work", c!"@dispvm", by decide⟩,
    fun _ => ⟨c!"dvm", _, ⟨_, rfl, rfl⟩, by decide, by decide, rfl⟩, ⟨_, rfl⟩, ?_⟩
  exact ⟨some c!"svc", some c!"*", c!"@anyvm", c!"@anyvm", c!"ask", [c!"default_target=vault"], [],
    by decide⟩

/-- A `@dispvm:T` rule and a plain `@dispvm` request from a domain without default disposable
template: `AttributeError`. -/
theorem C11_violated_no_default :
    evaluate [{ exAllow with target := .dispvmTemplate c!"dvm" }] (exReq c!"vault" .dispvm) =
      .error .attributeError := by decide

/-- A deny rule for a template that does not exist makes an unrelated question fail with
`KeyError`. -/
theorem C11_violated_missing_template :
    evaluate [{ exDeny with source := .wildcard, target := .dispvmTemplate c!"gone" }, exAsk]
      (exReq c!"work" (.name c!"vault")) = .error .keyError := by decide

/-- `ask target=gone autostart=no`: `AssertionError`. -/
theorem C11_violated_ask_target :
    evaluate [{ exAsk with action := .ask (some (.name c!"gone")) none none false false }]
      (exReq c!"work" (.name c!"vault")) = .error .assertion := by decide

/-! ## C29 -/

/-- **C29.** A rule whose service, argument or source column does not match has no influence on
the outcome whatsoever: resolution (with the offered targets) or error are identical without
it. -/
theorem C29_irrelevant_rule (pre post : List Rule) (x : Rule) (req : Request)
    (hn : OrdinaryNames req.info) (hx : ¬ AppliesTo x req) :
    evaluate (pre ++ x :: post) req = evaluate (pre ++ post) req := by
  have hx' := (isMatchButTarget_false_iff hn).2 hx
  have hxm : x.isMatch req = .ok false := by simp [Rule.isMatch, hx']
  have hfind : findMatchingRule req (pre ++ x :: post) = findMatchingRule req (pre ++ post) := by
    induction pre with
    | nil => simp [findMatchingRule, hxm]
    | cons y ys ih => simp only [List.cons_append, findMatchingRule, ih]
  have hloop : collectLoop req (pre ++ x :: post).reverse [] =
      collectLoop req (pre ++ post).reverse [] := by
    simp only [List.reverse_append, List.reverse_cons, List.append_assoc]
    rw [collectLoop_append, collectLoop_append]
    congr 1
    funext acc
    rw [List.singleton_append, collectLoop, hx']
  have hcoll : collectTargets (pre ++ x :: post) req = collectTargets (pre ++ post) req := by
    unfold collectTargets; rw [hloop]
  unfold evaluate
  rw [hfind]
  congr 1
  funext r
  unfold evalAction
  split
  · rfl
  · rfl
  · simp only [evalAsk, askTargets, hcoll]

example : ¬ AppliesTo exDeny (exReq c!"work" (.name c!"vault")) := by
  rw [← isMatchButTarget_false_iff exInfo_ordinary]; decide

/-! ## C30 -/

/-- `a` grants at most what `b` grants: the same allow, or a question by the same rule with no
additional target and no other preselection. -/
inductive AtMost : Resolution → Resolution → Prop
  | allow {r} : AtMost (.allow r) (.allow r)
  | ask {a b : AskRes} : a.rule = b.rule → a.request = b.request → a.user = b.user →
      a.autostart = b.autostart → (∀ x ∈ a.targetsForAsk, x ∈ b.targetsForAsk) →
      (∀ x, a.defaultTarget = some x → b.defaultTarget = some x) → AtMost (.ask a) (.ask b)

theorem firstSpeaker_without_deny {pre post : List Rule} {x : Rule} {req : Request} {n : Bool}
    (hx : x.action = .deny n) {y : Str} (h : FirstSpeakerNotDeny (pre ++ x :: post) req y) :
    FirstSpeakerNotDeny (pre ++ post) req y := by
  induction pre with
  | nil =>
    rw [List.nil_append, firstSpeaker_cons] at h
    rcases h with ⟨_, h⟩ | ⟨_, h⟩
    · exact absurd hx (h n)
    · exact h
  | cons z zs ih =>
    rw [List.cons_append, firstSpeaker_cons] at h ⊢
    rcases h with h | ⟨h1, h2⟩
    · exact Or.inl h
    · exact Or.inr ⟨h1, ih h2⟩

theorem findMatchingRule_without_deny {req : Request} {pre post : List Rule} {x r : Rule}
    {n : Bool} (hr : ∀ m, r.action ≠ .deny m) (hx : x.action = .deny n)
    (h : findMatchingRule req (pre ++ x :: post) = .ok r) :
    findMatchingRule req (pre ++ post) = .ok r := by
  induction pre with
  | nil =>
    simp only [List.nil_append, findMatchingRule] at h ⊢
    split at h
    · simp at h
    · cases h
      exact absurd hx (hr n)
    · exact h
  | cons y ys ih =>
    simp only [List.cons_append, findMatchingRule] at h ⊢
    split at h
    · simp at h
    · exact h
    · exact ih h

/-- **C30.** Inserting a deny rule anywhere never grants anything: if the policy with it yields
a resolution, the policy without it yields the same allow, or the same question with at least
the same targets. -/
theorem C30_deny_never_grants (pre post : List Rule) (x : Rule) (n : Bool)
    (hx : x.action = .deny n) (req : Request) (hs : SystemInfo req.info)
    (res' : Resolution) (h : evaluate (pre ++ x :: post) req = .ok res') :
    ∃ res, evaluate (pre ++ post) req = .ok res ∧ AtMost res' res := by
  unfold evaluate at h ⊢
  obtain ⟨r, hr, h⟩ := bind_eq_ok.1 h
  -- the deciding rule is the same
  have hnd : ∀ m, r.action ≠ .deny m := by
    intro m hm
    simp [evalAction, hm] at h
  have hfind := findMatchingRule_without_deny hnd hx hr
  rw [hfind]
  simp only [ok_bind]
  unfold evalAction at h ⊢
  split at h
  · simp at h
  · exact ⟨res', h, by obtain ⟨a, _, rfl⟩ := map_eq_ok.1 h; exact .allow⟩
  · rename_i t d u nn a hact
    obtain ⟨ar, har, rfl⟩ := map_eq_ok.1 h
    obtain ⟨hm, ts0, ts, dt, h0, hf, hne, hd, rfl⟩ := evalAsk_ok har
    -- the targets without the deny rule
    have hw : ∃ ts0', askTargets (pre ++ post) t req = .ok ts0' ∧ (∀ y ∈ ts0, y ∈ ts0') ∧
        ∃ ts', autostartFilter req.info a ts0' = .ok ts' := by
      cases t with
      | some t => exact ⟨ts0, h0, fun _ h => h, ts, hf⟩
      | none =>
        simp only [askTargets] at h0 ⊢
        have h00 := h0
        unfold collectTargets at h0
        simp only [bind_eq_ok] at h0
        obtain ⟨names, hn, l0, hl0, _⟩ := h0
        have hsrc : ∃ d, req.info.get? req.source = some d := by
          unfold sourceNames at hn
          obtain ⟨d, hd, _⟩ := bind_eq_ok.1 hn
          exact ⟨d, lookup_eq_ok.1 hd⟩
        obtain ⟨ds, hds⟩ := hsrc
        -- the loop without the deny rule succeeds
        have hexp : ∀ (l1 l2 : List Rule) (acc out : List Str),
            collectLoop req (l1 ++ x :: l2) acc = .ok out →
            ∀ acc', ∃ out', collectLoop req (l1 ++ l2) acc' = .ok out' := by
          have skip : ∀ (l : List Rule) (acc out : List Str), collectLoop req l acc = .ok out →
              ∀ acc', ∃ out', collectLoop req l acc' = .ok out' := by
            intro l
            induction l with
            | nil => intro acc out _ acc'; exact ⟨acc', rfl⟩
            | cons y ys ih =>
              intro acc out ho acc'
              simp only [collectLoop] at ho ⊢
              split at ho
              · simp at ho
              · exact ih _ _ ho acc'
              · split at ho
                · simp at ho
                · split_ifs at ho ⊢ <;> exact ih _ _ ho _
          intro l1
          induction l1 with
          | nil =>
            intro l2 acc out ho acc'
            simp only [List.nil_append, collectLoop] at ho ⊢
            split at ho
            · simp at ho
            · exact skip _ _ _ ho acc'
            · split at ho
              · simp at ho
              · split_ifs at ho <;> exact skip _ _ _ ho acc'
          | cons y ys ih =>
            intro l2 acc out ho acc'
            simp only [List.cons_append, collectLoop] at ho ⊢
            split at ho
            · simp at ho
            · exact ih _ _ _ ho acc'
            · split at ho
              · simp at ho
              · split_ifs at ho ⊢ <;> exact ih _ _ _ ho _
        have hrev : (pre ++ x :: post).reverse = post.reverse ++ x :: pre.reverse := by simp
        rw [hrev] at hl0
        obtain ⟨l0', hl0'⟩ := hexp _ _ _ _ hl0 []
        rw [← List.reverse_append] at hl0'
        obtain ⟨ts0', hts0'⟩ := collectTargets_total hs hds hl0'
        refine ⟨ts0', hts0', ?_, autostartFilter_total fun _ => collectTargets_auto hs hts0'⟩
        intro y hy
        obtain ⟨hA, hB, hC⟩ := (collectTargets_mem hs h00 y).1 hy
        refine (collectTargets_mem hs hts0' y).2 ⟨?_, hB, hC⟩
        rcases hA with ⟨h1, h2⟩ | ⟨h1, h2⟩ | ⟨h1, h2⟩
        · exact Or.inl ⟨firstSpeaker_without_deny hx h1, h2⟩
        · exact Or.inr (Or.inl ⟨firstSpeaker_without_deny hx h1, h2⟩)
        · exact Or.inr (Or.inr ⟨firstSpeaker_without_deny hx h1, h2⟩)
    obtain ⟨ts0', h0', hsub0, ts', hf'⟩ := hw
    have hsub : ∀ y ∈ ts, y ∈ ts' := by
      intro y hy
      obtain ⟨h1, h2⟩ := (autostartFilter_ok hs.ordinary hf y).1 hy
      exact (autostartFilter_ok hs.ordinary hf' y).2 ⟨hsub0 y h1, h2⟩
    have hne' : ts'.isEmpty = false := by
      cases ts with
      | nil => exact absurd rfl hne
      | cons y ys =>
        have := hsub y (by simp)
        cases ts' with
        | nil => simp at this
        | cons => rfl
    refine ⟨_, by simp only [evalAsk, hm, require, ok_bind, if_true, h0', hf', hne', hd, pure_ok,
      Bool.not_false, Except.map]; rfl, ?_⟩
    refine .ask rfl rfl rfl rfl hsub ?_
    intro y hy
    simp only [Option.filter_eq_some_iff, List.contains_iff_mem] at hy ⊢
    exact ⟨hy.1, hsub y hy.2⟩

/-- **C30.** If the policy with the deny rule refuses nothing more... stated for the allow case:
a request that is allowed with the deny rule present is allowed without it, to the same
target. -/
theorem C30_allow_unchanged (pre post : List Rule) (x : Rule) (n : Bool)
    (hx : x.action = .deny n) (req : Request) (hs : SystemInfo req.info)
    (res : AllowRes) (h : evaluate (pre ++ x :: post) req = .ok (.allow res)) :
    evaluate (pre ++ post) req = .ok (.allow res) := by
  obtain ⟨res2, h2, h3⟩ := C30_deny_never_grants pre post x n hx req hs _ h
  cases h3
  exact h2

example : ∃ res, evaluate ([exAsk] ++ exDeny :: []) (exReq c!"work" (.name c!"vault")) = .ok res :=
  ⟨_, rfl⟩

end Qrexec
