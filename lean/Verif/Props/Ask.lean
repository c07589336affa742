import Verif.Lemmas.Collect
import Verif.Props.Eval

/-!
# C13 (ask), C14, C15, C17: what an ask rule offers
-/
namespace Qrexec
open Spec

/-! ## The system state as qubesd reports it is consistent -/

theorem set_keys_mem (info : Info) (k x : Str) (d : Dom) :
    x ∈ (info.set k d).map Prod.fst ↔ x = k ∨ x ∈ info.map Prod.fst := by
  induction info with
  | nil => simp [Info.set]
  | cons e rest ih =>
    obtain ⟨a, b⟩ := e
    simp only [Info.set]
    split_ifs with h
    · subst h; simp
    · simp only [List.map_cons, List.mem_cons, ih]
      tauto

theorem set_nodup (info : Info) (k : Str) (d : Dom) (h : (info.map Prod.fst).Nodup) :
    ((info.set k d).map Prod.fst).Nodup := by
  induction info with
  | nil => simp [Info.set]
  | cons e rest ih =>
    obtain ⟨a, b⟩ := e
    simp only [List.map_cons, List.nodup_cons] at h
    simp only [Info.set]
    split_ifs with hk
    · simp only [List.map_cons, List.nodup_cons]; exact h
    · simp only [List.map_cons, List.nodup_cons]
      refine ⟨?_, ih h.2⟩
      rw [set_keys_mem]
      rintro (h' | h')
      · exact hk h'
      · exact h.1 h'

theorem addUuidKeys_nodup (l : List (Str × Dom)) (acc : Info) (h : (acc.map Prod.fst).Nodup) :
    ((addUuidKeys l acc).map Prod.fst).Nodup := by
  induction l generalizing acc with
  | nil => exact h
  | cons e rest ih =>
    obtain ⟨a, b⟩ := e
    rcases Option.eq_none_or_eq_some b.uuid with hu | ⟨u, hu⟩
    · rw [addUuidKeys_none hu]; exact ih _ (set_nodup _ _ _ h)
    · rw [addUuidKeys_some hu]; exact ih _ (set_nodup _ _ _ (set_nodup _ _ _ h))

/-- What qubesd sends, completely: as `GoodJson`, every domain has a UUID, dom0 is there, and
default disposable templates exist. -/
structure CompleteJson (json : List (Str × Dom)) : Prop extends GoodJson json where
  allUuids : ∀ x ∈ json, x.2.uuid ≠ none
  hasDom0 : ∃ x ∈ json, x.1 = c!"dom0"
  defaults : ∀ x ∈ json, ∀ t ∈ x.2.defaultDispvm, t ∈ json.map Prod.fst

theorem getSystemInfo_entries {json : List (Str × Dom)} (h : GoodJson json) :
    (∀ k d, IsDomain (getSystemInfo json) k d ↔ ∃ d', (k, d') ∈ json ∧ d = { d' with name := k }) ∧
    (∀ u d, (getSystemInfo json).get? (c!"uuid:" ++ u) = some d ↔
      ∃ k d', (k, d') ∈ json ∧ d'.uuid = some u ∧ d = { d' with name := k }) := by
  have hl : ∀ x ∈ json, ¬ IsUuid x.1 := fun x hx => (h.ordinary x hx).2.2.2
  constructor
  · intro k d
    constructor
    · rintro ⟨hd, hk⟩
      obtain ⟨i1, i2⟩ := addUuidKeys_get_name json h.names json k hk
      by_cases hm : k ∈ json.map Prod.fst
      · obtain ⟨⟨k', d'⟩, hx, rfl⟩ := List.mem_map.1 hm
        refine ⟨d', hx, ?_⟩
        unfold getSystemInfo at hd
        rw [i1 d' hx] at hd
        exact (Option.some.inj hd).symm
      · unfold getSystemInfo at hd
        rw [i2 hm] at hd
        exact absurd (List.mem_map.2 ⟨_, get?_mem hd, rfl⟩) hm
    · rintro ⟨d', hm, rfl⟩
      exact ⟨(addUuidKeys_get_name json h.names json k (hl _ hm)).1 d' hm, hl _ hm⟩
  · intro u d
    obtain ⟨i1, i2⟩ := addUuidKeys_get_uuid json hl h.uuids h.names json u
    constructor
    · intro hd
      unfold getSystemInfo at hd
      by_cases hm : ∃ x ∈ json, x.2.uuid = some u
      · obtain ⟨⟨k, d'⟩, hx, hu⟩ := hm
        rw [i1 k d' hx hu] at hd
        exact ⟨k, d', hx, hu, (Option.some.inj hd).symm⟩
      · rw [i2 (fun x hx hu => hm ⟨x, hx, hu⟩)] at hd
        exact absurd ⟨u, rfl⟩ (hl _ (get?_mem hd))
    · rintro ⟨k, d', hm, hu, rfl⟩
      exact i1 k d' hm hu

/-- Every complete answer of qubesd gives a consistent state. -/
theorem systemInfo_of_json (json : List (Str × Dom)) (h : CompleteJson json) :
    SystemInfo (getSystemInfo json) := by
  obtain ⟨e1, e2⟩ := getSystemInfo_entries h.toGoodJson
  have hx : ∀ k d, (getSystemInfo json).get? k = some d → ∃ k' d', (k', d') ∈ json ∧
      d = { d' with name := k' } := by
    intro k d hd
    by_cases hk : IsUuid k
    · obtain ⟨u, rfl⟩ := hk
      obtain ⟨k', d', hm, _, rfl⟩ := (e2 u d).1 hd
      exact ⟨k', d', hm, rfl⟩
    · obtain ⟨d', hm, rfl⟩ := (e1 k d).1 ⟨hd, hk⟩
      exact ⟨k, d', hm, rfl⟩
  refine ⟨?_, (C08_system_info_consistent json h.toGoodJson).2, ?_, ?_, ?_, ?_, ?_⟩
  · exact addUuidKeys_nodup _ _ h.names
  · intro k d hd
    obtain ⟨d', _, rfl⟩ := (e1 k d).1 hd
    rfl
  · intro k d hd
    obtain ⟨k', d', hm, rfl⟩ := hx k d hd
    obtain ⟨u, hu⟩ := Option.ne_none_iff_exists'.1 (h.allUuids _ hm)
    exact ⟨u, hu, (e2 u _).2 ⟨k', d', hm, hu, rfl⟩⟩
  · intro u d hd
    obtain ⟨k', d', hm, hu, rfl⟩ := (e2 u d).1 hd
    exact ⟨hu, (e1 k' _).2 ⟨d', hm, rfl⟩⟩
  · obtain ⟨⟨k, d⟩, hm, hk⟩ := h.hasDom0
    simp only at hk; subst hk
    have := (h.dom0 _ hm (h.allUuids _ hm)).1 rfl
    exact ⟨_, ((e1 _ _).2 ⟨d, hm, rfl⟩).1, this⟩
  · intro k d t hd ht
    obtain ⟨k', d', hm, rfl⟩ := hx k d hd
    obtain ⟨⟨t', d2⟩, hm2, rfl⟩ := List.mem_map.1 (h.defaults _ hm t ht)
    exact ⟨_, (e1 _ _).2 ⟨d2, hm2, rfl⟩⟩

theorem exJson_complete : CompleteJson exJson :=
  { exJson_good with allUuids := by decide, hasDom0 := by decide, defaults := by decide }

theorem exInfo_system : SystemInfo exInfo := systemInfo_of_json exJson exJson_complete

/-! ## C13 for ask -/

/-- **C13.** With `autostart=no` every target an ask offers is dom0 or running at evaluation
time, and none is a disposable. -/
theorem C13_ask_no_autostart (rules : List Rule) (req : Request) (hn : OrdinaryNames req.info)
    (res : AskRes) (h : evaluate rules req = .ok (.ask res)) (ha : res.autostart = false) :
    ∀ x ∈ res.targetsForAsk, NoStartNeeded req.info x ∧ ¬ ∃ t, x = c!"@dispvm" ++ t := by
  unfold evaluate at h
  obtain ⟨r, _, h⟩ := bind_eq_ok.1 h
  unfold evalAction at h
  split at h
  · simp at h
  · obtain ⟨_, _, h⟩ := map_eq_ok.1 h; simp at h
  · obtain ⟨res', h, he⟩ := map_eq_ok.1 h
    cases he
    obtain ⟨_, ts0, ts, dt, _, hf, _, _, rfl⟩ := evalAsk_ok h
    intro x hx
    have := ((autostartFilter_ok hn hf x).1 hx).2 ha
    refine ⟨this, ?_⟩
    rintro ⟨t, rfl⟩
    rcases this with h0 | ⟨d, hd, _⟩
    · simp [Dom0] at h0
    · exact absurd rfl (hn _ _ hd).2.1

/-- An ask rule of the policy (any of its first matching ones) offering targets. -/
def exAsk : Rule :=
  { service := some c!"svc", argument := none, source := .anyvm, target := .anyvm,
    action := .ask none (some (.name c!"vault")) none false true }

def exAskNoStart : Rule :=
  { exAsk with action := .ask none none none false false }

example : ∃ res, evaluate [exAskNoStart] (exReq c!"vault" (.name c!"work")) = .ok (.ask res) ∧
    res.autostart = false ∧ res.targetsForAsk = [c!"work"] := by
  exact ⟨_, rfl, rfl, by decide⟩

/-! ## C14 -/

/-- An ask that was decided without `target=`. -/
theorem ask_without_redirect {rules : List Rule} {req : Request} {res : AskRes}
    (h : evaluate rules req = .ok (.ask res))
    (hr : ∀ t d u n a, res.rule.action ≠ .ask (some t) d u n a) :
    ∃ ts0 dt d u n, res.rule.action = .ask none d u n res.autostart ∧
      collectTargets rules req = .ok ts0 ∧
      autostartFilter req.info res.autostart ts0 = .ok res.targetsForAsk ∧
      askDefault req d = .ok dt ∧
      res.defaultTarget = dt.filter (fun t => res.targetsForAsk.contains t) := by
  unfold evaluate at h
  obtain ⟨r, _, h⟩ := bind_eq_ok.1 h
  unfold evalAction at h
  split at h
  · simp at h
  · obtain ⟨_, _, h⟩ := map_eq_ok.1 h; simp at h
  · rename_i t d u n a hact
    obtain ⟨res', h, he⟩ := map_eq_ok.1 h
    cases he
    obtain ⟨_, ts0, ts, dt, h0, hf, _, hd, rfl⟩ := evalAsk_ok h
    cases t with
    | some t => exact absurd hact (hr t d u n a)
    | none => exact ⟨ts0, dt, d, u, n, hact, h0, hf, hd, rfl⟩

/-- **C14.** Every target offered by an ask without redirect is an existing domain name or
`@dispvm:` and an existing domain, is not the calling domain under any of its designations, is
not internal and is never a bare keyword. -/
theorem C14_offered_targets_valid (rules : List Rule) (req : Request) (hs : SystemInfo req.info)
    (res : AskRes) (h : evaluate rules req = .ok (.ask res))
    (hr : ∀ t d u n a, res.rule.action ≠ .ask (some t) d u n a) :
    ∀ x ∈ res.targetsForAsk,
      (∃ k d, req.info.get? k = some d ∧ d.internal = false ∧ (x = k ∨ x = c!"@dispvm:" ++ k)) ∧
      ¬ SameDomain req.info x req.source ∧
      x ≠ c!"@dispvm" ∧ x ≠ c!"@adminvm" ∧ x ≠ c!"@default" := by
  obtain ⟨ts0, dt, d, u, n, _, hc, hf, _⟩ := ask_without_redirect h hr
  intro x hx
  have hx0 := ((autostartFilter_ok hs.ordinary hf x).1 hx).1
  obtain ⟨_, ⟨d, hd, hne, hne2, hne3⟩, d2, hd2, hi⟩ := (collectTargets_mem hs hc x).1 hx0
  have hk : ∃ k d, req.info.get? k = some d ∧ d.internal = false ∧
      (x = k ∨ x = c!"@dispvm:" ++ k) := by
    refine ⟨baseOf x, d2, hd2, hi, ?_⟩
    unfold baseOf
    split_ifs with hsw
    · obtain ⟨t, rfl⟩ := startsWith_iff.1 hsw
      exact Or.inr rfl
    · exact Or.inl rfl
  have hkw : ∀ y : Str, y.head? = some '@' → (∀ t, y ≠ c!"@dispvm:" ++ t) → x ≠ y := by
    rintro y hy hyd rfl
    obtain ⟨k, d', hk', _, rfl | rfl⟩ := hk
    · exact absurd hy (hs.ordinary _ _ hk').2.1
    · exact absurd rfl (hyd k)
  refine ⟨hk, ?_, hkw _ rfl (by simp), hkw _ rfl (by simp), hkw _ rfl (by simp)⟩
  rintro (hsd | ⟨u, rfl, hsu, d', hd', hu'⟩ | ⟨u, hsu, hxu, d', hd', hu'⟩)
  · exact hne2 hsd
  · rw [hd] at hd'; cases hd'
    exact hne3 u hu' rfl
  · -- the source is `uuid:u`, the target a name with this UUID
    rw [hsu] at hd
    obtain ⟨hdu, hdn⟩ := hs.uuid_entry u d hd
    obtain ⟨v, hv, hv2⟩ := hs.uuid_of x d' hd'
    rw [hu'] at hv; cases hv
    rw [hd] at hv2; cases hv2
    have := hs.name_of x d ⟨hd', hxu⟩
    exact hne this.symm

/-! ## C15 -/

/-- For the name of a domain other than dom0, a rule names it exactly when its target column
covers a request for it. -/
theorem C15_names_means_covers (info : Info) (hs : SystemInfo info) (source : Str) (t : Token)
    (ht : ∃ text, TokenText .target text t) (x : Str) (d : Dom) (hx : IsDomain info x d)
    (h0 : ¬ Dom0 x) : Names info t x ↔ Covers info source t (.name x) := by
  obtain ⟨text, ht⟩ := ht
  have ho := hs.ordinary _ _ hx.1
  have hxn := hs.name_of x d hx
  have hdisp : ∀ k : Str, x ≠ c!"@dispvm:" ++ k := by rintro k rfl; exact ho.2.1 rfl
  cases t with
  | name s =>
    simp only [Names, Covers, Token.str]
    have hsd : ¬ (Dom0 s ∧ Dom0 x) := fun h => h0 h.2
    constructor
    · rintro ⟨ds, hds, rfl⟩
      have hD : ds = d := by
        by_cases hu : IsUuid s
        · obtain ⟨u, rfl⟩ := hu
          have := (hs.uuid_entry u ds hds).2
          exact Option.some.inj (this.1.symm.trans hx.1)
        · have := hs.name_of s ds ⟨hds, hu⟩
          rw [this] at hx
          exact Option.some.inj (hds.symm.trans hx.1)
      subst hD
      refine Or.inr ⟨?_, ?_⟩
      · rintro (rfl | rfl | rfl)
        · have := hs.name_of _ ds ⟨hds, by rintro ⟨u, h⟩; simp at h⟩
          exact h0 (Or.inl this)
        · exact absurd rfl (hs.ordinary _ _ hds).2.1
        · obtain ⟨dd, hdd, hdu⟩ := hs.dom0
          obtain ⟨u, hu, hg⟩ := hs.uuid_of _ _ hdd
          rw [hdu] at hu; cases hu
          change info.get? (c!"uuid:" ++ c!"00000000-0000-0000-0000-000000000000") = some ds at hds
          rw [hg] at hds; cases hds
          have := hs.name_of _ ds ⟨hdd, by rintro ⟨u, h⟩; simp at h⟩
          exact h0 (Or.inl this)
      · by_cases hu : IsUuid s
        · obtain ⟨u, rfl⟩ := hu
          exact Or.inr (Or.inl ⟨u, rfl, hx.2, ds, hx.1, (hs.uuid_entry u ds hds).1⟩)
        · exact Or.inl (hs.name_of s ds ⟨hds, hu⟩).symm
    · rintro (h | ⟨_, rfl | ⟨u, rfl, _, d', hd', hu'⟩ | ⟨u, hu, _⟩⟩)
      · exact absurd h hsd
      · exact ⟨d, hx.1, hxn.symm⟩
      · rw [hx.1] at hd'; cases hd'
        obtain ⟨u2, hu2, hg⟩ := hs.uuid_of x d hx.1
        rw [hu'] at hu2; cases hu2
        exact ⟨d, hg, hxn.symm⟩
      · exact absurd ⟨u, hu⟩ hx.2
  | wildcard => simp only [Names, Covers, iff_true]; exact Or.inl ⟨d, hx⟩
  | anyvm =>
    simp only [Names, Covers, Token.str, h0, not_false_eq_true, iff_true, and_true]
    exact Or.inl ⟨d, hx⟩
  | adminvm =>
    simp only [Names, Covers, Token.str, h0, iff_false]
    rintro rfl; exact ho.2.1 rfl
  | default =>
    simp only [Names, Covers, Token.str, false_iff]
    rintro rfl; exact ho.2.1 rfl
  | dispvm => simp only [Names, Covers, Token.str]
  | typeVM v =>
    simp only [Names, Covers, Token.str]
    constructor
    · rintro ⟨d', h1, h2⟩; exact ⟨d', h1.1, h2⟩
    · rintro ⟨d', h1, h2⟩; exact ⟨d', ⟨h1, hx.2⟩, h2⟩
  | tagVM v =>
    simp only [Names, Covers, Token.str]
    constructor
    · rintro ⟨d', h1, h2⟩; exact ⟨d', h1.1, h2⟩
    · rintro ⟨d', h1, h2⟩; exact ⟨d', ⟨h1, hx.2⟩, h2⟩
  | dispvmTemplate v =>
    simp only [Names, Covers, reduceCtorEq, false_and, exists_false, or_self, iff_false]
    rintro ⟨d', _, _, h⟩; exact hdisp _ h
  | dispvmTag v =>
    simp only [Names, Covers, reduceCtorEq, false_and, or_self, exists_false, iff_false]
    rintro ⟨k, d', _, _, _, h⟩; exact hdisp _ h

/-- **C15 (part).** An ask without redirect offers the name of a domain other than dom0 exactly
when the first rule speaking about it is not a deny, it is neither the caller nor internal, and
with `autostart=no` it is running.
Missing: dom0 and the default disposable template, which can be reached under a second
designation (`@adminvm`, `@dispvm`) that is not denied: see `C15_offered_exactly` for the exact
set and `C15_violated_dom0`, `C15_violated_dispvm` for witnesses. -/
theorem C15_ask_offers_partial (rules : List Rule) (req : Request) (hs : SystemInfo req.info)
    (res : AskRes) (h : evaluate rules req = .ok (.ask res))
    (hr : ∀ t d u n a, res.rule.action ≠ .ask (some t) d u n a)
    (x : Str) (d : Dom) (hx : IsDomain req.info x d) (h0 : x ≠ c!"dom0") :
    x ∈ res.targetsForAsk ↔
      FirstSpeakerNotDeny rules req x ∧ ¬ SameDomain req.info x req.source ∧
      d.internal = false ∧ (res.autostart = false → d.powerState = c!"Running") := by
  have hv := C14_offered_targets_valid rules req hs res h hr
  obtain ⟨ts0, dt, dd, u, n, _, hc, hf, _⟩ := ask_without_redirect h hr
  have ho := hs.ordinary _ _ hx.1
  have hdisp : ∀ k : Str, x ≠ c!"@dispvm:" ++ k := by rintro k rfl; exact ho.2.1 rfl
  have hbase : baseOf x = x := by
    unfold baseOf
    split_ifs with hsw
    · obtain ⟨t, rfl⟩ := startsWith_iff.1 hsw
      exact absurd rfl (hdisp t)
    · rfl
  have hkw : ∀ y : Str, y.head? = some '@' → x ≠ y := by
    rintro y hy rfl; exact ho.2.1 hy
  have hD0 : ¬ Dom0 x := by
    rintro (h | h | h)
    · exact h0 h
    · exact hkw _ rfl h
    · exact hx.2 ⟨_, h⟩
  have hauto : NoStartNeeded req.info x ↔ d.powerState = c!"Running" := by
    unfold NoStartNeeded
    constructor
    · rintro (h | ⟨d', h1, h2⟩)
      · exact absurd h hD0
      · rw [hx.1] at h1; cases h1; exact h2
    · intro h; exact Or.inr ⟨d, hx.1, h⟩
  constructor
  · intro hm
    obtain ⟨h1, h2⟩ := (autostartFilter_ok hs.ordinary hf x).1 hm
    obtain ⟨hA, _, d2, hd2, hi⟩ := (collectTargets_mem hs hc x).1 h1
    rw [hbase, hx.1] at hd2; cases hd2
    refine ⟨?_, (hv x hm).2.1, hi, fun ha => hauto.1 (h2 ha)⟩
    rcases hA with hA | ⟨_, t, _, ht⟩ | ⟨_, ht⟩
    · exact hA.1
    · exact absurd ht (hdisp t)
    · exact absurd ht h0
  · rintro ⟨hA, hsd, hi, ha⟩
    refine (autostartFilter_ok hs.ordinary hf x).2 ⟨(collectTargets_mem hs hc x).2 ⟨?_, ?_, ?_⟩,
      fun h => hauto.2 (ha h)⟩
    · exact Or.inl ⟨hA, hkw _ rfl, hkw _ rfl⟩
    · have : ∃ d, req.info.get? req.source = some d := by
        unfold collectTargets at hc
        obtain ⟨nn, hn, _⟩ := bind_eq_ok.1 hc
        unfold sourceNames at hn
        obtain ⟨d, hd, _⟩ := bind_eq_ok.1 hn
        exact ⟨d, lookup_eq_ok.1 hd⟩
      obtain ⟨ds, hds⟩ := this
      refine ⟨ds, hds, ?_, ?_, ?_⟩
      · rintro rfl
        apply hsd
        by_cases hu : IsUuid req.source
        · obtain ⟨u, hu⟩ := hu
          rw [hu] at hds
          have := (hs.uuid_entry u ds hds)
          exact Or.inr (Or.inr ⟨u, hu, hx.2, ds, this.2.1, this.1⟩)
        · exact Or.inl (hs.name_of _ _ ⟨hds, hu⟩)
      · rintro rfl; exact hsd (Or.inl rfl)
      · rintro u _ rfl; exact hx.2 ⟨u, rfl⟩
    · exact ⟨d, by rw [hbase]; exact hx.1, hi⟩

/-- **C15.** The exact set of offered targets, dom0 and disposables included. -/
theorem C15_offered_exactly (rules : List Rule) (req : Request) (hs : SystemInfo req.info)
    (res : AskRes) (h : evaluate rules req = .ok (.ask res))
    (hr : ∀ t d u n a, res.rule.action ≠ .ask (some t) d u n a) (x : Str) :
    x ∈ res.targetsForAsk ↔
      (((FirstSpeakerNotDeny rules req x ∧ x ≠ c!"@dispvm" ∧ x ≠ c!"@adminvm") ∨
        (FirstSpeakerNotDeny rules req c!"@dispvm" ∧
          ∃ t, DefaultDispvm req.info req.source t ∧ x = c!"@dispvm:" ++ t) ∨
        (FirstSpeakerNotDeny rules req c!"@adminvm" ∧ x = c!"dom0")) ∧
       (∃ d, req.info.get? req.source = some d ∧ x ≠ d.name ∧ x ≠ req.source ∧
         ∀ u, d.uuid = some u → x ≠ c!"uuid:" ++ u) ∧
       (∃ d, req.info.get? (baseOf x) = some d ∧ d.internal = false)) ∧
      (res.autostart = false → NoStartNeeded req.info x) := by
  obtain ⟨ts0, dt, dd, u, n, _, hc, hf, _⟩ := ask_without_redirect h hr
  rw [autostartFilter_ok hs.ordinary hf, collectTargets_mem hs hc]

example : ∃ res, evaluate [exDeny, exAsk] (exReq c!"work" (.name c!"vault")) = .ok (.ask res) ∧
    c!"vault" ∈ res.targetsForAsk ∧ c!"dom0" ∉ res.targetsForAsk ∧
    (∀ t d u n a, res.rule.action ≠ .ask (some t) d u n a) ∧
    IsDomain exInfo c!"vault" { name := c!"vault", uuid := some c!"u2", tags := [c!"t2"] } := by
  refine ⟨_, rfl, by decide, by decide, ?_, ⟨by decide, by decide⟩⟩
  intro t d u n a h
  cases h

/-- Denying `@adminvm` does not keep a following `* ask` from offering dom0. -/
theorem C15_violated_dom0 :
    let deny0 : Rule := { exDeny with source := .wildcard, target := .adminvm }
    let ask : Rule := { exAsk with source := .wildcard, target := .wildcard }
    evaluate [deny0, ask] (exReq c!"work" .adminvm) = .error (.accessDenied true) ∧
    (match evaluate [deny0, ask] (exReq c!"work" (.name c!"vault")) with
      | .ok (.ask res) => res.targetsForAsk.contains c!"dom0"
      | _ => false) = true := by decide

/-- Denying `@dispvm:dvm` does not keep a following `@anyvm ask` from offering it, through the
default disposable template. -/
theorem C15_violated_dispvm :
    let deny1 : Rule := { exDeny with source := .wildcard, target := .dispvmTemplate c!"dvm" }
    evaluate [deny1, exAsk] (exReq c!"work" (.dispvmTemplate c!"dvm")) =
      .error (.accessDenied true) ∧
    (match evaluate [deny1, exAsk] (exReq c!"work" (.name c!"vault")) with
      | .ok (.ask res) => res.targetsForAsk.contains c!"@dispvm:dvm"
      | _ => false) = true := by decide

/-! ## C17 -/

/-- What the rule's `default_target=` means for this source. -/
inductive DefaultChoice (req : Request) : Token → Str → Prop
  | dispvm {t} : DefaultDispvm req.info req.source t → DefaultChoice req .dispvm (c!"@dispvm:" ++ t)
  | dom0 {t : Token} : Dom0 t.str → DefaultChoice req t c!"dom0"
  | other {t : Token} : t ≠ .dispvm → ¬ Dom0 t.str → DefaultChoice req t t.str

theorem askDefault_ok {req : Request} {d : Option Token} {dt : Option Str}
    (h : askDefault req d = .ok dt) (x : Str) :
    dt = some x ↔ ∃ t, d = some t ∧ DefaultChoice req t x := by
  unfold askDefault at h
  split at h
  · cases h; simp
  · split at h
    · simp at h
    · rename_i hg
      cases h
      have := getDispvmTemplate_none hg
      simp only [reduceCtorEq, Option.some.injEq, false_iff, not_exists, not_and]
      rintro t rfl hc
      cases hc with
      | dispvm hc => exact this ⟨_, hc⟩
      | dom0 h0 => simp [Dom0, Token.str] at h0
      | other h1 => exact h1 rfl
    · rename_i t hg
      cases h
      obtain ⟨w, rfl, hw⟩ := getDispvmTemplate_some hg
      simp only [Option.some.injEq]
      constructor
      · rintro rfl; exact ⟨_, rfl, .dispvm hw⟩
      · rintro ⟨t, rfl, hc⟩
        cases hc with
        | dispvm hc => rw [defaultDispvm_unique hw hc]; rfl
        | dom0 h0 => simp [Dom0, Token.str] at h0
        | other h1 => exact absurd rfl h1
  · rename_i t hnd
    cases h
    simp only [Option.some.injEq]
    constructor
    · rintro rfl
      refine ⟨t, rfl, ?_⟩
      split_ifs with h0
      · exact .dom0 ((isDom0_iff _).1 h0)
      · exact .other (fun h => hnd h) (fun h => h0 ((isDom0_iff _).2 h))
    · rintro ⟨t', rfl, hc⟩
      cases hc with
      | dispvm hc => exact absurd rfl hnd
      | dom0 h0 => rw [if_pos ((isDom0_iff _).2 h0)]
      | other h1 h2 => rw [if_neg (fun h => h2 ((isDom0_iff _).1 h))]

/-- **C17.** The preselected target of an ask is the rule's `default_target=` (with `@dispvm`
and the spellings of dom0 resolved) if that is among the offered targets, else nothing. -/
theorem C17_default_target (rules : List Rule) (req : Request) (res : AskRes)
    (h : evaluate rules req = .ok (.ask res)) (x : Str) :
    res.defaultTarget = some x ↔
      x ∈ res.targetsForAsk ∧ ∃ t dt u n a, res.rule.action = .ask t (some dt) u n a ∧
        DefaultChoice req dt x := by
  unfold evaluate at h
  obtain ⟨r, _, h⟩ := bind_eq_ok.1 h
  unfold evalAction at h
  split at h
  · simp at h
  · obtain ⟨_, _, h⟩ := map_eq_ok.1 h; simp at h
  · rename_i t d u n a hact
    obtain ⟨res', h, he⟩ := map_eq_ok.1 h
    cases he
    obtain ⟨_, ts0, ts, dt, h0, hf, _, hd, rfl⟩ := evalAsk_ok h
    simp only [Option.filter_eq_some_iff, List.contains_iff_mem]
    rw [and_comm, askDefault_ok hd, hact]
    constructor
    · rintro ⟨h1, tk, rfl, h2⟩
      exact ⟨h1, t, tk, u, n, a, rfl, h2⟩
    · rintro ⟨h1, t', tk, u', n', a', h3, h2⟩
      cases h3
      exact ⟨h1, tk, rfl, h2⟩

example : ∃ res, evaluate [exAsk] (exReq c!"work" (.name c!"vault")) = .ok (.ask res) ∧
    res.defaultTarget = some c!"vault" := ⟨_, rfl, by decide⟩

end Qrexec
