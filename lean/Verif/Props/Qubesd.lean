import Verif.Spec.Qubesd
import Verif.Lemmas.JsonGrammar
import Verif.Props.AdminClient
import Verif.Props.Ask

/-!
# C87: the system information
-/
namespace Qrexec
open Spec

/-! ## Dicts -/

theorem dictPut_new {d : List (Str × Json)} {k : Str} (v : Json) (h : k ∉ d.map Prod.fst) : dictPut d k v = d ++ [(k, v)] := by
  induction d with
  | nil => rfl
  | cons p d ih =>
    obtain ⟨k', v'⟩ := p
    simp only [List.map_cons, List.mem_cons, not_or] at h
    rw [dictPut, if_neg (Ne.symm h.1), ih h.2]
    rfl

theorem dictPut_again {a b : List (Str × Json)} {k : Str} (u v : Json) (h : k ∉ a.map Prod.fst) :
    dictPut (a ++ (k, u) :: b) k v = a ++ (k, v) :: b := by
  induction a with
  | nil => rw [List.nil_append, dictPut, if_pos rfl]; rfl
  | cons p a ih =>
    obtain ⟨k', v'⟩ := p
    simp only [List.map_cons, List.mem_cons, not_or] at h
    rw [List.cons_append, dictPut, if_neg (Ne.symm h.1), ih h.2]
    rfl

theorem Spec.Dict.nodup {l d : List (Str × Json)} (h : Dict l d) : (d.map Prod.fst).Nodup := by
  induction h with
  | nil => simp
  | @new l d k v _ hk ih =>
    rw [List.map_append, List.nodup_append]
    refine ⟨ih, by simp, ?_⟩
    intro x hx y hy
    have hy : y = k := by simpa using hy
    rintro rfl
    exact hk (hy ▸ hx)
  | again _ ih => simpa using ih

theorem split_key {d : List (Str × Json)} {k : Str} (h : k ∈ d.map Prod.fst) :
    ∃ a u b, d = a ++ (k, u) :: b ∧ k ∉ a.map Prod.fst := by
  induction d with
  | nil => simp at h
  | cons p d ih =>
    obtain ⟨k', v'⟩ := p
    by_cases hk : k' = k
    · exact ⟨[], v', d, by rw [hk]; rfl, by simp⟩
    · simp only [List.map_cons, List.mem_cons] at h
      obtain ⟨a, u, b, rfl, ha⟩ := ih (h.resolve_left (Ne.symm hk))
      exact ⟨(k', v') :: a, u, b, rfl, by simp only [List.map_cons, List.mem_cons, not_or]; exact ⟨Ne.symm hk, ha⟩⟩

theorem dict_iff (l d : List (Str × Json)) : Dict l d ↔ dictOf l = d := by
  constructor
  · intro h
    induction h with
    | nil => rfl
    | @new l d k v _ hk ih =>
      unfold dictOf at ih ⊢
      rw [List.foldl_append, ih]
      exact dictPut_new v hk
    | @again l a k u b v hd ih =>
      unfold dictOf at ih ⊢
      rw [List.foldl_append, ih]
      refine dictPut_again u v ?_
      have := hd.nodup
      rw [List.map_append, List.nodup_append] at this
      intro hk
      exact this.2.2 k hk k (by simp) rfl
  · rintro rfl
    induction l using List.reverseRecOn with
    | nil => exact .nil
    | append_singleton l p ih =>
      obtain ⟨k, v⟩ := p
      have e : dictOf (l ++ [(k, v)]) = dictPut (dictOf l) k v := by
        unfold dictOf
        rw [List.foldl_append]
        rfl
      rw [e]
      by_cases hk : k ∈ (dictOf l).map Prod.fst
      · obtain ⟨a, u, b, hd, ha⟩ := split_key hk
        rw [hd] at ih ⊢
        rw [dictPut_again u v ha]
        exact .again ih
      · rw [dictPut_new v hk]
        exact .new ih hk

theorem jdGet_iff {d : List (Str × Json)} (hn : (d.map Prod.fst).Nodup) (k : Str) (v : Json) :
    jdGet d k = some v ↔ (k, v) ∈ d := by
  unfold jdGet
  induction d with
  | nil => simp
  | cons p d ih =>
    obtain ⟨k', v'⟩ := p
    simp only [List.map_cons, List.nodup_cons] at hn
    by_cases hk : k' = k
    · rw [List.find?_cons_of_pos (by simp [hk])]
      subst hk
      constructor
      · intro h; cases h; simp
      · intro h
        rcases List.mem_cons.1 h with e | h
        · cases e; rfl
        · exact absurd (List.mem_map.2 ⟨_, h, rfl⟩) hn.1
    · rw [List.find?_cons_of_neg (by simp [hk]), ih hn.2]
      constructor
      · intro h; exact List.mem_cons_of_mem _ h
      · intro h
        rcases List.mem_cons.1 h with e | h
        · cases e; exact absurd rfl hk
        · exact h

theorem jdGet_none {d : List (Str × Json)} (k : Str) : jdGet d k = none ↔ k ∉ d.map Prod.fst := by
  unfold jdGet
  rw [Option.map_eq_none_iff, List.find?_eq_none]
  constructor
  · intro h hk
    obtain ⟨p, hp, rfl⟩ := List.mem_map.1 hk
    exact h p hp (by simp)
  · intro h p hp
    simp only [decide_eq_true_eq]
    rintro rfl
    exact h (List.mem_map.2 ⟨p, hp, rfl⟩)

/-! ## Entries -/

theorem asStrs_iff (l : List Json) (s : List Str) : asStrs l = some s ↔ l = s.map .str := by
  induction l generalizing s with
  | nil =>
    cases s with
    | nil => simp [asStrs]
    | cons => simp [asStrs]
  | cons v l ih =>
    cases v with
    | str x =>
      rw [asStrs, Option.map_eq_some_iff]
      constructor
      · rintro ⟨t, ht, rfl⟩
        rw [(ih t).1 ht]; rfl
      · intro h
        cases s with
        | nil => cases h
        | cons y s =>
          simp only [List.map_cons, List.cons.injEq, Json.str.injEq] at h
          exact ⟨s, (ih s).2 h.2, by rw [h.1]⟩
    | _ =>
      constructor
      · intro h; cases h
      · intro h
        cases s <;> cases h

section
variable {d : List (Str × Json)} (hn : (d.map Prod.fst).Nodup) (k : Str)
include hn

theorem asStr_iff (s : Str) : asStr (jdGet d k) = some s ↔ (k, .str s) ∈ d := by
  rw [← jdGet_iff hn]
  cases jdGet d k with
  | none => simp [asStr]
  | some v => cases v <;> simp [asStr]

theorem asBool_iff (b : Bool) : asBool (jdGet d k) = some b ↔ (k, .bool b) ∈ d := by
  rw [← jdGet_iff hn]
  cases jdGet d k with
  | none => simp [asBool]
  | some v => cases v <;> simp [asBool]

theorem asOptStr_iff (o : Option Str) : asOptStr (jdGet d k) = some o ↔ (k, orNull o) ∈ d := by
  rw [← jdGet_iff hn]
  cases jdGet d k with
  | none => simp [asOptStr]
  | some v => cases v <;> cases o <;> simp [asOptStr, orNull]

theorem asTags_iff (l : List Str) : asTags (jdGet d k) = some l ↔ (k, .arr (l.map .str)) ∈ d := by
  rw [← jdGet_iff hn]
  cases jdGet d k with
  | none => simp [asTags]
  | some v => cases v <;> simp [asTags, asStrs_iff]

theorem asMaybe_iff (o : Option Str) : asMaybe (jdGet d k) = some o ↔ Maybe d k o := by
  cases hg : jdGet d k with
  | none =>
    have hk := (jdGet_none k).1 hg
    have hno : ∀ v, (k, v) ∉ d := fun v h => hk (List.mem_map.2 ⟨_, h, rfl⟩)
    cases o with
    | none => simp [asMaybe, Maybe, hno]
    | some s => simp [asMaybe, Maybe, hno]
  | some v =>
    have hv := (jdGet_iff hn k v).1 hg
    have huniq : ∀ w, (k, w) ∈ d ↔ w = v := by
      intro w
      rw [← jdGet_iff hn, hg]
      exact ⟨fun h => (Option.some.inj h).symm, fun h => by rw [h]⟩
    cases o with
    | none => cases v <;> simp [asMaybe, Maybe, asOptStr, huniq]
    | some s => cases v <;> simp [asMaybe, Maybe, asOptStr, huniq, eq_comm]

theorem asUuid_iff (o : Option Str) : asUuid (jdGet d k) = some o ↔
    (∀ u, o = some u → (k, .str u) ∈ d) ∧ (o = none → k ∉ d.map Prod.fst) := by
  cases hg : jdGet d k with
  | none =>
    have hk := (jdGet_none k).1 hg
    have hno : ∀ v, (k, v) ∉ d := fun v h => hk (List.mem_map.2 ⟨_, h, rfl⟩)
    cases o with
    | none => simp only [asUuid, true_iff]; exact ⟨by simp, fun _ => hk⟩
    | some s => simp [asUuid, hno]
  | some v =>
    have hv := (jdGet_iff hn k v).1 hg
    have hk : k ∈ d.map Prod.fst := List.mem_map.2 ⟨_, hv, rfl⟩
    have huniq : ∀ w, (k, w) ∈ d ↔ w = v := by
      intro w
      rw [← jdGet_iff hn, hg]
      exact ⟨fun h => (Option.some.inj h).symm, fun h => by rw [h]⟩
    cases o with
    | none =>
      have : ¬ ((∀ u, (none : Option Str) = some u → (k, Json.str u) ∈ d) ∧ ((none : Option Str) = none → k ∉ d.map Prod.fst)) :=
        fun h => h.2 rfl hk
      rw [iff_false_right this]
      cases v <;> (intro h; cases h)
    | some s => cases v <;> simp [asUuid, huniq, eq_comm]

theorem asInternal_iff (b : Bool) : asInternal (jdGet d k) = some b ↔
    (k, .bool b) ∈ d ∨ (k ∉ d.map Prod.fst ∧ b = false) := by
  cases hg : jdGet d k with
  | none =>
    have hk := (jdGet_none k).1 hg
    have hno : ∀ v, (k, v) ∉ d := fun v h => hk (List.mem_map.2 ⟨_, h, rfl⟩)
    cases b with
    | true => simp [asInternal, hno]
    | false => simp only [asInternal, hno, false_or, true_iff]; exact ⟨hk, trivial⟩
  | some v =>
    have hv := (jdGet_iff hn k v).1 hg
    have hk : k ∈ d.map Prod.fst := List.mem_map.2 ⟨_, hv, rfl⟩
    have huniq : ∀ w, (k, w) ∈ d ↔ w = v := by
      intro w
      rw [← jdGet_iff hn, hg]
      exact ⟨fun h => (Option.some.inj h).symm, fun h => by rw [h]⟩
    have : ¬ (k ∉ d.map Prod.fst ∧ b = false) := fun h => h.1 hk
    rw [or_iff_left this, huniq]
    cases v <;> simp [asInternal, asBool, eq_comm]
end

theorem entryDom_iff (k : Str) (v : Json) (dom : Dom) :
    entryDom k v = some dom ↔ dom.name = k ∧ ∃ l d, v = .obj l ∧ Dict l d ∧ Entry d dom := by
  constructor
  · intro h
    cases v with
    | obj l =>
      have hd : Dict l (dictOf l) := (dict_iff l _).2 rfl
      have hn := hd.nodup
      unfold entryDom at h
      dsimp only at h
      split at h
      · rename_i h1 h2 h3 h4 h5 h6 h7 h8 h9 h10 h11
        cases h
        exact ⟨rfl, l, dictOf l, rfl, hd,
          (asTags_iff hn _ _).1 h1, (asStr_iff hn _ _).1 h2, (asBool_iff hn _ _).1 h3, (asOptStr_iff hn _ _).1 h4,
          (asStr_iff hn _ _).1 h5, (asOptStr_iff hn _ _).1 h6, (asStr_iff hn _ _).1 h7, (asUuid_iff hn _ _).1 h8,
          (asInternal_iff hn _ _).1 h9, (asMaybe_iff hn _ _).1 h10, (asMaybe_iff hn _ _).1 h11⟩
      · cases h
    | _ => cases h
  · rintro ⟨rfl, l, d, rfl, hd, e⟩
    have hn := hd.nodup
    rw [dict_iff] at hd
    subst hd
    unfold entryDom
    dsimp only
    rw [(asTags_iff hn _ _).2 e.tags, (asStr_iff hn _ _).2 e.cls, (asBool_iff hn _ _).2 e.templateForDispvms,
      (asOptStr_iff hn _ _).2 e.defaultDispvm, (asStr_iff hn _ _).2 e.powerState, (asOptStr_iff hn _ _).2 e.guivm,
      (asStr_iff hn _ _).2 e.icon, (asUuid_iff hn _ _).2 e.uuid, (asInternal_iff hn _ _).2 e.internal,
      (asMaybe_iff hn _ _).2 e.relayvm, (asMaybe_iff hn _ _).2 e.transportRpc]

theorem entryDoms_iff (ds : List (Str × Json)) (json : List (Str × Dom)) :
    entryDoms ds = some json ↔ List.Forall₂ Described ds json := by
  induction ds generalizing json with
  | nil =>
    constructor
    · intro h; cases h; exact .nil
    · intro h; cases h; rfl
  | cons p ds ih =>
    obtain ⟨k, v⟩ := p
    constructor
    · intro h
      rw [entryDoms] at h
      split at h
      · rename_i d js h1 h2
        cases h
        refine .cons ?_ ((ih js).1 h2)
        have := (entryDom_iff k v d).1 h1
        exact ⟨rfl, this⟩
      · cases h
    · intro h
      cases h with
      | @cons _ q _ js h1 h2 =>
        obtain ⟨k', d⟩ := q
        obtain ⟨e, h1⟩ := h1
        have e : k' = k := e
        subst e
        rw [entryDoms, (ih js).2 h2, (entryDom_iff k' v d).2 h1]

theorem domains_iff (v : Json) (json : List (Str × Dom)) :
    (∃ ds, domainsOf v = .ok ds ∧ entryDoms ds = some json) ↔ Reports v json := by
  constructor
  · rintro ⟨ds, h1, h2⟩
    unfold domainsOf at h1
    split at h1
    · rename_i l
      have hd : Dict l (dictOf l) := (dict_iff l _).2 rfl
      split at h1
      · rename_i doms hg
        cases h1
        exact ⟨l, dictOf l, doms, dictOf doms, rfl, hd, (jdGet_iff hd.nodup _ _).1 hg, (dict_iff _ _).2 rfl,
          (entryDoms_iff _ _).1 h2⟩
      · cases h1
      · cases h1
    · cases h1
  · rintro ⟨l, d, doms, ds, rfl, hd, hm, hds, hf⟩
    refine ⟨ds, ?_, (entryDoms_iff _ _).2 hf⟩
    have hg := (jdGet_iff hd.nodup _ _).2 hm
    rw [dict_iff] at hd hds
    subst hd hds
    unfold domainsOf
    dsimp only
    rw [hg]

/-! ## The answer -/

theorem result_ok (answer b : Bytes) : qubesdResult answer = .ok b ↔ answer = c!"0\x00" ++ b := by
  unfold qubesdResult
  by_cases h : startsWith c!"0\x00" answer = true
  · rw [if_pos h]
    obtain ⟨t, rfl⟩ := startsWith_iff.1 h
    constructor
    · intro e
      injection e with e
      rw [← e]
      rfl
    · intro e
      rw [List.append_cancel_left e]
      rfl
  · rw [if_neg h]
    constructor
    · intro e
      split_ifs at e
      all_goals (split at e <;> try cases e)
      split_ifs at e
    · rintro rfl
      exact absurd (startsWith_iff.2 ⟨b, rfl⟩) h

section
variable (h : Host) (enc : Str → Bytes) (u : Utf8 h enc)
include u

/-- **C87.** The system information is used exactly if the answer of qubesd is the mark of success and a JSON text that
describes domains, and then it is the information about these domains. -/
theorem C87_info (answer : Bytes) (info : Info) : getSystemInfoFrom h answer = .ok info ↔
    ∃ text v json, answer = c!"0\x00" ++ enc text ∧ JsonFile text v ∧ Reports v json ∧ info = getSystemInfo json := by
  unfold getSystemInfoFrom
  constructor
  · intro hi
    cases hr : qubesdResult answer with
    | error e => rw [hr] at hi; cases hi
    | ok b =>
      rw [hr] at hi
      dsimp only at hi
      rw [result_ok] at hr
      cases hd : h.decode b with
      | none => rw [hd] at hi; cases hi
      | some text =>
        rw [hd] at hi
        dsimp only at hi
        cases hj : jsonLoads text with
        | none => rw [hj] at hi; cases hi
        | some v =>
          rw [hj] at hi
          dsimp only at hi
          cases hds : domainsOf v with
          | error e => rw [hds] at hi; cases hi
          | ok ds =>
            rw [hds] at hi
            dsimp only at hi
            cases he : entryDoms ds with
            | none => rw [he] at hi; cases hi
            | some json =>
              rw [he] at hi
              cases hi
              exact ⟨text, v, json, by rw [hr, ← (u.decode_iff b text).1 hd], (loads_iff _ _).1 hj,
                (domains_iff v json).1 ⟨ds, hds, he⟩, rfl⟩
  · rintro ⟨text, v, json, rfl, hj, hrep, rfl⟩
    obtain ⟨ds, hds, he⟩ := (domains_iff v json).2 hrep
    rw [(result_ok _ _).2 rfl]
    dsimp only
    rw [(u.decode_iff _ _).2 rfl]
    dsimp only
    rw [(loads_iff _ _).2 hj]
    dsimp only
    rw [hds]
    dsimp only
    rw [he]

/-- **C87, every domain.** If the names are ordinary and different, and so are the UUIDs: every domain qubesd describes is
found, by its name and by its UUID, as described and with its name; nothing else is found. -/
theorem C87_domains (text : Str) (v : Json) (json : List (Str × Dom)) (hj : JsonFile text v) (hr : Reports v json)
    (hg : GoodJson json) : ∃ info, getSystemInfoFrom h (c!"0\x00" ++ enc text) = .ok info ∧
      (∀ k d, ¬ IsUuid k → (info.get? k = some d ↔ (k, d) ∈ json)) ∧
      (∀ x d, info.get? (c!"uuid:" ++ x) = some d ↔ ∃ k, (k, d) ∈ json ∧ d.uuid = some x) := by
  refine ⟨getSystemInfo json, (C87_info h enc u _ _).2 ⟨text, v, json, rfl, hj, hr, rfl⟩, ?_, ?_⟩
  all_goals
    have hname : ∀ k d, (k, d) ∈ json → ({ d with name := k } : Dom) = d := by
      obtain ⟨_, _, _, ds, _, _, _, _, hf⟩ := hr
      intro k d hm
      have : ∀ (l : List (Str × Json)) (js : List (Str × Dom)), List.Forall₂ Described l js → ∀ q ∈ js, q.2.name = q.1 := by
        intro l js hf
        induction hf with
        | nil => simp
        | cons h1 _ ih =>
          intro q hq
          rcases List.mem_cons.1 hq with rfl | hq
          · rw [h1.1]; exact h1.2.1
          · exact ih q hq
      have := this ds json hf _ hm
      have : d.name = k := this
      subst this
      rfl
    obtain ⟨e1, e2⟩ := getSystemInfo_entries hg
  · intro k d hk
    constructor
    · intro hd
      obtain ⟨d', hm, rfl⟩ := (e1 k d).1 ⟨hd, hk⟩
      rw [hname k d' hm]
      exact hm
    · intro hm
      exact ((e1 k d).2 ⟨d, hm, (hname k d hm).symm⟩).1
  · intro x d
    rw [e2]
    constructor
    · rintro ⟨k, d', hm, hu, rfl⟩
      rw [hname k d' hm]
      exact ⟨k, hm, hu⟩
    · rintro ⟨k, hm, hu⟩
      exact ⟨k, d, hm, hu, (hname k d hm).symm⟩

/-- **C87, cut answers.** If the connection to qubesd ends before the whole answer (written in ASCII as `json.dumps` does) has
arrived, there is no system information. -/
theorem C87_cut (text : Str) (l : List (Str × Json)) (hj : JsonText text (.obj l)) (hasc : ∀ ch ∈ text, ch.toNat < 128)
    (p q : Bytes) (hq : q ≠ []) (hpq : p ++ q = c!"0\x00" ++ enc text) (info : Info) : getSystemInfoFrom h p ≠ .ok info := by
  intro hi
  obtain ⟨t, v, json, rfl, hf, hrep, -⟩ := (C87_info h enc u p info).1 hi
  rw [List.append_assoc] at hpq
  have hpq := List.append_cancel_left hpq
  rw [u.ascii_all text hasc] at hpq
  have ht : enc t = t := by
    have hall : ∀ s : Str, (∀ b ∈ enc s, b.toNat < 128) → enc s = s := by
      intro s
      induction s with
      | nil => intro _; exact u.ascii_all [] (by simp)
      | cons ch s ih =>
        intro hb
        have e : enc (ch :: s) = enc [ch] ++ enc s := u.append [ch] s
        have hch : ch.toNat < 128 := by
          by_contra hc
          have hc : 128 ≤ ch.toNat := by omega
          cases hx : enc [ch] with
          | nil =>
            have h1 := (u.decode_iff [] [ch]).2 hx
            have h2 := (u.decode_iff [] []).2 (u.ascii_all [] (by simp))
            rw [h1] at h2
            cases h2
          | cons b bs =>
            have h1 := u.other ch hc b (by rw [hx]; simp)
            have h2 := hb b (by rw [e, hx]; simp)
            omega
        rw [e, u.ascii ch hch, ih (fun b hb' => hb b (by rw [e]; simp [hb']))]
        rfl
    apply hall
    intro b hb
    exact hasc b (by rw [← hpq]; simp [hb])
  rw [ht] at hpq
  obtain ⟨w, t0, w', rfl, hw, ht0, hw'⟩ := hf
  -- the shorter text begins with a brace, too
  obtain ⟨c, r, e, hc, -⟩ := json_head hj
  have hw0 : w = [] := by
    cases w with
    | nil => rfl
    | cons x w =>
      rw [e] at hpq
      have : x = c := (List.cons.inj hpq).1
      have h1 := (jsonWs_iff x).2 (hw x (by simp))
      rw [this, hc] at h1
      cases h1
  subst hw0
  have hobj : ∀ x, v ≠ .num x := by
    obtain ⟨l', _, _, _, rfl, _⟩ := hrep
    intro x hx
    cases hx
  rw [List.nil_append, List.append_assoc] at hpq
  have hws := json_prefix ht0 hobj [] (w' ++ q) (by intro c hc; cases hc) (v' := .obj l)
    ⟨[], text, [], by rw [List.nil_append, List.nil_append, List.append_nil, hpq], (by intro c hc; cases hc), hj, (by intro c hc; cases hc)⟩
  -- the last character of the whole text is a brace
  have hlast : ∃ s, text = s ++ c!"}" := by
    cases hj with
    | @obj0 w _ => exact ⟨'{' :: w, rfl⟩
    | @obj w t l _ _ => exact ⟨'{' :: (w ++ t), by simp⟩
  obtain ⟨s, hs⟩ := hlast
  obtain ⟨z, y, rfl⟩ : ∃ z y, q = z ++ [y] := by
    induction q using List.reverseRecOn with
    | nil => exact absurd rfl hq
    | append_singleton z y => exact ⟨z, y, rfl⟩
  have hy : y = '}' := by
    have := hpq
    rw [hs, ← List.append_assoc, ← List.append_assoc] at this
    have := congrArg List.getLast? this
    simpa using this
  rcases hws y (by simp) with e | e | e | e <;> rw [hy] at e <;> revert e <;> decide
end

theorem splitMax_cons {sep : Char} {n : Nat} {b x : Bytes} {y : Bytes} {l : List Bytes} :
    splitMax sep (n + 1) b = x :: y :: l ↔ ∃ rest, b = x ++ sep :: rest ∧ sep ∉ x ∧ splitMax sep n rest = y :: l := by
  rw [splitMax]
  constructor
  · intro h
    cases hs : splitOnce sep b with
    | none => rw [hs] at h; cases h
    | some p =>
      obtain ⟨a, r⟩ := p
      rw [hs] at h
      obtain ⟨h1, h2⟩ := List.cons.inj h
      rw [splitOnce_eq_some] at hs
      exact ⟨r, by rw [← h1]; exact hs.1, by rw [← h1]; exact hs.2, h2⟩
  · rintro ⟨rest, h1, h2, h3⟩
    have := splitOnce_eq_some.2 ⟨h1, h2⟩
    rw [this]
    dsimp only
    rw [h3]

/-- An exception as qubesd reports it: its type, a traceback, a format string and arguments. -/
def Spec.QubesdExc (answer : Bytes) (ty : Bytes) : Prop :=
  ∃ tb fmt args : Bytes, answer = '2' :: '\x00' :: (ty ++ '\x00' :: (tb ++ '\x00' :: (fmt ++ '\x00' :: args))) ∧
    '\x00' ∉ ty ∧ '\x00' ∉ tb ∧ '\x00' ∉ fmt ∧ ∀ c ∈ ty, c.toNat < 128

theorem result_mgmt (answer : Bytes) (ty : Bytes) : qubesdResult answer = .error (.mgmt ty) ↔ QubesdExc answer ty := by
  unfold qubesdResult
  constructor
  · intro h
    by_cases h0 : startsWith c!"0\x00" answer = true
    · rw [if_pos h0] at h; cases h
    rw [if_neg h0] at h
    by_cases h2 : startsWith c!"2\x00" answer = true
    · rw [if_pos h2] at h
      split at h
      · rename_i a ty' tb fmt args hs
        by_cases ha : isAscii ty' = true
        · rw [if_pos ha] at h
          cases h
          obtain ⟨r1, e1, n1, hs⟩ := splitMax_cons.1 hs
          obtain ⟨r2, rfl, n2, hs⟩ := splitMax_cons.1 hs
          obtain ⟨r3, rfl, n3, hs⟩ := splitMax_cons.1 hs
          obtain ⟨r4, rfl, n4, hs⟩ := splitMax_cons.1 hs
          rw [splitMax] at hs
          cases hs
          obtain ⟨t, rfl⟩ := startsWith_iff.1 h2
          refine ⟨tb, fmt, args, ?_, n2, n3, n4, isAscii_iff.1 ha⟩
          have hu : splitOnce '\x00' (c!"2\x00" ++ t) = some (c!"2", t) := splitOnce_eq_some.2 ⟨rfl, by decide⟩
          have hu' := splitOnce_eq_some.1 hu
          have : splitOnce '\x00' (c!"2\x00" ++ t) = some (a, ty ++ '\x00' :: (tb ++ '\x00' :: (fmt ++ '\x00' :: args))) :=
            splitOnce_eq_some.2 ⟨e1, n1⟩
          rw [hu] at this
          cases this
          rfl
        · rw [if_neg ha] at h; cases h
      · cases h
    · rw [if_neg h2] at h; cases h
  · rintro ⟨tb, fmt, args, rfl, n2, n3, n4, ha⟩
    have h0 : startsWith c!"0\x00" ('2' :: '\x00' :: (ty ++ '\x00' :: (tb ++ '\x00' :: (fmt ++ '\x00' :: args)))) = false :=
      startsWith_head (by decide)
    have h2 : startsWith c!"2\x00" ('2' :: '\x00' :: (ty ++ '\x00' :: (tb ++ '\x00' :: (fmt ++ '\x00' :: args)))) = true :=
      startsWith_iff.2 ⟨_, rfl⟩
    have hs : splitMax '\x00' 4 ('2' :: '\x00' :: (ty ++ '\x00' :: (tb ++ '\x00' :: (fmt ++ '\x00' :: args)))) =
        [c!"2", ty, tb, fmt, args] :=
      splitMax_cons.2 ⟨_, rfl, by decide, splitMax_cons.2 ⟨_, rfl, n2, splitMax_cons.2 ⟨_, rfl, n3, splitMax_cons.2 ⟨_, rfl, n4, rfl⟩⟩⟩⟩
    rw [if_neg (by rw [h0]; simp), if_pos h2, hs]
    dsimp only
    rw [if_pos (isAscii_iff.2 ha)]

/-- **C87, no information.** Without system information no request is allowed: it is refused if qubesd reports an exception, else
there is no answer at all. Nothing is done in either case. -/
theorem C87_none (h : Host) (answer : Bytes) (policy : Except Err (List Rule)) (agent : Agent) (mode : Mode)
    (source target sa rs : Str) (hno : ∀ info, getSystemInfoFrom h answer ≠ .ok info) :
    ((∃ ty, QubesdExc answer ty) →
      handleRequestFrom h answer policy agent mode source target sa rs = ([], .ok c!"result=deny")) ∧
    ((¬ ∃ ty, QubesdExc answer ty) →
      ∃ e, handleRequestFrom h answer policy agent mode source target sa rs = ([], .error e)) := by
  constructor
  · rintro ⟨ty, hx⟩
    rw [← result_mgmt] at hx
    unfold handleRequestFrom getSystemInfoFrom
    rw [hx]
    rfl
  · intro hx
    have key : ∀ ty, getSystemInfoFrom h answer ≠ .error (.mgmt ty) := by
      intro ty he
      apply hx
      refine ⟨ty, (result_mgmt _ _).1 ?_⟩
      unfold getSystemInfoFrom at he
      cases hr : qubesdResult answer with
      | error e => rw [hr] at he; dsimp only at he; cases he; rfl
      | ok b =>
        rw [hr] at he
        dsimp only at he
        split at he
        · cases he
        · split at he
          · cases he
          · split at he
            · rename_i v _ e hd
              cases he
              unfold domainsOf at hd
              split at hd
              · split at hd <;> cases hd
              · cases hd
            · split at he <;> cases he
    unfold handleRequestFrom
    cases hg : getSystemInfoFrom h answer with
    | ok info => exact absurd hg (hno info)
    | error e =>
      cases e with
      | mgmt ty => exact absurd hg (key ty)
      | _ => exact ⟨_, rfl⟩

/-- **C87, with information.** A request is decided by the information qubesd sent. -/
theorem C87_used (h : Host) (enc : Str → Bytes) (u : Utf8 h enc) (text : Str) (v : Json) (json : List (Str × Dom))
    (policy : Except Err (List Rule)) (agent : Agent) (mode : Mode) (source target sa rs : Str)
    (hj : JsonFile text v) (hr : Reports v json) :
    handleRequestFrom h (c!"0\x00" ++ enc text) policy agent mode source target sa rs =
      handleRequest (some (getSystemInfo json)) policy agent mode source target sa rs := by
  unfold handleRequestFrom
  rw [(C87_info h enc u _ _).2 ⟨text, v, json, rfl, hj, hr, rfl⟩]

/-- **C87, calls.** The header of a call to qubesd, up to the zero byte, names the method with its argument, the caller dom0, and
the destination; the payload follows. -/
theorem C87_call (dest method arg : Str) (payload : Bytes) (hd : ' ' ∉ dest ∧ '\x00' ∉ dest) (hm : ' ' ∉ method ∧ '\x00' ∉ method ∧ '+' ∉ method)
    (ha : ' ' ∉ arg ∧ '\x00' ∉ arg) (hasc : ∀ c ∈ dest ++ method ++ arg, c.toNat < 128) :
    ∃ sent head ma, qubesdSent dest method (some arg) (some payload) = some sent ∧
      splitOnce '\x00' sent = some (head, payload) ∧ splitOn ' ' head = [ma, c!"dom0", c!"name", dest] ∧
      splitOnce '+' ma = some (method, arg) := by
  have hmem : ∀ x, x ∈ dest ++ method ++ arg ↔ x ∈ dest ∨ x ∈ method ∨ x ∈ arg := by simp
  refine ⟨(method ++ c!"+" ++ arg ++ c!" dom0 name " ++ dest) ++ '\x00' :: payload, method ++ c!"+" ++ arg ++ c!" dom0 name " ++ dest,
    method ++ c!"+" ++ arg, ?_, ?_, ?_, ?_⟩
  · unfold qubesdSent
    dsimp only
    rw [if_pos]
    · simp
    · rw [isAscii_iff]
      intro c hc
      simp only [Option.getD_some, List.mem_append] at hc
      rcases hc with ((((hc | hc) | hc) | hc) | hc) | hc
      · exact hasc c ((hmem c).2 (by simp [hc]))
      · rw [List.mem_singleton.1 hc]; decide
      · exact hasc c ((hmem c).2 (by simp [hc]))
      · have : ∀ c ∈ c!" dom0 name ", c.toNat < 128 := by decide
        exact this c hc
      · exact hasc c ((hmem c).2 (by simp [hc]))
      · rw [List.mem_singleton.1 hc]; decide
  · rw [splitOnce_eq_some]
    refine ⟨rfl, ?_⟩
    simp only [List.mem_append, not_or]
    exact ⟨⟨⟨⟨hm.2.1, by decide⟩, ha.2⟩, by decide⟩, hd.2⟩
  · have hs : ' ' ∉ method ++ c!"+" ++ arg := by
      simp only [List.mem_append, not_or]
      exact ⟨⟨hm.1, by decide⟩, ha.1⟩
    generalize method ++ c!"+" ++ arg = ma at hs
    rw [show ma ++ c!" dom0 name " ++ dest = ma ++ ' ' :: (c!"dom0" ++ ' ' :: (c!"name" ++ ' ' :: dest)) by simp,
      splitOn_append hs, splitOn_append (by decide), splitOn_append (by decide), splitOn_of_not_mem hd.1]
  · rw [List.append_assoc]
    exact splitOnce_eq_some.2 ⟨rfl, hm.2.2⟩

/-! ## Cases -/

/-- A text as qubesd sends it. -/
def exSys2 : Str := c!"{\"domains\": {\"work\": {\"tags\": [\"a\"], \"type\": \"AppVM\", \"template_for_dispvms\": false, \"default_dispvm\": null, \"icon\": \"i\", \"guivm\": \"dom0\", \"power_state\": \"Running\", \"uuid\": \"1\"}}}"

set_option maxRecDepth 100000 in
example : getSystemInfoFrom clientHost (c!"0\x00" ++ exSys2) =
    .ok [(c!"work", { name := c!"work", uuid := some c!"1", tags := [c!"a"], powerState := c!"Running", guivm := some c!"dom0", icon := c!"i" }),
      (c!"uuid:1", { name := c!"work", uuid := some c!"1", tags := [c!"a"], powerState := c!"Running", guivm := some c!"dom0", icon := c!"i" })] := by
  rfl

set_option maxRecDepth 100000 in
example : getSystemInfoFrom clientHost (c!"0\x00" ++ exSys2.dropLast) = .error .value := by rfl

set_option maxRecDepth 100000 in
example : ∃ v json, JsonFile exSys2 v ∧ Reports v json := by
  obtain ⟨text, v, json, h1, h2, h3, -⟩ := (C87_info clientHost id clientHost_utf8 (c!"0\x00" ++ exSys2) _).1 rfl
  have : exSys2 = text := List.append_cancel_left h1
  exact ⟨v, json, this ▸ h2, h3⟩

example : QubesdExc c!"2\x00QubesVMNotFoundError\x00\x00No such domain: %r\x00x\x00" c!"QubesVMNotFoundError" :=
  ⟨[], c!"No such domain: %r", c!"x\x00", rfl, by decide, by decide, by decide, by decide⟩

example : qubesdSent c!"dom0" c!"internal.GetSystemInfo" none none = some c!"internal.GetSystemInfo+ dom0 name dom0\x00" := rfl
example : qubesdSocket c!"internal.GetSystemInfo" = c!"/var/run/qubesd.internal.sock" := rfl

end Qrexec
