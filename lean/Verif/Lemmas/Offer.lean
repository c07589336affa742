import Verif.Spec.Offer
import Verif.Lemmas.Eval
import Verif.Lemmas.Grammar
import Verif.Props.Match

namespace Qrexec
open Spec

theorem parse_ordinary {k : Str} (h : k ≠ [] ∧ k.head? ≠ some '@' ∧ k ≠ c!"*") (ctx : Ctx) :
    parseToken ctx k = .ok (.name k) := parseToken_of (.name ⟨h.1, h.2.1⟩ h.2.2)

theorem intendedName_ordinary {k : Str} (h : k ≠ [] ∧ k.head? ≠ some '@' ∧ k ≠ c!"*") :
    intendedName k = .ok k := by
  simp [intendedName, parse_ordinary h, Token.str]

theorem startsWith_uuid_false {k : Str} : startsWith c!"uuid:" k = false ↔ ¬ IsUuid k := by
  rw [← Bool.not_eq_true, startsWith_uuid_iff]

/-- A loop over the domains whose body never raises. -/
theorem expandLoop_ok {f : Str → Dom → Except Err (List Str)} {g : Str → Dom → List Str}
    {info : Info} (h : ∀ k d, (k, d) ∈ info → ¬ IsUuid k → f k d = .ok (g k d)) :
    ∃ l, expandLoop f info = .ok l ∧
      ∀ x, x ∈ l ↔ ∃ k d, (k, d) ∈ info ∧ ¬ IsUuid k ∧ x ∈ g k d := by
  induction info with
  | nil => exact ⟨[], rfl, by simp⟩
  | cons e rest ih =>
    obtain ⟨k, d⟩ := e
    obtain ⟨l, hl, hm⟩ := ih (fun k' d' hm => h k' d' (by simp [hm]))
    by_cases hk : IsUuid k
    · have := (startsWith_uuid_iff k).2 hk
      refine ⟨l, by simp [expandLoop, this, hl], ?_⟩
      intro x
      rw [hm]
      constructor
      · rintro ⟨k', d', h1, h2⟩; exact ⟨k', d', by simp [h1], h2⟩
      · rintro ⟨k', d', h1, h2, h3⟩
        rcases List.mem_cons.1 h1 with h1 | h1
        · cases h1; exact absurd hk h2
        · exact ⟨k', d', h1, h2, h3⟩
    · have := startsWith_uuid_false.2 hk
      refine ⟨g k d ++ l, by simp [expandLoop, this, hl, h k d (by simp) hk], ?_⟩
      intro x
      rw [List.mem_append, hm]
      constructor
      · rintro (h1 | ⟨k', d', h1, h2⟩)
        · exact ⟨k, d, by simp, hk, h1⟩
        · exact ⟨k', d', by simp [h1], h2⟩
      · rintro ⟨k', d', h1, h2, h3⟩
        rcases List.mem_cons.1 h1 with h1 | h1
        · cases h1; exact Or.inl h3
        · exact Or.inr ⟨k', d', h1, h2, h3⟩

theorem mem_isDomain {info : Info} (hs : SystemInfo info) {k : Str} {d : Dom} :
    ((k, d) ∈ info ∧ ¬ IsUuid k) ↔ IsDomain info k d := by
  unfold IsDomain
  constructor
  · rintro ⟨h1, h2⟩; exact ⟨get?_of_mem hs.keys h1, h2⟩
  · rintro ⟨h1, h2⟩; exact ⟨get?_mem h1, h2⟩

theorem uuidToName_plain {info : Info} {k : Str} (h : ¬ IsUuid k) (h2 : k.head? ≠ some '@') :
    uuidToName info k = .ok k := by
  have h3 : startsWith c!"@dispvm:uuid:" k = false := by
    rw [← Bool.not_eq_true]
    intro hc
    obtain ⟨t, rfl⟩ := startsWith_iff.1 hc
    simp at h2
  simp [uuidToName, startsWith_uuid_false.2 h, h3]

theorem uuidToName_dispvm {info : Info} {k : Str} (h : ¬ IsUuid k) :
    uuidToName info (c!"@dispvm:" ++ k) = .ok (c!"@dispvm:" ++ k) := by
  have h1 : startsWith c!"uuid:" (c!"@dispvm:" ++ k) = false := by
    rw [startsWith_uuid_false]; exact not_isUuid_at _
  have h3 : startsWith c!"@dispvm:uuid:" (c!"@dispvm:" ++ k) = false := by
    rw [← Bool.not_eq_true]
    intro hc
    obtain ⟨t, ht⟩ := startsWith_iff.1 hc
    apply h
    refine ⟨t, ?_⟩
    simpa using ht
  unfold uuidToName
  rw [if_neg (by rw [h1]; exact Bool.false_ne_true), if_neg (by rw [h3]; exact Bool.false_ne_true)]
  rfl

theorem uuidToName_keyword {info : Info} {k : Str} (h : k = c!"@dispvm" ∨ k = c!"@adminvm") :
    uuidToName info k = .ok k := by
  rcases h with rfl | rfl <;> rfl

theorem mem_namesOf {info : Info} {l : List Str} {x : Str} :
    x ∈ namesOf info l ↔ ∃ y ∈ l, uuidToName info y = .ok x := by
  induction l with
  | nil => simp [namesOf]
  | cons y ys ih =>
    unfold namesOf
    cases h : uuidToName info y with
    | ok n => simp [ih, h, eq_comm]
    | error e => simp [ih, h]

/-- An expansion all of whose members are their own name. -/
theorem mem_namesOf_fixed {info : Info} {l : List Str} {x : Str}
    (h : ∀ y ∈ l, uuidToName info y = .ok y) : x ∈ namesOf info l ↔ x ∈ l := by
  rw [mem_namesOf]
  constructor
  · rintro ⟨y, hy, he⟩
    rw [h y hy] at he
    cases he; exact hy
  · intro hx; exact ⟨x, hx, h x hx⟩

/-- Expanding a token raises only for `@dispvm:T` with a missing `T`. -/
def Expandable (info : Info) (t : Token) : Prop :=
  ∀ v, t = .dispvmTemplate v → ∃ d, info.get? v = some d

theorem expand_total {info : Info} (hs : SystemInfo info) {t : Token} :
    Expandable info t → ∃ l, t.expand info = .ok l ∧ ∀ x, x ∈ namesOf info l ↔ Names info t x := by
  intro he
  have ord : ∀ {k d}, (k, d) ∈ info → ¬ IsUuid k → k ≠ [] ∧ k.head? ≠ some '@' ∧ k ≠ c!"*" :=
    fun h _ => hs.ordinary _ _ (get?_of_mem hs.keys h)
  have nm : ∀ {k d}, IsDomain info k d → uuidToName info k = .ok k :=
    fun h => uuidToName_plain h.2 (hs.ordinary _ _ h.1).2.1
  have dv : ∀ {k d}, IsDomain info k d →
      uuidToName info (c!"@dispvm:" ++ k) = .ok (c!"@dispvm:" ++ k) := fun h => uuidToName_dispvm h.2
  cases t with
  | name s =>
    simp only [Token.expand]
    by_cases hh : info.has s = true
    · rw [Info.has, Option.isSome_iff_exists] at hh
      obtain ⟨d, hd⟩ := hh
      obtain ⟨hn, hdn⟩ : uuidToName info s = .ok d.name ∧ IsDomain info d.name d := by
        by_cases hu : IsUuid s
        · obtain ⟨u, rfl⟩ := hu
          have := (hs.uuid_entry u d hd).2
          refine ⟨?_, this⟩
          unfold uuidToName
          rw [if_pos (startsWith_append _ _), lookup_eq_ok.2 hd]
          rfl
        · have := hs.name_of s d ⟨hd, hu⟩
          rw [this]
          exact ⟨nm ⟨hd, hu⟩, hd, hu⟩
      have ho := intendedName_ordinary (hs.ordinary _ _ hdn.1)
      refine ⟨[d.name], by simp [Info.has, hd, hn, ho], ?_⟩
      intro x
      rw [mem_namesOf_fixed (by simp [nm hdn])]
      simp [Names, hd]
    · refine ⟨[], by simp [hh], ?_⟩
      simp only [Info.has, Bool.not_eq_true, Option.isSome_eq_false_iff, Option.isNone_iff_eq_none] at hh
      simp [namesOf, Names, hh]
  | adminvm => exact ⟨_, rfl, by simp [mem_namesOf_fixed, uuidToName_keyword, Names]⟩
  | dispvm => exact ⟨_, rfl, by simp [mem_namesOf_fixed, uuidToName_keyword, Names]⟩
  | default => exact ⟨_, rfl, by simp [namesOf, Names]⟩
  | typeVM v =>
    obtain ⟨l, hl, hm⟩ := expandLoop_ok (info := info)
      (f := fun k d => if d.cls == v then (intendedName k).map (fun x => [x]) else .ok [])
      (g := fun k d => if d.cls == v then [k] else []) (by
        intro k d hkd hk
        rw [intendedName_ordinary (ord hkd hk)]
        split_ifs <;> rfl)
    refine ⟨l, hl, ?_⟩
    intro x
    rw [mem_namesOf_fixed, hm]
    · constructor
      · rintro ⟨k, d, h1, h2, h3⟩
        split_ifs at h3 with h4
        · simp at h3; subst h3
          exact ⟨d, (mem_isDomain hs).1 ⟨h1, h2⟩, by simpa using h4⟩
        · simp at h3
      · rintro ⟨d, h1, h2⟩
        obtain ⟨h3, h4⟩ := (mem_isDomain hs).2 h1
        exact ⟨x, d, h3, h4, by simp [h2]⟩
    · intro y hy
      obtain ⟨k, d, h1, h2, h3⟩ := (hm y).1 hy
      split_ifs at h3 <;> simp at h3
      subst h3; exact nm ((mem_isDomain hs).1 ⟨h1, h2⟩)
  | tagVM v =>
    obtain ⟨l, hl, hm⟩ := expandLoop_ok (info := info)
      (f := fun k d => if d.tags.contains v then (intendedName k).map (fun x => [x]) else .ok [])
      (g := fun k d => if d.tags.contains v then [k] else []) (by
        intro k d hkd hk
        rw [intendedName_ordinary (ord hkd hk)]
        split_ifs <;> rfl)
    refine ⟨l, hl, ?_⟩
    intro x
    rw [mem_namesOf_fixed, hm]
    · constructor
      · rintro ⟨k, d, h1, h2, h3⟩
        split_ifs at h3 with h4
        · simp at h3; subst h3
          exact ⟨d, (mem_isDomain hs).1 ⟨h1, h2⟩, by simpa using h4⟩
        · simp at h3
      · rintro ⟨d, h1, h2⟩
        obtain ⟨h3, h4⟩ := (mem_isDomain hs).2 h1
        exact ⟨x, d, h3, h4, by simp [h2]⟩
    · intro y hy
      obtain ⟨k, d, h1, h2, h3⟩ := (hm y).1 hy
      split_ifs at h3 <;> simp at h3
      subst h3; exact nm ((mem_isDomain hs).1 ⟨h1, h2⟩)
  | wildcard =>
    obtain ⟨l, hl, hm⟩ := expandLoop_ok (info := info)
      (f := fun k d => do
        let n ← intendedName k
        if d.templateForDispvms then
          let t ← mkDispvmTemplate k
          return [n, t.str]
        else return [n])
      (g := fun k d => if d.templateForDispvms then [k, c!"@dispvm:" ++ k] else [k]) (by
        intro k d hkd hk
        obtain ⟨o1, o2, o3⟩ := ord hkd hk
        rw [intendedName_ordinary ⟨o1, o2, o3⟩, mkDispvmTemplate_of o1 o2]
        split_ifs <;> rfl)
    have hx : ∀ x, x ∈ l ++ [c!"@dispvm"] ↔ Names info .wildcard x := by
      intro x
      rw [List.mem_append, hm]
      simp only [Names, List.mem_singleton]
      constructor
      · rintro (⟨k, d, h1, h2, h3⟩ | h)
        · have hD := (mem_isDomain hs).1 ⟨h1, h2⟩
          split_ifs at h3 with h4
          · simp only [List.mem_cons, List.not_mem_nil, or_false] at h3
            rcases h3 with rfl | rfl
            · exact Or.inl ⟨d, hD⟩
            · exact Or.inr (Or.inl ⟨k, d, hD, h4, rfl⟩)
          · simp at h3; subst h3; exact Or.inl ⟨d, hD⟩
        · exact Or.inr (Or.inr h)
      · rintro (⟨d, hD⟩ | ⟨k, d, hD, h4, rfl⟩ | h)
        · obtain ⟨h3, h4⟩ := (mem_isDomain hs).2 hD
          exact Or.inl ⟨x, d, h3, h4, by split_ifs <;> simp⟩
        · obtain ⟨h3, h5⟩ := (mem_isDomain hs).2 hD
          exact Or.inl ⟨k, d, h3, h5, by simp [h4]⟩
        · exact Or.inr h
    refine ⟨l ++ [c!"@dispvm"], by simp only [Token.expand]; rw [hl]; rfl, ?_⟩
    intro x
    rw [mem_namesOf_fixed, hx]
    intro y hy
    rcases (hx y).1 hy with ⟨d, hD⟩ | ⟨k, d, hD, _, rfl⟩ | rfl
    · exact nm hD
    · exact dv hD
    · rfl
  | anyvm =>
    obtain ⟨l, hl, hm⟩ := expandLoop_ok (info := info)
      (f := fun k d => do
        let n ← if isDom0 k then .ok [] else (intendedName k).map (fun x => [x])
        if d.templateForDispvms then
          let t ← mkDispvmTemplate k
          return n ++ [t.str]
        else return n)
      (g := fun k d => (if isDom0 k then [] else [k]) ++
        if d.templateForDispvms then [c!"@dispvm:" ++ k] else []) (by
        intro k d hkd hk
        obtain ⟨o1, o2, o3⟩ := ord hkd hk
        rw [intendedName_ordinary ⟨o1, o2, o3⟩, mkDispvmTemplate_of o1 o2]
        by_cases h0 : isDom0 k = true <;> by_cases h4 : d.templateForDispvms = true <;>
          simp [h0, h4, Except.map, Token.str])
    have hx : ∀ x, x ∈ l ++ [c!"@dispvm"] ↔ Names info .anyvm x := by
      intro x
      rw [List.mem_append, hm]
      simp only [Names, List.mem_singleton, List.mem_append]
      constructor
      · rintro (⟨k, d, h1, h2, h3 | h3⟩ | h)
        · have hD := (mem_isDomain hs).1 ⟨h1, h2⟩
          split_ifs at h3 with h4
          · simp at h3
          · simp at h3; subst h3; exact Or.inl ⟨d, hD, fun h => h4 ((isDom0_iff _).2 h)⟩
        · have hD := (mem_isDomain hs).1 ⟨h1, h2⟩
          split_ifs at h3 with h4
          · simp only [List.mem_singleton] at h3; subst h3
            exact Or.inr (Or.inl ⟨k, d, hD, h4, rfl⟩)
          · simp at h3
        · exact Or.inr (Or.inr h)
      · rintro (⟨d, hD, h0⟩ | ⟨k, d, hD, h4, rfl⟩ | h)
        · obtain ⟨h3, h4⟩ := (mem_isDomain hs).2 hD
          exact Or.inl ⟨x, d, h3, h4, Or.inl (by simp [(isDom0_false_iff _).2 h0])⟩
        · obtain ⟨h3, h5⟩ := (mem_isDomain hs).2 hD
          exact Or.inl ⟨k, d, h3, h5, Or.inr (by simp [h4])⟩
        · exact Or.inr h
    refine ⟨l ++ [c!"@dispvm"], by simp only [Token.expand]; rw [hl]; rfl, ?_⟩
    intro x
    rw [mem_namesOf_fixed, hx]
    intro y hy
    rcases (hx y).1 hy with ⟨d, hD, _⟩ | ⟨k, d, hD, _, rfl⟩ | rfl
    · exact nm hD
    · exact dv hD
    · rfl
  | dispvmTemplate v =>
    obtain ⟨d, hd⟩ := he v rfl
    obtain ⟨hn, hdn⟩ : uuidToName info (c!"@dispvm:" ++ v) = .ok (c!"@dispvm:" ++ d.name) ∧
        IsDomain info d.name d := by
      by_cases hu : IsUuid v
      · obtain ⟨u, rfl⟩ := hu
        have := (hs.uuid_entry u d hd).2
        refine ⟨?_, this⟩
        have h1 : startsWith c!"uuid:" (c!"@dispvm:" ++ (c!"uuid:" ++ u)) = false := by
          rw [startsWith_uuid_false]; exact not_isUuid_at _
        have h2 : startsWith c!"@dispvm:uuid:" (c!"@dispvm:" ++ (c!"uuid:" ++ u)) = true :=
          startsWith_append c!"@dispvm:uuid:" u
        unfold uuidToName
        rw [if_neg (by rw [h1]; exact Bool.false_ne_true), if_pos h2]
        have h3 : (c!"@dispvm:" ++ (c!"uuid:" ++ u)).drop 8 = c!"uuid:" ++ u := rfl
        rw [h3, lookup_eq_ok.2 hd]
        rfl
      · have := hs.name_of v d ⟨hd, hu⟩
        rw [this]
        exact ⟨uuidToName_dispvm hu, hd, hu⟩
    by_cases h4 : d.templateForDispvms = true
    · refine ⟨[c!"@dispvm:" ++ d.name], by
        simp only [Token.expand]; rw [lookup_eq_ok.2 hd, ok_bind, if_pos h4, hn]; rfl, ?_⟩
      intro x
      rw [mem_namesOf_fixed (by
        intro y hy; rw [List.mem_singleton] at hy; subst hy; exact dv hdn)]
      simp [Names, hd, h4]
    · refine ⟨[], by simp [Token.expand, Info.lookup, hd, h4], ?_⟩
      simp [namesOf, Names, hd, h4]
  | dispvmTag v =>
    obtain ⟨l, hl, hm⟩ := expandLoop_ok (info := info)
      (f := fun k d => if d.tags.contains v && d.templateForDispvms then
        (mkDispvmTemplate k).map (fun t => [t.str]) else .ok [])
      (g := fun k d => if d.tags.contains v && d.templateForDispvms then
        [c!"@dispvm:" ++ k] else []) (by
        intro k d hkd hk
        obtain ⟨o1, o2, o3⟩ := ord hkd hk
        rw [mkDispvmTemplate_of o1 o2]
        split_ifs <;> rfl)
    have hx : ∀ x, x ∈ l ↔ Names info (.dispvmTag v) x := by
      intro x
      rw [hm]
      simp only [Names]
      constructor
      · rintro ⟨k, d, h1, h2, h3⟩
        split_ifs at h3 with h4
        · simp only [List.mem_singleton] at h3; subst h3
          simp only [Bool.and_eq_true, List.contains_iff_mem] at h4
          exact ⟨k, d, (mem_isDomain hs).1 ⟨h1, h2⟩, h4.2, h4.1, rfl⟩
        · simp at h3
      · rintro ⟨k, d, hD, h4, h5, rfl⟩
        obtain ⟨h3, h6⟩ := (mem_isDomain hs).2 hD
        exact ⟨k, d, h3, h6, by simp [h4, h5]⟩
    refine ⟨l, hl, ?_⟩
    intro x
    rw [mem_namesOf_fixed, hx]
    intro y hy
    obtain ⟨k, d, hD, _, _, rfl⟩ := (hx y).1 hy
    exact dv hD

theorem expand_names {info : Info} (hs : SystemInfo info) {t : Token} {l : List Str}
    (h : t.expand info = .ok l) (x : Str) : x ∈ namesOf info l ↔ Names info t x := by
  have he : Expandable info t := by
    rintro v rfl
    simp only [Token.expand, bind_eq_ok, lookup_eq_ok] at h
    obtain ⟨d, hd, _⟩ := h
    exact ⟨d, hd⟩
  obtain ⟨l', h1, h2⟩ := expand_total hs he
  rw [h] at h1; cases h1
  exact h2 x

theorem mem_setUnion {s xs : List Str} {x : Str} : x ∈ setUnion s xs ↔ x ∈ s ∨ x ∈ xs := by
  unfold setUnion
  induction xs generalizing s with
  | nil => simp
  | cons y ys ih =>
    rw [List.foldl_cons, ih]
    split_ifs with h
    · simp only [List.contains_iff_mem] at h
      simp only [List.mem_cons]
      constructor
      · rintro (h | h) <;> simp [h]
      · rintro (h' | rfl | h')
        · exact Or.inl h'
        · exact Or.inl h
        · exact Or.inr h'
    · simp only [List.mem_append, List.mem_cons, List.not_mem_nil, or_false]
      rw [or_assoc]

theorem mem_setDiff {s xs : List Str} {x : Str} : x ∈ setDiff s xs ↔ x ∈ s ∧ x ∉ xs := by
  simp [setDiff]

theorem mem_setRemove {s : List Str} {x y : Str} : x ∈ setRemove s y ↔ x ∈ s ∧ x ≠ y := by
  simp [setRemove]

theorem aboutTarget_iff (r : Rule) (t : Token) : AboutTarget r t ↔ r.askTarget = t := by
  unfold AboutTarget Rule.askTarget
  constructor
  · rintro (⟨u, n, a, h⟩ | ⟨d, u, n, a, h⟩ | ⟨h1, h2, h⟩)
    · rw [h]
    · rw [h]
    · split
      · exact absurd ‹_› (h1 _ _ _ _)
      · exact absurd ‹_› (h2 _ _ _ _ _)
      · exact h.symm
  · intro h
    split at h
    · subst h; rename_i h; exact Or.inl ⟨_, _, _, h⟩
    · subst h; rename_i h; exact Or.inr (Or.inl ⟨_, _, _, _, h⟩)
    · rename_i h1 h2
      exact Or.inr (Or.inr ⟨fun _ _ _ _ h => h1 _ _ _ _ h, fun _ _ _ _ _ h => h2 _ _ _ _ _ h, h.symm⟩)

theorem speaks_iff (req : Request) (x : Str) (r : Rule) :
    Speaks req x r ↔ AppliesTo r req ∧ Names req.info r.askTarget x := by
  unfold Speaks
  simp only [aboutTarget_iff]
  constructor
  · rintro ⟨h, t, rfl, hn⟩; exact ⟨h, hn⟩
  · rintro ⟨h, hn⟩; exact ⟨h, _, rfl, hn⟩

theorem collectLoop_append (req : Request) (l1 l2 : List Rule) (acc : List Str) :
    collectLoop req (l1 ++ l2) acc = (collectLoop req l1 acc >>= collectLoop req l2) := by
  induction l1 generalizing acc with
  | nil => rfl
  | cons r rs ih =>
    simp only [List.cons_append, collectLoop]
    split
    · rfl
    · exact ih _
    · split
      · rfl
      · split_ifs <;> exact ih _

theorem isDeny_iff (a : Action) : a.isDeny = true ↔ ∃ n, a = .deny n := by
  cases a <;> simp [Action.isDeny]

theorem firstSpeaker_cons (r : Rule) (rs : List Rule) (req : Request) (x : Str) :
    FirstSpeakerNotDeny (r :: rs) req x ↔
      (Speaks req x r ∧ ∀ n, r.action ≠ .deny n) ∨
      (¬ Speaks req x r ∧ FirstSpeakerNotDeny rs req x) := by
  constructor
  · rintro ⟨pre, r', post, hs, hb, hh, hd⟩
    cases pre with
    | nil =>
      simp at hs
      obtain ⟨rfl, rfl⟩ := hs
      exact Or.inl ⟨hh, hd⟩
    | cons y ys =>
      simp at hs
      obtain ⟨rfl, rfl⟩ := hs
      exact Or.inr ⟨hb _ (by simp), ys, r', post, rfl, fun z hz => hb z (by simp [hz]), hh, hd⟩
  · rintro (⟨h1, h2⟩ | ⟨h1, pre, r', post, rfl, hb, hh, hd⟩)
    · exact ⟨[], r, rs, rfl, by simp, h1, h2⟩
    · refine ⟨r :: pre, r', post, rfl, ?_, hh, hd⟩
      intro y hy
      rcases List.mem_cons.1 hy with rfl | hy
      · exact h1
      · exact hb y hy

/-- The heart of C15: the reversed loop computes "the first rule speaking about it". -/
theorem collectLoop_mem {req : Request} (hs : SystemInfo req.info) {rules : List Rule}
    {ts : List Str} (h : collectLoop req rules.reverse [] = .ok ts) (x : Str) :
    x ∈ ts ↔ FirstSpeakerNotDeny rules req x := by
  induction rules generalizing ts with
  | nil =>
    simp [collectLoop] at h
    subst h
    simp only [List.not_mem_nil, false_iff]
    rintro ⟨pre, r, post, h, _⟩
    simp at h
  | cons r rs ih =>
    rw [List.reverse_cons, collectLoop_append] at h
    obtain ⟨ts0, h0, h1⟩ := bind_eq_ok.1 h
    have ih := ih h0
    rw [firstSpeaker_cons, speaks_iff]
    simp only [collectLoop] at h1
    split at h1
    · simp at h1
    · rename_i hm
      have hna := (isMatchButTarget_false_iff hs.ordinary).1 hm
      cases h1
      rw [ih]; simp [hna]
    · rename_i hm
      have ha := (isMatchButTarget_true_iff hs.ordinary).1 hm
      split at h1
      · simp at h1
      · rename_i ex hex
        have hN := expand_names hs hex x
        split_ifs at h1 with hd
        · cases h1
          obtain ⟨n, hn⟩ := (isDeny_iff _).1 hd
          rw [mem_setDiff, hN, ih]
          simp [ha, hn, and_comm]
        · cases h1
          have hnd : ∀ n, r.action ≠ .deny n := fun n hn => hd ((isDeny_iff _).2 ⟨n, hn⟩)
          rw [mem_setUnion, hN, ih]
          simp only [ha, hnd, true_and, ne_eq, not_false_eq_true, implies_true, and_true]
          tauto

end Qrexec
