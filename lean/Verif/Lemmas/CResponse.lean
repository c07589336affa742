import Verif.Spec.CResponse
import Verif.Lemmas.Daemon

namespace Qrexec
open Spec

/-- The text stored for a key. -/
def slot (p : PolicyAnswer) (k : Str) : Option Str :=
  if k = c!"result" then p.result.map fun b => if b then c!"allow" else c!"deny"
  else if k = c!"user" then p.user
  else if k = c!"target" then p.target
  else if k = c!"target_uuid" then p.targetUuid
  else if k = c!"autostart" then p.autostart.map fun b => if b then c!"True" else c!"False"
  else if k = c!"requested_target" then p.requestedTarget
  else if k = c!"service" then p.service
  else if k = c!"policy_source" then p.policySource
  else none

/-- May this value be stored under this key? -/
def ValueOk (k v : Str) : Prop :=
  (k = c!"result" → v = c!"allow" ∨ v = c!"deny") ∧
  (k = c!"autostart" → v = c!"True" ∨ v = c!"False")

theorem startsWith_key {key line : Str} (hk : '=' ∉ key) :
    startsWith (key ++ c!"=") line = true ↔
      splitOnce '=' line = some (key, line.drop (key.length + 1)) := by
  unfold startsWith
  rw [List.isPrefixOf_iff_prefix, splitOnce_eq_some]
  constructor
  · rintro ⟨t, rfl⟩
    refine ⟨?_, hk⟩
    have : (key ++ c!"=" ++ t).drop (key.length + 1) = t := by
      have hl : (key ++ c!"=").length = key.length + 1 := by simp
      rw [← hl, List.drop_left]
    rw [this]; simp
  · rintro ⟨h, _⟩
    refine ⟨line.drop (key.length + 1), ?_⟩
    rw [List.append_assoc]
    exact h.symm

theorem startsWith_key' {key line k v : Str} (hk : '=' ∉ key) (hs : splitOnce '=' line = some (k, v)) :
    (startsWith (key ++ c!"=") line = true ↔ k = key) ∧
    (k = key → line.drop (key.length + 1) = v) := by
  obtain ⟨h1, h2⟩ := splitOnce_eq_some.1 hs
  have hd : k = key → line.drop (key.length + 1) = v := by
    rintro rfl
    rw [h1]
    have hl : (k ++ c!"=").length = k.length + 1 := by simp
    have e : k ++ '=' :: v = (k ++ c!"=") ++ v := by simp
    rw [e, ← hl, List.drop_left]
  refine ⟨?_, hd⟩
  rw [startsWith_key hk, hs]
  constructor
  · intro h
    simp only [Option.some.injEq, Prod.mk.injEq] at h
    exact h.1
  · intro h
    rw [hd h, h]

/-- One line as a field. -/
def responseField (p : PolicyAnswer) (k v : Str) : Option PolicyAnswer :=
  if k = c!"result" then
    (setOnce p.result (twoWords c!"allow" c!"deny" v)).map fun x => { p with result := x }
  else if k = c!"user" then (setOnce p.user (some v)).map fun x => { p with user := x }
  else if k = c!"target" then (setOnce p.target (some v)).map fun x => { p with target := x }
  else if k = c!"target_uuid" then
    (setOnce p.targetUuid (some v)).map fun x => { p with targetUuid := x }
  else if k = c!"autostart" then
    (setOnce p.autostart (twoWords c!"True" c!"False" v)).map fun x => { p with autostart := x }
  else if k = c!"requested_target" then
    (setOnce p.requestedTarget (some v)).map fun x => { p with requestedTarget := x }
  else if k = c!"service" then (setOnce p.service (some v)).map fun x => { p with service := x }
  else if k = c!"policy_source" then
    (setOnce p.policySource (some v)).map fun x => { p with policySource := x }
  else some p

theorem responseLine_some {p : PolicyAnswer} {line k v : Str} (h : splitOnce '=' line = some (k, v)) :
    responseLine p line = responseField p k v := by
  have hc : line.contains '=' = true := by
    rw [(splitOnce_eq_some.1 h).1]; simp
  unfold responseLine responseField
  have k1 := startsWith_key' (key := c!"result") (by decide) h
  have k2 := startsWith_key' (key := c!"user") (by decide) h
  have k3 := startsWith_key' (key := c!"target") (by decide) h
  have k4 := startsWith_key' (key := c!"target_uuid") (by decide) h
  have k5 := startsWith_key' (key := c!"autostart") (by decide) h
  have k6 := startsWith_key' (key := c!"requested_target") (by decide) h
  have k7 := startsWith_key' (key := c!"service") (by decide) h
  have k8 := startsWith_key' (key := c!"policy_source") (by decide) h
  simp only [List.cons_append, List.nil_append, List.length_cons, List.length_nil, Nat.reduceAdd] at k1 k2 k3 k4 k5 k6 k7 k8
  by_cases e1 : k = c!"result"
  · rw [if_pos (k1.1.2 e1), if_pos e1, k1.2 e1]
  rw [if_neg (fun h => e1 (k1.1.1 h)), if_neg e1]
  by_cases e2 : k = c!"user"
  · rw [if_pos (k2.1.2 e2), if_pos e2, k2.2 e2]
  rw [if_neg (fun h => e2 (k2.1.1 h)), if_neg e2]
  by_cases e3 : k = c!"target"
  · rw [if_pos (k3.1.2 e3), if_pos e3, k3.2 e3]
  rw [if_neg (fun h => e3 (k3.1.1 h)), if_neg e3]
  by_cases e4 : k = c!"target_uuid"
  · rw [if_pos (k4.1.2 e4), if_pos e4, k4.2 e4]
  rw [if_neg (fun h => e4 (k4.1.1 h)), if_neg e4]
  by_cases e5 : k = c!"autostart"
  · rw [if_pos (k5.1.2 e5), if_pos e5, k5.2 e5]
  rw [if_neg (fun h => e5 (k5.1.1 h)), if_neg e5]
  by_cases e6 : k = c!"requested_target"
  · rw [if_pos (k6.1.2 e6), if_pos e6, k6.2 e6]
  rw [if_neg (fun h => e6 (k6.1.1 h)), if_neg e6]
  by_cases e7 : k = c!"service"
  · rw [if_pos (k7.1.2 e7), if_pos e7, k7.2 e7]
  rw [if_neg (fun h => e7 (k7.1.1 h)), if_neg e7]
  by_cases e8 : k = c!"policy_source"
  · rw [if_pos (k8.1.2 e8), if_pos e8, k8.2 e8]
  rw [if_neg (fun h => e8 (k8.1.1 h)), if_neg e8]
  rw [hc]; rfl

theorem responseLine_none {p : PolicyAnswer} {line : Str} (h : splitOnce '=' line = none) :
    responseLine p line = none := by
  have hc : line.contains '=' = false := by
    rw [Bool.eq_false_iff]
    intro hc
    rw [List.contains_iff_mem] at hc
    obtain ⟨a, b, hl, hn⟩ : ∃ a b, line = a ++ '=' :: b ∧ '=' ∉ a := by
      have : ∀ l : Str, '=' ∈ l → ∃ a b, l = a ++ '=' :: b ∧ '=' ∉ a := by
        intro l
        induction l with
        | nil => simp
        | cons c cs ih =>
          intro hm
          by_cases hce : c = '='
          · exact ⟨[], cs, by simp [hce], by simp⟩
          · rcases List.mem_cons.1 hm with h | h
            · exact absurd h.symm hce
            · obtain ⟨a, b, rfl, hn⟩ := ih h
              exact ⟨c :: a, b, rfl, by simp [hn, Ne.symm hce]⟩
      exact this line hc
    rw [splitOnce_eq_some.2 ⟨hl, hn⟩] at h
    simp at h
  have hk : ∀ key : Str, '=' ∉ key → startsWith (key ++ c!"=") line = false := by
    intro key hkey
    rw [Bool.eq_false_iff]
    intro hs
    rw [(startsWith_key hkey).1 hs] at h
    simp at h
  unfold responseLine
  have k1 := hk c!"result" (by decide)
  have k2 := hk c!"user" (by decide)
  have k3 := hk c!"target" (by decide)
  have k4 := hk c!"target_uuid" (by decide)
  have k5 := hk c!"autostart" (by decide)
  have k6 := hk c!"requested_target" (by decide)
  have k7 := hk c!"service" (by decide)
  have k8 := hk c!"policy_source" (by decide)
  simp only [List.cons_append, List.nil_append] at k1 k2 k3 k4 k5 k6 k7 k8
  rw [k1, k2, k3, k4, k5, k6, k7, k8, hc]
  rfl

theorem slot_ext {p q : PolicyAnswer} (h : ∀ k ∈ knownKeys, slot p k = slot q k) : p = q := by
  have h1 := h c!"result" (by decide)
  have h2 := h c!"user" (by decide)
  have h3 := h c!"target" (by decide)
  have h4 := h c!"target_uuid" (by decide)
  have h5 := h c!"autostart" (by decide)
  have h6 := h c!"requested_target" (by decide)
  have h7 := h c!"service" (by decide)
  have h8 := h c!"policy_source" (by decide)
  obtain ⟨a1, a2, a3, a4, a5, a6, a7, a8⟩ := p
  obtain ⟨b1, b2, b3, b4, b5, b6, b7, b8⟩ := q
  change a2 = b2 at h2
  change a3 = b3 at h3
  change a4 = b4 at h4
  change a6 = b6 at h6
  change a7 = b7 at h7
  change a8 = b8 at h8
  change a1.map _ = b1.map _ at h1
  change a5.map _ = b5.map _ at h5
  have e1 : a1 = b1 := by
    rcases a1 with _ | ⟨_ | _⟩ <;> rcases b1 with _ | ⟨_ | _⟩ <;> simp at h1 ⊢
  have e5 : a5 = b5 := by
    rcases a5 with _ | ⟨_ | _⟩ <;> rcases b5 with _ | ⟨_ | _⟩ <;> simp at h5 ⊢
  subst h2 h3 h4 h6 h7 h8 e1 e5
  rfl

theorem twoWords_eq_some {a b v : Str} {x : Bool} :
    twoWords a b v = some x ↔ (x = true ∧ v = a) ∨ (x = false ∧ v = b ∧ v ≠ a) := by
  unfold twoWords
  by_cases h1 : v = a
  · subst h1
    cases x <;> simp
  · have : (v == a) = false := by simpa using h1
    rw [this]
    by_cases h2 : v = b
    · subst h2; cases x <;> simp [h1]
    · have : (v == b) = false := by simpa using h2
      rw [this]
      simp [h1, h2]

/-- Storing a field: what it does to the slots. -/
theorem responseField_iff {p q : PolicyAnswer} {k v : Str} :
    responseField p k v = some q ↔
      (k ∉ knownKeys ∧ q = p) ∨
      (k ∈ knownKeys ∧ slot p k = none ∧ ValueOk k v ∧ slot q k = some v ∧
        ∀ k' ∈ knownKeys, k' ≠ k → slot q k' = slot p k') := by
  by_cases hk : k ∈ knownKeys
  · have hk' := hk
    simp only [knownKeys, List.mem_cons, List.not_mem_nil, or_false] at hk'
    have hex : ∀ q', slot q' k = some v → (∀ k' ∈ knownKeys, k' ≠ k → slot q' k' = slot p k') →
        (slot q k = some v ∧ (∀ k' ∈ knownKeys, k' ≠ k → slot q k' = slot p k') ↔ q' = q) := by
      intro q' h1 h2
      constructor
      · rintro ⟨h3, h4⟩
        apply slot_ext
        intro k' hk'
        by_cases he : k' = k
        · subst he; rw [h1, h3]
        · rw [h2 k' hk' he, h4 k' hk' he]
      · rintro rfl; exact ⟨h1, h2⟩
    have key : (∃ q', responseField p k v = some q' ∧ slot p k = none ∧ ValueOk k v ∧
          slot q' k = some v ∧ ∀ k' ∈ knownKeys, k' ≠ k → slot q' k' = slot p k') ∨
        (responseField p k v = none ∧ ¬ (slot p k = none ∧ ValueOk k v)) := by
      obtain ⟨a1, a2, a3, a4, a5, a6, a7, a8⟩ := p
      rcases hk' with rfl | rfl | rfl | rfl | rfl | rfl | rfl | rfl
      · rcases a1 with _ | b
        · by_cases hv : v = c!"allow"
          · subst hv
            refine Or.inl ⟨_, rfl, rfl, ⟨fun _ => Or.inl rfl, by decide⟩, rfl, ?_⟩
            intro k' hk' hne
            unfold slot
            simp only [if_neg hne]
          · by_cases hv2 : v = c!"deny"
            · subst hv2
              refine Or.inl ⟨_, rfl, rfl, ⟨fun _ => Or.inr rfl, by decide⟩, rfl, ?_⟩
              intro k' hk' hne
              unfold slot
              simp only [if_neg hne]
            · right
              refine ⟨?_, ?_⟩
              · simp [responseField, setOnce, twoWords, hv, hv2]
              · rintro ⟨_, h, _⟩
                rcases h rfl with h | h
                · exact hv h
                · exact hv2 h
        · right
          exact ⟨rfl, fun h => by simp [slot] at h⟩
      · rcases a2 with _ | b
        · refine Or.inl ⟨_, rfl, rfl, ⟨fun h => absurd h (by decide), fun h => absurd h (by decide)⟩, rfl, ?_⟩
          intro k' hk' hne; unfold slot; simp only [if_neg hne]
        · exact Or.inr ⟨rfl, fun h => by simp [slot] at h⟩
      · rcases a3 with _ | b
        · refine Or.inl ⟨_, rfl, rfl, ⟨fun h => absurd h (by decide), fun h => absurd h (by decide)⟩, rfl, ?_⟩
          intro k' hk' hne; unfold slot; simp only [if_neg hne]
        · exact Or.inr ⟨rfl, fun h => by simp [slot] at h⟩
      · rcases a4 with _ | b
        · refine Or.inl ⟨_, rfl, rfl, ⟨fun h => absurd h (by decide), fun h => absurd h (by decide)⟩, rfl, ?_⟩
          intro k' hk' hne; unfold slot; simp only [if_neg hne]
        · exact Or.inr ⟨rfl, fun h => by simp [slot] at h⟩
      · rcases a5 with _ | b
        · by_cases hv : v = c!"True"
          · subst hv
            refine Or.inl ⟨_, rfl, rfl, ⟨by decide, fun _ => Or.inl rfl⟩, rfl, ?_⟩
            intro k' hk' hne
            unfold slot
            simp only [if_neg hne]
          · by_cases hv2 : v = c!"False"
            · subst hv2
              refine Or.inl ⟨_, rfl, rfl, ⟨by decide, fun _ => Or.inr rfl⟩, rfl, ?_⟩
              intro k' hk' hne
              unfold slot
              simp only [if_neg hne]
            · right
              refine ⟨?_, ?_⟩
              · simp [responseField, setOnce, twoWords, hv, hv2]
              · rintro ⟨_, _, h⟩
                rcases h rfl with h | h
                · exact hv h
                · exact hv2 h
        · right
          exact ⟨rfl, fun h => by simp [slot] at h⟩
      · rcases a6 with _ | b
        · refine Or.inl ⟨_, rfl, rfl, ⟨fun h => absurd h (by decide), fun h => absurd h (by decide)⟩, rfl, ?_⟩
          intro k' hk' hne; unfold slot; simp only [if_neg hne]
        · exact Or.inr ⟨rfl, fun h => by simp [slot] at h⟩
      · rcases a7 with _ | b
        · refine Or.inl ⟨_, rfl, rfl, ⟨fun h => absurd h (by decide), fun h => absurd h (by decide)⟩, rfl, ?_⟩
          intro k' hk' hne; unfold slot; simp only [if_neg hne]
        · exact Or.inr ⟨rfl, fun h => by simp [slot] at h⟩
      · rcases a8 with _ | b
        · refine Or.inl ⟨_, rfl, rfl, ⟨fun h => absurd h (by decide), fun h => absurd h (by decide)⟩, rfl, ?_⟩
          intro k' hk' hne; unfold slot; simp only [if_neg hne]
        · exact Or.inr ⟨rfl, fun h => by simp [slot] at h⟩
    constructor
    · intro h
      rcases key with ⟨q', h1, h2, h3, h4, h5⟩ | ⟨h1, _⟩
      · rw [h1] at h
        cases h
        exact Or.inr ⟨hk, h2, h3, h4, h5⟩
      · rw [h1] at h; simp at h
    · rintro (⟨h, _⟩ | ⟨_, h2, h3, h4, h5⟩)
      · exact absurd hk h
      · rcases key with ⟨q', k1, k2, k3, k4, k5⟩ | ⟨_, k2⟩
        · rw [k1, (hex q' k4 k5).1 ⟨h4, h5⟩]
        · exact absurd ⟨h2, h3⟩ k2
  · have : responseField p k v = some p := by
      simp only [knownKeys, List.mem_cons, List.not_mem_nil, or_false, not_or] at hk
      obtain ⟨n1, n2, n3, n4, n5, n6, n7, n8⟩ := hk
      unfold responseField
      rw [if_neg n1, if_neg n2, if_neg n3, if_neg n4, if_neg n5, if_neg n6, if_neg n7, if_neg n8]
    rw [this]
    simp only [Option.some.injEq]
    constructor
    · rintro rfl; exact Or.inl ⟨hk, rfl⟩
    · rintro (⟨_, rfl⟩ | ⟨h, _⟩)
      · rfl
      · exact absurd h hk

theorem valueOf_cons (f : Str × Str) (fs : List (Str × Str)) (k : Str) :
    valueOf (f :: fs) k = if f.1 = k then some f.2 else valueOf fs k := by
  unfold valueOf
  by_cases h : f.1 = k
  · simp [h]
  · simp [h]

theorem valueOf_none {fs : List (Str × Str)} {k : Str} :
    valueOf fs k = none ↔ (fs.filter fun f => f.1 = k).length = 0 := by
  induction fs with
  | nil => simp [valueOf]
  | cons f fs ih =>
    rw [valueOf_cons]
    by_cases h : f.1 = k
    · simp [h]
    · rw [if_neg h, ih]
      simp [h]

/-- All the lines. -/
theorem responseLines_iff {p q : PolicyAnswer} {lines : List Str} :
    responseLines p lines = (q, true) ↔ ∃ fs, lines.mapM (splitOnce '=') = some fs ∧
      (∀ k ∈ knownKeys, (fs.filter fun f => f.1 = k).length ≤ 1) ∧
      (∀ k ∈ knownKeys, (valueOf fs k).isSome → slot p k = none) ∧
      (∀ k ∈ knownKeys, ∀ v, valueOf fs k = some v → ValueOk k v) ∧
      ∀ k ∈ knownKeys, slot q k = match valueOf fs k with
        | some v => some v
        | none => slot p k := by
  induction lines generalizing p with
  | nil =>
    simp only [responseLines, List.mapM_nil, Prod.mk.injEq, and_true]
    constructor
    · rintro rfl
      exact ⟨[], rfl, by simp, by simp [valueOf], by simp [valueOf], by simp [valueOf]⟩
    · rintro ⟨fs, hfs, _, _, _, h⟩
      have : fs = [] := by injection hfs with h; exact h.symm
      subst this
      exact slot_ext fun k hk => (by simpa [valueOf] using (h k hk).symm)
  | cons line lines ih =>
    rw [responseLines]
    rcases Option.eq_none_or_eq_some (splitOnce '=' line) with hs | ⟨⟨k, v⟩, hs⟩
    · rw [responseLine_none hs]
      simp [hs]
    · rw [responseLine_some hs]
      constructor
      · intro h
        split at h
        · simp at h
        · rename_i p' hp'
          obtain ⟨fs, hfs, h1, h2, h3, h4⟩ := ih.1 h
          refine ⟨(k, v) :: fs, by simp [hs, hfs], ?_⟩
          rcases responseField_iff.1 hp' with ⟨hk, rfl⟩ | ⟨hk, g1, g2, g3, g4⟩
          · have hne : ∀ x ∈ knownKeys, k ≠ x := fun x hx e => hk (e ▸ hx)
            refine ⟨?_, ?_, ?_, ?_⟩
            · intro x hx
              simp only [List.filter_cons, decide_eq_true_eq, if_neg (hne x hx)]
              exact h1 x hx
            · intro x hx; rw [valueOf_cons, if_neg (hne x hx)]; exact h2 x hx
            · intro x hx; rw [valueOf_cons, if_neg (hne x hx)]; exact h3 x hx
            · intro x hx; rw [valueOf_cons, if_neg (hne x hx)]; exact h4 x hx
          · have hvn : valueOf fs k = none := by
              rcases Option.eq_none_or_eq_some (valueOf fs k) with e | ⟨w, e⟩
              · exact e
              · have := h2 k hk (by rw [e]; rfl)
                rw [g3] at this
                simp at this
            refine ⟨?_, ?_, ?_, ?_⟩
            · intro x hx
              by_cases he : k = x
              · subst he
                simp only [List.filter_cons, decide_true, if_true, List.length_cons]
                rw [valueOf_none.1 hvn]; omega
              · simp only [List.filter_cons, decide_eq_true_eq, if_neg he]
                exact h1 x hx
            · intro x hx
              rw [valueOf_cons]
              by_cases he : k = x
              · subst he; intro _; exact g1
              · rw [if_neg he]
                intro hsome
                rw [← g4 x hx (Ne.symm he)]
                exact h2 x hx hsome
            · intro x hx w
              rw [valueOf_cons]
              by_cases he : k = x
              · subst he
                rw [if_pos rfl]
                intro e; cases e; exact g2
              · rw [if_neg he]; exact h3 x hx w
            · intro x hx
              rw [valueOf_cons, h4 x hx]
              by_cases he : k = x
              · subst he; rw [if_pos rfl, hvn]; exact g3
              · rw [if_neg he, g4 x hx (Ne.symm he)]
      · rintro ⟨fs, hfs, h1, h2, h3, h4⟩
        rw [List.mapM_cons, hs] at hfs
        simp only [Option.bind_eq_bind, Option.bind_some] at hfs
        rcases Option.eq_none_or_eq_some (lines.mapM (splitOnce '=')) with e | ⟨fs', e⟩
        · rw [e] at hfs; simp at hfs
        · rw [e] at hfs
          simp only [Option.bind_some] at hfs
          have hfs : fs = (k, v) :: fs' := by injection hfs with h; exact h.symm
          subst hfs
          have hstep : ∃ p', responseField p k v = some p' ∧
              (∀ x ∈ knownKeys, slot p' x = if k = x then some v else slot p x) := by
            by_cases hk : k ∈ knownKeys
            · -- a record with the new value exists
              have g1 := h2 k hk (by rw [valueOf_cons, if_pos rfl]; rfl)
              have g2 := h3 k hk v (by rw [valueOf_cons, if_pos rfl])
              have hq : ∃ p', slot p' k = some v ∧ ∀ k' ∈ knownKeys, k' ≠ k → slot p' k' = slot p k' := by
                obtain ⟨a1, a2, a3, a4, a5, a6, a7, a8⟩ := p
                have hk' := hk
                simp only [knownKeys, List.mem_cons, List.not_mem_nil, or_false] at hk'
                rcases hk' with rfl | rfl | rfl | rfl | rfl | rfl | rfl | rfl
                · refine ⟨⟨some (v == c!"allow"), a2, a3, a4, a5, a6, a7, a8⟩, ?_, ?_⟩
                  · rcases g2.1 rfl with rfl | rfl <;> rfl
                  · intro k' _ hne; unfold slot; simp only [if_neg hne]
                · refine ⟨⟨a1, some v, a3, a4, a5, a6, a7, a8⟩, rfl, ?_⟩
                  intro k' _ hne; unfold slot; simp only [if_neg hne]
                · refine ⟨⟨a1, a2, some v, a4, a5, a6, a7, a8⟩, rfl, ?_⟩
                  intro k' _ hne; unfold slot; simp only [if_neg hne]
                · refine ⟨⟨a1, a2, a3, some v, a5, a6, a7, a8⟩, rfl, ?_⟩
                  intro k' _ hne; unfold slot; simp only [if_neg hne]
                · refine ⟨⟨a1, a2, a3, a4, some (v == c!"True"), a6, a7, a8⟩, ?_, ?_⟩
                  · rcases g2.2 rfl with rfl | rfl <;> rfl
                  · intro k' _ hne; unfold slot; simp only [if_neg hne]
                · refine ⟨⟨a1, a2, a3, a4, a5, some v, a7, a8⟩, rfl, ?_⟩
                  intro k' _ hne; unfold slot; simp only [if_neg hne]
                · refine ⟨⟨a1, a2, a3, a4, a5, a6, some v, a8⟩, rfl, ?_⟩
                  intro k' _ hne; unfold slot; simp only [if_neg hne]
                · refine ⟨⟨a1, a2, a3, a4, a5, a6, a7, some v⟩, rfl, ?_⟩
                  intro k' _ hne; unfold slot; simp only [if_neg hne]
              obtain ⟨p', q1, q2⟩ := hq
              refine ⟨p', responseField_iff.2 (Or.inr ⟨hk, g1, g2, q1, q2⟩), ?_⟩
              intro x hx
              by_cases he : k = x
              · subst he; rw [if_pos rfl, q1]
              · rw [if_neg he, q2 x hx (Ne.symm he)]
            · refine ⟨p, responseField_iff.2 (Or.inl ⟨hk, rfl⟩), ?_⟩
              intro x hx
              rw [if_neg (fun e : k = x => hk (e ▸ hx))]
          obtain ⟨p', hp', hslot⟩ := hstep
          rw [hp']
          simp only
          rw [ih]
          refine ⟨fs', e, ?_, ?_, ?_, ?_⟩
          · intro x hx
            have := h1 x hx
            simp only [List.filter_cons] at this
            split_ifs at this with hc
            · simp only [List.length_cons] at this; omega
            · exact this
          · intro x hx hsome
            rw [hslot x hx]
            by_cases he : k = x
            · subst he
              exfalso
              have := h1 k hx
              simp only [List.filter_cons, decide_true, if_true, List.length_cons] at this
              have h0 : (fs'.filter fun f => f.1 = k).length = 0 := by omega
              rw [valueOf_none.2 h0] at hsome
              simp at hsome
            · rw [if_neg he]
              have := h2 x hx
              rw [valueOf_cons, if_neg he] at this
              exact this hsome
          · intro x hx w hw
            by_cases he : k = x
            · subst he
              exfalso
              have := h1 k hx
              simp only [List.filter_cons, decide_true, if_true, List.length_cons] at this
              have h0 : (fs'.filter fun f => f.1 = k).length = 0 := by omega
              rw [valueOf_none.2 h0] at hw
              simp at hw
            · have := h3 x hx w
              rw [valueOf_cons, if_neg he] at this
              exact this hw
          · intro x hx
            rw [h4 x hx, valueOf_cons, hslot x hx]
            by_cases he : k = x
            · subst he
              have := h1 k hx
              simp only [List.filter_cons, decide_true, if_true, List.length_cons] at this
              have h0 : (fs'.filter fun f => f.1 = k).length = 0 := by omega
              rw [valueOf_none.2 h0, if_pos rfl, if_pos rfl]
            · rw [if_neg he, if_neg he]

end Qrexec
