import Verif.Lemmas.Toml
import Verif.Props.ServiceFind

/-!
# C66: the configuration of a service
-/
namespace Qrexec
open TomlL

/-- The result of a line. -/
def lineOf (x : Option (Str × TomlVal)) : TomlLine :=
  match x with
  | none => .skip
  | some (k, v) => .set k v

theorem line_iff (l : Str) (nl : Bool) (x : Option (Str × TomlVal)) :
    tomlLine l nl = lineOf x ↔ Char.ofNat 0 ∉ l ∧ ConfText (if nl = true then chopCr l else l) x := by
  unfold tomlLine
  by_cases h0 : l.contains (Char.ofNat 0) = true
  · rw [if_pos h0]
    have : Char.ofNat 0 ∈ l := by simpa using h0
    constructor
    · intro h; cases x <;> cases h
    · intro h; exact absurd this h.1
  · rw [if_neg h0, ← confText_chop, ← text_iff]
    have : Char.ofNat 0 ∉ l := by simpa using h0
    exact ⟨fun h => ⟨this, h⟩, fun h => h.2⟩

/-- The settings of the lines. -/
def settingsOf : List (Str × Bool) → Option (List (Str × TomlVal))
  | [] => some []
  | (l, nl) :: ls => match tomlLine l nl with
    | .skip => settingsOf ls
    | .bad => none
    | .set k v => (settingsOf ls).map fun xs => (k, v) :: xs

/-- Apply settings in turn. -/
def applySettings (seen : TomlSeen) (c : SvcConf) : List (Str × TomlVal) → Option SvcConf
  | [] => some c
  | (k, v) :: xs => match tomlSet seen c k v with
    | none => none
    | some (seen, c) => applySettings seen c xs

theorem loop_iff (ls : List (Str × Bool)) (seen : TomlSeen) (c c' : SvcConf) :
    tomlLoop seen c ls = some c' ↔ ∃ xs, settingsOf ls = some xs ∧ applySettings seen c xs = some c' := by
  induction ls generalizing seen c with
  | nil => exact ⟨fun h => ⟨[], rfl, h⟩, by rintro ⟨xs, h1, h2⟩; cases h1; exact h2⟩
  | cons p ls ih =>
    obtain ⟨l, nl⟩ := p
    rw [tomlLoop, settingsOf]
    cases tomlLine l nl with
    | skip => exact ih seen c
    | bad => exact ⟨fun h => (by cases h), by rintro ⟨xs, h1, _⟩; cases h1⟩
    | set k v =>
      dsimp only
      constructor
      · intro h
        cases hs : tomlSet seen c k v with
        | none => rw [hs] at h; cases h
        | some q =>
          obtain ⟨s', c''⟩ := q
          rw [hs] at h
          obtain ⟨xs, h1, h2⟩ := (ih s' c'').1 h
          exact ⟨(k, v) :: xs, by rw [h1]; rfl, by rw [applySettings, hs]; exact h2⟩
      · rintro ⟨xs, h1, h2⟩
        cases hs : settingsOf ls with
        | none => rw [hs] at h1; cases h1
        | some ys =>
          rw [hs] at h1
          cases h1
          rw [applySettings] at h2
          cases hq : tomlSet seen c k v with
          | none => rw [hq] at h2; cases h2
          | some q =>
            obtain ⟨s', c''⟩ := q
            rw [hq] at h2
            exact (ih s' c'').2 ⟨ys, hs, h2⟩

theorem lines_nl (l rest : Str) (h : '\n' ∉ l) : tomlLines (l ++ '\n' :: rest) = (l, true) :: tomlLines rest := by
  induction l with
  | nil => rw [List.nil_append, tomlLines, if_pos rfl]
  | cons c l ih =>
    rw [List.cons_append, tomlLines, if_neg (fun x => h (by rw [x]; exact List.mem_cons_self ..)),
      ih (fun x => h (List.mem_cons_of_mem _ x))]

theorem lines_last (l : Str) (h0 : l ≠ []) (h : '\n' ∉ l) : tomlLines l = [(l, false)] := by
  induction l with
  | nil => exact absurd rfl h0
  | cons c l ih =>
    rw [tomlLines, if_neg (fun x => h (by rw [x]; exact List.mem_cons_self ..))]
    cases l with
    | nil => rfl
    | cons d l => rw [ih (by simp) (fun x => h (List.mem_cons_of_mem _ x))]

theorem settingsOf_cons (l : Str) (nl : Bool) (ls : List (Str × Bool)) (zs : List (Str × TomlVal)) :
    settingsOf ((l, nl) :: ls) = some zs ↔
      ∃ x xs, tomlLine l nl = lineOf x ∧ settingsOf ls = some xs ∧ zs = x.toList ++ xs := by
  rw [settingsOf]
  cases hl : tomlLine l nl with
  | skip =>
    constructor
    · intro h; exact ⟨none, zs, rfl, h, rfl⟩
    · rintro ⟨x, xs, h1, h2, rfl⟩
      cases x with
      | none => exact h2
      | some p => cases h1
  | bad =>
    constructor
    · intro h; cases h
    · rintro ⟨x, xs, h1, _⟩
      cases x <;> cases h1
  | set k v =>
    constructor
    · intro h
      cases hs : settingsOf ls with
      | none => rw [hs] at h; cases h
      | some xs => rw [hs] at h; cases h; exact ⟨some (k, v), xs, rfl, rfl, rfl⟩
    · rintro ⟨x, xs, h1, h2, rfl⟩
      cases x with
      | none => cases h1
      | some p => obtain ⟨k', v'⟩ := p; cases h1; rw [h2]; rfl

theorem chopCr_snoc (l : Str) : chopCr (l ++ ['\r']) = l := by
  unfold chopCr
  rw [List.getLast?_append]
  simp

theorem chopCr_none (l : Str) (h : l.getLast? ≠ some '\r') : chopCr l = l := by
  unfold chopCr
  split
  · rename_i hx; exact absurd hx h
  · rfl

/-- The settings of a file. -/
theorem file_iff (text : Str) (xs : List (Str × TomlVal)) : settingsOf (tomlLines text) = some xs ↔ ConfFile text xs := by
  constructor
  · intro h
    induction hn : text.length using Nat.strong_induction_on generalizing text xs with
    | _ n ih =>
      cases hs : splitOnce '\n' text with
      | none =>
        have hm := splitOnce_none.1 hs
        by_cases h0 : text = []
        · subst h0
          cases h
          exact .nil
        · rw [lines_last text h0 hm, settingsOf_cons] at h
          obtain ⟨x, ys, h1, h2, rfl⟩ := h
          cases h2
          obtain ⟨k1, k2⟩ := (line_iff text false x).1 h1
          rw [if_neg (by simp)] at k2
          rw [List.append_nil]
          exact .last text x h0 hm k1 k2
      | some p =>
        obtain ⟨l, rest⟩ := p
        obtain ⟨e1, e2⟩ := splitOnce_eq_some.1 hs
        subst e1
        rw [lines_nl l rest e2, settingsOf_cons] at h
        obtain ⟨x, ys, h1, h2, rfl⟩ := h
        have hr := ih rest.length (by rw [← hn]; simp; omega) rest ys h2 rfl
        obtain ⟨k1, k2⟩ := (line_iff l true x).1 h1
        rw [if_pos rfl] at k2
        by_cases hcr : l.getLast? = some '\r'
        · have hne : l ≠ [] := by rintro rfl; cases hcr
          have hl : l = l.dropLast ++ ['\r'] := by
            have := List.dropLast_concat_getLast hne
            rw [List.getLast?_eq_some_getLast hne] at hcr
            rw [Option.some.inj hcr] at this
            exact this.symm
          have hc : chopCr l = l.dropLast := by rw [hl, chopCr_snoc]; simp
          rw [hc] at k2
          have := ConfFile.crlf l.dropLast rest x ys (fun z => e2 (List.dropLast_subset _ z))
            (fun z => k1 (List.dropLast_subset _ z)) k2 hr
          have e : l ++ '\n' :: rest = l.dropLast ++ '\r' :: '\n' :: rest := by
            conv_lhs => rw [hl]
            simp
          rw [e]
          exact this
        · rw [chopCr_none l hcr] at k2
          exact .lf l rest x ys e2 k1 hcr k2 hr
  · intro h
    induction h with
    | nil => rfl
    | last l x h0 h1 h2 h =>
      rw [lines_last l h0 h1, settingsOf_cons]
      exact ⟨x, [], (line_iff l false x).2 ⟨h2, by rw [if_neg (by simp)]; exact h⟩, rfl, by simp⟩
    | lf l rest x xs h1 h2 h3 h hr ih =>
      rw [lines_nl l rest h1, settingsOf_cons]
      exact ⟨x, xs, (line_iff l true x).2 ⟨h2, by rw [if_pos rfl, chopCr_none l h3]; exact h⟩, ih, rfl⟩
    | crlf l rest x xs h1 h2 h hr ih =>
      have e : l ++ '\r' :: '\n' :: rest = (l ++ ['\r']) ++ '\n' :: rest := by simp
      rw [e, lines_nl (l ++ ['\r']) rest (by simp [h1]), settingsOf_cons]
      refine ⟨x, xs, (line_iff _ true x).2 ⟨?_, by rw [if_pos rfl, chopCr_snoc]; exact h⟩, ih, rfl⟩
      intro hm
      rcases List.mem_append.1 hm with hm | hm
      · exact h2 hm
      · exact absurd (List.mem_singleton.1 hm) (by decide)

/-! ## Settings -/

/-- Whether a key was seen. -/
def seenKey (seen : TomlSeen) (key : Str) : Bool :=
  if key = c!"wait-for-session" then seen.wait
  else if key = c!"exit-on-client-eof" then seen.clientEof
  else if key = c!"exit-on-service-eof" then seen.serviceEof
  else if key = c!"skip-service-descriptor" then seen.skipDesc
  else if key = c!"force-user" then seen.user
  else false

/-- Settings applied on top of others. -/
def overConf (c : SvcConf) (xs : List (Str × TomlVal)) : SvcConf where
  waitForSession := match valueOf xs c!"wait-for-session" with
    | some v => decide (v = .bool true ∨ v = .int 1)
    | none => c.waitForSession
  user := match valueOf xs c!"force-user" with
    | some v => strOf (some v)
    | none => c.user
  sendDescriptor := match valueOf xs c!"skip-service-descriptor" with
    | some v => decide (v ≠ .bool true)
    | none => c.sendDescriptor
  exitOnServiceEof := match valueOf xs c!"exit-on-service-eof" with
    | some v => decide (v = .bool true)
    | none => c.exitOnServiceEof
  exitOnClientEof := match valueOf xs c!"exit-on-client-eof" with
    | some v => decide (v = .bool true)
    | none => c.exitOnClientEof

theorem tomlValueOf_cons (k : Str) (v : TomlVal) (xs : List (Str × TomlVal)) (key : Str) :
    valueOf ((k, v) :: xs) key = if k = key then some v else valueOf xs key := by
  unfold valueOf
  rw [List.find?_cons]
  by_cases h : k = key
  · simp [h]
  · simp [h]

theorem tomlValueOf_none (xs : List (Str × TomlVal)) (key : Str) (h : ∀ kv ∈ xs, kv.1 ≠ key) : valueOf xs key = none := by
  unfold valueOf
  rw [List.find?_eq_none.2]
  · rfl
  · intro kv hkv; simpa using h kv hkv

/-- A setting that is accepted. -/
theorem set_some {seen s' : TomlSeen} {c c' : SvcConf} {k : Str} {v : TomlVal}
    (h : tomlSet seen c k v = some (s', c')) :
    RightType k v ∧ (k ∈ knownKeys → seenKey seen k = false) ∧
    (∀ key ∈ knownKeys, seenKey s' key = (seenKey seen key || decide (key = k))) ∧
    ∀ xs : List (Str × TomlVal), (k ∈ knownKeys → ∀ kv ∈ xs, kv.1 ≠ k) → overConf c' xs = overConf c ((k, v) :: xs) := by
  have known : ∀ key, key ∈ knownKeys ↔ key = c!"wait-for-session" ∨ key = c!"exit-on-client-eof" ∨
      key = c!"exit-on-service-eof" ∨ key = c!"skip-service-descriptor" ∨ key = c!"force-user" := by
    intro key; simp [knownKeys]
  unfold tomlSet at h
  by_cases h1 : k = c!"wait-for-session"
  · rw [if_pos h1] at h
    subst h1
    by_cases hs : seen.wait = true
    · rw [if_pos hs] at h; cases h
    rw [if_neg hs] at h
    have hs : seen.wait = false := by simpa using hs
    have hv : (v = .bool true ∨ v = .bool false ∨ v = .int 0 ∨ v = .int 1) ∧ s' = { seen with wait := true } ∧
        c' = { c with waitForSession := decide (v = .bool true ∨ v = .int 1) } := by
      cases v with
      | int n =>
        dsimp only at h
        by_cases hn : n < 2
        · rw [if_pos hn] at h
          cases h
          have : n = 0 ∨ n = 1 := by omega
          rcases this with rfl | rfl <;> simp
        · rw [if_neg hn] at h; cases h
      | bool b => cases h; cases b <;> simp
      | str s => cases h
    obtain ⟨h1, rfl, rfl⟩ := hv
    refine ⟨h1, fun _ => hs, ?_, ?_⟩
    · intro key hk
      rcases (known key).1 hk with rfl | rfl | rfl | rfl | rfl <;> simp [seenKey, hs]
    · intro xs hx
      have hn := tomlValueOf_none xs c!"wait-for-session" (hx ((known _).2 (.inl rfl)))
      unfold overConf
      simp only [tomlValueOf_cons, hn]
      rfl
  rw [if_neg h1] at h
  by_cases h2 : k = c!"exit-on-client-eof"
  · rw [if_pos h2] at h
    subst h2
    by_cases hs : seen.clientEof = true
    · rw [if_pos hs] at h; cases h
    rw [if_neg hs] at h
    have hs : seen.clientEof = false := by simpa using hs
    have hv : (v = .bool true ∨ v = .bool false) ∧ s' = { seen with clientEof := true } ∧
        c' = { c with exitOnClientEof := decide (v = .bool true) } := by
      cases v with
      | int n => cases h
      | bool b => cases h; cases b <;> simp
      | str s => cases h
    obtain ⟨h1, rfl, rfl⟩ := hv
    refine ⟨h1, fun _ => hs, ?_, ?_⟩
    · intro key hk
      rcases (known key).1 hk with rfl | rfl | rfl | rfl | rfl <;> simp [seenKey, hs]
    · intro xs hx
      have hn := tomlValueOf_none xs c!"exit-on-client-eof" (hx ((known _).2 (by simp)))
      unfold overConf
      simp only [tomlValueOf_cons, hn]
      rfl
  rw [if_neg h2] at h
  by_cases h3 : k = c!"exit-on-service-eof"
  · rw [if_pos h3] at h
    subst h3
    by_cases hs : seen.serviceEof = true
    · rw [if_pos hs] at h; cases h
    rw [if_neg hs] at h
    have hs : seen.serviceEof = false := by simpa using hs
    have hv : (v = .bool true ∨ v = .bool false) ∧ s' = { seen with serviceEof := true } ∧
        c' = { c with exitOnServiceEof := decide (v = .bool true) } := by
      cases v with
      | int n => cases h
      | bool b => cases h; cases b <;> simp
      | str s => cases h
    obtain ⟨h1, rfl, rfl⟩ := hv
    refine ⟨h1, fun _ => hs, ?_, ?_⟩
    · intro key hk
      rcases (known key).1 hk with rfl | rfl | rfl | rfl | rfl <;> simp [seenKey, hs]
    · intro xs hx
      have hn := tomlValueOf_none xs c!"exit-on-service-eof" (hx ((known _).2 (by simp)))
      unfold overConf
      simp only [tomlValueOf_cons, hn]
      rfl
  rw [if_neg h3] at h
  by_cases h4 : k = c!"skip-service-descriptor"
  · rw [if_pos h4] at h
    subst h4
    by_cases hs : seen.skipDesc = true
    · rw [if_pos hs] at h; cases h
    rw [if_neg hs] at h
    have hs : seen.skipDesc = false := by simpa using hs
    have hv : (v = .bool true ∨ v = .bool false) ∧ s' = { seen with skipDesc := true } ∧
        c' = { c with sendDescriptor := decide (v ≠ .bool true) } := by
      cases v with
      | int n => cases h
      | bool b => cases h; cases b <;> simp
      | str s => cases h
    obtain ⟨h1, rfl, rfl⟩ := hv
    refine ⟨h1, fun _ => hs, ?_, ?_⟩
    · intro key hk
      rcases (known key).1 hk with rfl | rfl | rfl | rfl | rfl <;> simp [seenKey, hs]
    · intro xs hx
      have hn := tomlValueOf_none xs c!"skip-service-descriptor" (hx ((known _).2 (by simp)))
      unfold overConf
      simp only [tomlValueOf_cons, hn]
      rfl
  rw [if_neg h4] at h
  by_cases h5 : k = c!"force-user"
  · rw [if_pos h5] at h
    subst h5
    by_cases hs : seen.user = true
    · rw [if_pos hs] at h; cases h
    rw [if_neg hs] at h
    have hs : seen.user = false := by simpa using hs
    have hv : ∃ s, v = .str s ∧ s' = { seen with user := true } ∧ c' = { c with user := some s } := by
      cases v with
      | int n => cases h
      | bool b => cases h
      | str s => cases h; exact ⟨s, rfl, rfl, rfl⟩
    obtain ⟨s, rfl, rfl, rfl⟩ := hv
    refine ⟨⟨s, rfl⟩, fun _ => hs, ?_, ?_⟩
    · intro key hk
      rcases (known key).1 hk with rfl | rfl | rfl | rfl | rfl <;> simp [seenKey, hs]
    · intro xs hx
      have hn := tomlValueOf_none xs c!"force-user" (hx ((known _).2 (by simp)))
      unfold overConf
      simp only [tomlValueOf_cons, hn]
      rfl
  rw [if_neg h5] at h
  cases h
  have hnk : k ∉ knownKeys := fun x => by rcases (known k).1 x with x | x | x | x | x <;> contradiction
  refine ⟨?_, fun x => absurd x hnk, ?_, ?_⟩
  · unfold RightType
    rw [if_neg h1, if_neg h5, if_neg hnk]; trivial
  · intro key hk
    have : key ≠ k := fun e => hnk (e ▸ hk)
    simp [this]
  · intro xs _
    unfold overConf
    simp only [tomlValueOf_cons, if_neg h1, if_neg h2, if_neg h3, if_neg h4, if_neg h5]

/-- A setting with an allowed value for a new key is accepted. -/
theorem set_ok {seen : TomlSeen} {c : SvcConf} {k : Str} {v : TomlVal} (hv : RightType k v)
    (hn : k ∈ knownKeys → seenKey seen k = false) : ∃ s' c', tomlSet seen c k v = some (s', c') := by
  have known : ∀ key, key ∈ knownKeys ↔ key = c!"wait-for-session" ∨ key = c!"exit-on-client-eof" ∨
      key = c!"exit-on-service-eof" ∨ key = c!"skip-service-descriptor" ∨ key = c!"force-user" := by
    intro key; simp [knownKeys]
  unfold tomlSet
  by_cases h1 : k = c!"wait-for-session"
  · rw [if_pos h1]
    subst h1
    have hs : seen.wait = false := hn ((known _).2 (by simp))
    rw [hs]
    rcases hv with rfl | rfl | rfl | rfl <;> exact ⟨_, _, rfl⟩
  rw [if_neg h1]
  by_cases h2 : k = c!"exit-on-client-eof"
  · rw [if_pos h2]
    subst h2
    have hs : seen.clientEof = false := hn ((known _).2 (by simp))
    rw [hs]
    rcases hv with rfl | rfl <;> exact ⟨_, _, rfl⟩
  rw [if_neg h2]
  by_cases h3 : k = c!"exit-on-service-eof"
  · rw [if_pos h3]
    subst h3
    have hs : seen.serviceEof = false := hn ((known _).2 (by simp))
    rw [hs]
    rcases hv with rfl | rfl <;> exact ⟨_, _, rfl⟩
  rw [if_neg h3]
  by_cases h4 : k = c!"skip-service-descriptor"
  · rw [if_pos h4]
    subst h4
    have hs : seen.skipDesc = false := hn ((known _).2 (by simp))
    rw [hs]
    rcases hv with rfl | rfl <;> exact ⟨_, _, rfl⟩
  rw [if_neg h4]
  by_cases h5 : k = c!"force-user"
  · rw [if_pos h5]
    subst h5
    have hs : seen.user = false := hn ((known _).2 (by simp))
    rw [hs]
    obtain ⟨s, rfl⟩ := hv
    exact ⟨_, _, rfl⟩
  rw [if_neg h5]
  exact ⟨_, _, rfl⟩

theorem apply_iff (xs : List (Str × TomlVal)) (seen : TomlSeen) (c c' : SvcConf) :
    applySettings seen c xs = some c' ↔
      (∀ kv ∈ xs, RightType kv.1 kv.2) ∧ (∀ kv ∈ xs, kv.1 ∈ knownKeys → seenKey seen kv.1 = false) ∧
      (xs.Pairwise fun a b => a.1 ∈ knownKeys → a.1 ≠ b.1) ∧ c' = overConf c xs := by
  induction xs generalizing seen c with
  | nil =>
    constructor
    · intro h; cases h
      exact ⟨fun kv h => (by cases h), fun kv h => (by cases h), List.Pairwise.nil, rfl⟩
    · rintro ⟨_, _, _, rfl⟩; rfl
  | cons p xs ih =>
    obtain ⟨k, v⟩ := p
    rw [applySettings]
    constructor
    · intro h
      cases hs : tomlSet seen c k v with
      | none => rw [hs] at h; cases h
      | some q =>
        obtain ⟨s', c''⟩ := q
        rw [hs] at h
        obtain ⟨g1, g2, g3, g4⟩ := set_some hs
        obtain ⟨i1, i2, i3, i4⟩ := (ih s' c'').1 h
        have hd : k ∈ knownKeys → ∀ kv ∈ xs, kv.1 ≠ k := by
          intro hk kv hkv e
          have := i2 kv hkv (e ▸ hk)
          rw [e, g3 k hk] at this
          simp at this
        refine ⟨?_, ?_, ?_, ?_⟩
        · intro kv hkv
          rcases List.mem_cons.1 hkv with rfl | hkv
          · exact g1
          · exact i1 kv hkv
        · intro kv hkv hk
          rcases List.mem_cons.1 hkv with rfl | hkv
          · exact g2 hk
          · have := i2 kv hkv hk
            rw [g3 _ hk] at this
            exact (Bool.or_eq_false_iff.1 this).1
        · exact List.pairwise_cons.2 ⟨fun kv hkv hk e => hd hk kv hkv e.symm, i3⟩
        · rw [i4]; exact g4 xs hd
    · rintro ⟨h1, h2, h3, rfl⟩
      obtain ⟨s', c'', hs⟩ := set_ok (c := c) (h1 (k, v) (List.mem_cons_self ..)) (h2 (k, v) (List.mem_cons_self ..))
      rw [hs]
      obtain ⟨g1, g2, g3, g4⟩ := set_some hs
      obtain ⟨p1, p2⟩ := List.pairwise_cons.1 h3
      refine (ih s' c'').2 ⟨fun kv hkv => h1 kv (List.mem_cons_of_mem _ hkv), ?_, p2, ?_⟩
      · intro kv hkv hk
        rw [g3 _ hk, h2 kv (List.mem_cons_of_mem _ hkv) hk, Bool.false_or, decide_eq_false_iff_not]
        intro e
        exact p1 kv hkv (by rw [← e]; exact hk) e.symm
      · exact (g4 xs (fun hk kv hkv e => p1 kv hkv hk e.symm)).symm

theorem overConf_default (xs : List (Str × TomlVal)) : overConf {} xs = confOf xs := by
  unfold overConf confOf
  congr 1
  · cases valueOf xs c!"wait-for-session" <;> simp
  · cases valueOf xs c!"force-user" <;> rfl
  · cases valueOf xs c!"skip-service-descriptor" <;> simp
  · cases valueOf xs c!"exit-on-service-eof" <;> simp
  · cases valueOf xs c!"exit-on-client-eof" <;> simp

/-- **C66.** Exactly the files of the grammar whose known keys have allowed values and occur once are accepted, and they mean
what they say; everything else is refused. -/
theorem C66_parse (text : Str) (c : SvcConf) :
    tomlParse text = some c ↔ ∃ xs, ConfFile text xs ∧ GoodSettings xs ∧ c = confOf xs := by
  unfold tomlParse
  rw [loop_iff]
  constructor
  · rintro ⟨xs, h1, h2⟩
    obtain ⟨g1, _, g3, g4⟩ := (apply_iff _ _ _ _).1 h2
    exact ⟨xs, (file_iff _ _).1 h1, ⟨g1, g3⟩, by rw [g4, overConf_default]⟩
  · rintro ⟨xs, h1, ⟨h2, h3⟩, rfl⟩
    refine ⟨xs, (file_iff _ _).2 h1, (apply_iff _ _ _ _).2 ⟨h2, ?_, h3, (overConf_default xs).symm⟩⟩
    intro kv _ hk
    have : ∀ key ∈ knownKeys, seenKey {} key = false := by decide
    exact this _ hk

/-- **C66, meaning.** A file has one meaning. -/
theorem C66_unique (text : Str) (xs ys : List (Str × TomlVal)) (h1 : ConfFile text xs) (h2 : ConfFile text ys) : xs = ys := by
  have := (file_iff text xs).2 h1
  rw [(file_iff text ys).2 h2] at this
  exact (Option.some.inj this).symm

/-- **C66, a call.** The configuration used for a call is that of the first place where there is a file - one for this
service and argument before one for the service - or the default if there is none; a call is refused if the configuration
cannot be read, is wrong, or sets a user for a service that does without the description of the call or ends with its
input or output. -/
theorem C66_call (fs : Str → LstatRes) (read : Str → Option Str) (size : Nat) (list : Str) (s : RpcService) (c : SvcConf)
    (h : loadServiceConfig fs read size list s = some c) :
    (c = {} ∧ ∀ p ∈ servicePlaces (pathDirs list) s, NothingAt false fs p) ∨
    (∃ p k text, FirstPlace false fs (servicePlaces (pathDirs list) s) p ∧ FileAt false fs p k ∧ read p = some text ∧
      (∃ xs, ConfFile text xs ∧ GoodSettings xs ∧ c = confOf xs) ∧
      (c.user ≠ none → c.sendDescriptor = true ∧ c.exitOnClientEof = false ∧ c.exitOnServiceEof = false)) := by
  have hp := C65_place false fs size list s
  unfold loadServiceConfig at h
  cases hr : findDescOrName false fs size list s with
  | absent => rw [hr] at h hp; cases h; exact .inl ⟨rfl, hp⟩
  | error => rw [hr] at h; cases h
  | tcp t => rw [hr] at h; cases h
  | found p k =>
    rw [hr] at h hp
    dsimp only at h
    cases ht : read p with
    | none => rw [ht] at h; cases h
    | some text =>
      rw [ht] at h
      dsimp only at h
      cases hc : tomlParse text with
      | none => rw [hc] at h; cases h
      | some c' =>
        rw [hc] at h
        dsimp only at h
        by_cases hb : (c'.user.isSome && (!c'.sendDescriptor || c'.exitOnClientEof || c'.exitOnServiceEof)) = true
        · rw [if_pos hb] at h; cases h
        · rw [if_neg hb] at h
          cases h
          refine .inr ⟨p, k, text, hp.1, hp.2, ht, (C66_parse _ _).1 hc, ?_⟩
          intro hu
          have : c.user.isSome = true := by
            cases hx : c.user with
            | none => exact absurd hx hu
            | some u => rfl
          rw [this] at hb
          revert hb
          cases c.sendDescriptor <;> cases c.exitOnClientEof <;> cases c.exitOnServiceEof <;> simp

/-- **C66, accepted.** A call with a good configuration - or with none - is not refused. -/
theorem C66_accept (fs : Str → LstatRes) (read : Str → Option Str) (size : Nat) (list : Str) (s : RpcService)
    (hsize : ∀ q ∈ servicePlaces (pathDirs list) s, q.length < size) :
    ((∀ p ∈ servicePlaces (pathDirs list) s, NothingAt false fs p) → loadServiceConfig fs read size list s = some {}) ∧
    ∀ p k text xs, FirstPlace false fs (servicePlaces (pathDirs list) s) p → FileAt false fs p k → read p = some text →
      ConfFile text xs → GoodSettings xs →
      ((confOf xs).user ≠ none → (confOf xs).sendDescriptor = true ∧ (confOf xs).exitOnClientEof = false ∧
        (confOf xs).exitOnServiceEof = false) → loadServiceConfig fs read size list s = some (confOf xs) := by
  constructor
  · intro hn
    have h := C65_place false fs size list s
    have first : ∀ p, FirstPlace false fs (servicePlaces (pathDirs list) s) p → NothingAt false fs p := by
      rintro p ⟨b, a, e, _⟩
      exact hn p (by rw [e]; simp)
    unfold loadServiceConfig
    cases hr : findDescOrName false fs size list s with
    | absent => rfl
    | found p k => rw [hr] at h; exact absurd (first p h.1) (fileAt_not_nothing h.2)
    | tcp t => rw [hr] at h; cases h.1
    | error =>
      rw [hr] at h
      rcases h with ⟨p, h1, h2⟩ | ⟨p, h1, h2⟩
      · have hnp := first p h1
        rcases h2 with a | ⟨t, a, _⟩ | ⟨e, _⟩ | ⟨e, _⟩
        · rcases hnp with x | ⟨t', x, _⟩ <;> rw [a] at x <;> cases x
        · rcases hnp with x | ⟨t', x, _⟩ <;> rw [a] at x <;> cases x
        · cases e
        · cases e
      · have := hsize p h1
        omega
  · intro p k text xs hp hk ht hf hg hu
    unfold loadServiceConfig
    rw [C65_found false fs size list s p k hsize hp hk]
    dsimp only
    rw [ht]
    dsimp only
    rw [(C66_parse text (confOf xs)).2 ⟨xs, hf, hg, rfl⟩]
    dsimp only
    rw [if_neg]
    cases hx : (confOf xs).user with
    | none => simp
    | some u =>
      obtain ⟨h1, h2, h3⟩ := hu (by rw [hx]; simp)
      rw [h1, h2, h3]
      simp

set_option maxRecDepth 20000 in
example : tomlParse c!"# comment\nwait-for-session=1\r\n\nforce-user = 'root' # x\nother.key = 12 " =
    some { waitForSession := true, user := some c!"root" } := by decide
set_option maxRecDepth 20000 in
example : tomlParse c!"skip-service-descriptor = true\nskip-service-descriptor = true\n" = none := by decide
set_option maxRecDepth 20000 in
example : tomlParse c!"wait-for-session = 2\n" = none := by decide
set_option maxRecDepth 20000 in
example : tomlParse c!"wait-for-session = 01\n" = none := by decide
set_option maxRecDepth 20000 in
example : tomlParse c!"x = 18446744073709551616\n" = none := by decide
set_option maxRecDepth 20000 in
example : tomlParse c!"x = 18446744073709551615\n" = some {} := by decide

/-- A line that consists of spaces is not an empty line: the file is refused. -/
theorem C66_spaces : tomlParse c!"  \nwait-for-session=1\n" = none := by decide

end Qrexec
