import Verif.Props.ServiceCmd
import Mathlib.Tactic.Ring

/-!
# C65: the lookup of a service
-/
namespace Qrexec

theorem isTcpLink_iff (t : Str) : isTcpLink t = true ↔ TcpLink t := by
  unfold isTcpLink TcpLink startsWith
  rw [Bool.or_eq_true, List.isPrefixOf_iff_prefix, beq_iff_eq, or_comm]

/-- The places of `findLoop`. -/
theorem findLoop_spec (tcp : Bool) (fs : Str → LstatRes) (size : Nat) (name : Str) (dirs : List Str) :
    FindSpec tcp fs size (dirs.map fun d => d ++ c!"/" ++ name) (findLoop tcp fs size name dirs) := by
  induction dirs with
  | nil => exact fun p hp => by cases hp
  | cons d dirs ih =>
    rw [findLoop]
    by_cases hl : d.length + name.length + 1 ≥ size
    · rw [if_pos hl]
      exact .inr ⟨d ++ c!"/" ++ name, List.mem_cons_self .., by simp; omega⟩
    rw [if_neg hl]
    dsimp only
    have here : FirstPlace tcp fs ((d :: dirs).map fun d => d ++ c!"/" ++ name) (d ++ c!"/" ++ name) :=
      ⟨[], dirs.map fun d => d ++ c!"/" ++ name, rfl, fun q hq => by cases hq⟩
    -- going on after nothing was found here
    have step : NothingAt tcp fs (d ++ c!"/" ++ name) →
        FindSpec tcp fs size ((d :: dirs).map fun d => d ++ c!"/" ++ name) (findLoop tcp fs size name dirs) := by
      intro hn
      have grow : ∀ p, FirstPlace tcp fs (dirs.map fun d => d ++ c!"/" ++ name) p →
          FirstPlace tcp fs ((d :: dirs).map fun d => d ++ c!"/" ++ name) p := by
        rintro p ⟨b, a, e, hb⟩
        refine ⟨(d ++ c!"/" ++ name) :: b, a, by rw [List.map_cons, e]; rfl, ?_⟩
        intro q hq
        rcases List.mem_cons.1 hq with rfl | hq
        · exact hn
        · exact hb q hq
      generalize findLoop tcp fs size name dirs = r at ih
      cases r with
      | found p k => exact ⟨grow p ih.1, ih.2⟩
      | tcp t =>
        obtain ⟨h0, h1, h2, h2', p, st, h3, h4⟩ := ih
        exact ⟨h0, h1, h2, h2', p, st, grow p h3, h4⟩
      | absent =>
        intro p hp
        rcases List.mem_cons.1 hp with rfl | hp
        · exact hn
        · exact ih p hp
      | error =>
        rcases ih with ⟨p, h1, h2⟩ | ⟨p, h1, h2⟩
        · exact .inl ⟨p, grow p h1, h2⟩
        · exact .inr ⟨p, List.mem_cons_of_mem _ h1, h2⟩
    -- what is found after following a link, or without one
    have plain : ∀ st : StatRes, (∀ k, st = .ok k → FileAt tcp fs (d ++ c!"/" ++ name) k) →
        (st = .enoent → NothingAt tcp fs (d ++ c!"/" ++ name)) →
        (st = .err → BadAt tcp fs size (d ++ c!"/" ++ name)) →
        FindSpec tcp fs size ((d :: dirs).map fun d => d ++ c!"/" ++ name) (match st with
          | .ok k => FindRes.found (d ++ c!"/" ++ name) k
          | .enoent => findLoop tcp fs size name dirs
          | .err => .error) := by
      intro st hk hn hb
      cases st with
      | ok k => exact ⟨here, hk k rfl⟩
      | enoent => exact step (hn rfl)
      | err => exact .inl ⟨_, here, hb rfl⟩
    have hpath : d ++ ['/'] ++ name = d ++ c!"/" ++ name := rfl
    rw [hpath]
    cases hfs : fs (d ++ c!"/" ++ name) with
    | ok k => exact plain (.ok k) (fun k' h => by cases h; exact .inl hfs) (fun h => by cases h) (fun h => by cases h)
    | enoent => exact plain .enoent (fun k' h => by cases h) (fun _ => .inl hfs) (fun h => by cases h)
    | err => exact .inl ⟨_, here, .inl hfs⟩
    | link target st =>
      dsimp only
      cases tcp with
      | false =>
        rw [if_neg (by simp)]
        refine plain st ?_ ?_ ?_
        · rintro k rfl
          exact .inr ⟨target, hfs, fun h => by cases h⟩
        · rintro rfl
          exact .inr ⟨target, hfs, fun h => by cases h⟩
        · rintro rfl
          exact .inr (.inl ⟨target, hfs, fun h => by cases h⟩)
      | true =>
        rw [if_pos rfl]
        cases target with
        | none => exact .inl ⟨_, here, .inr (.inr (.inl ⟨rfl, st, hfs⟩))⟩
        | some tgt =>
          dsimp only
          by_cases ht : isTcpLink tgt = true
          · rw [if_pos ht]
            by_cases h1 : tgt.length ≥ size
            · rw [if_pos h1]
              exact .inl ⟨_, here, .inr (.inr (.inr ⟨rfl, tgt, st, hfs, (isTcpLink_iff _).1 ht, .inl h1⟩))⟩
            rw [if_neg h1]
            by_cases h2 : (tgt.length == 9) = true
            · rw [if_pos h2]
              refine .inl ⟨_, here, .inr (.inr (.inr ⟨rfl, tgt, st, hfs, (isTcpLink_iff _).1 ht, .inr ?_⟩))⟩
              rcases (isTcpLink_iff _).1 ht with rfl | ⟨x, rfl⟩
              · cases h2
              · have : x = [] := by simpa using h2
                rw [this]; rfl
            rw [if_neg h2]
            exact ⟨rfl, (isTcpLink_iff _).1 ht, by rintro rfl; exact h2 rfl, by omega, _, st, here, hfs⟩
          · rw [if_neg ht]
            have hn : ¬ TcpLink tgt := fun h => ht ((isTcpLink_iff _).2 h)
            refine plain st ?_ ?_ ?_
            · rintro k rfl
              exact .inr ⟨some tgt, hfs, fun _ => ⟨tgt, rfl, hn⟩⟩
            · rintro rfl
              exact .inr ⟨some tgt, hfs, fun _ => ⟨tgt, rfl, hn⟩⟩
            · rintro rfl
              exact .inr (.inl ⟨some tgt, hfs, fun _ => ⟨tgt, rfl, hn⟩⟩)

/-- The places of `find_file`. -/
theorem findFile_spec (tcp : Bool) (fs : Str → LstatRes) (size : Nat) (list name : Str) :
    FindSpec tcp fs size (([name].filter fun n => decide (n.length ≤ 255)).flatMap fun n =>
      (pathDirs list).map fun d => d ++ c!"/" ++ n) (findFile tcp fs size list name) := by
  unfold findFile
  by_cases hl : name.length > 255
  · rw [if_pos hl, List.filter_cons, if_neg (by simpa using hl)]
    exact fun p hp => by cases hp
  · rw [if_neg hl, List.filter_cons, if_pos (by simpa using hl)]
    simp only [List.filter_nil, List.flatMap_cons, List.flatMap_nil, List.append_nil]
    exact findLoop_spec tcp fs size name (pathDirs list)

/-- **C65, place.** What is found for a call is at the first place where there is something: a file for this service and this
argument in any of the directories comes before one for the service. The same holds for configuration files (`tcp = false`). -/
theorem C65_place (tcp : Bool) (fs : Str → LstatRes) (size : Nat) (list : Str) (s : RpcService) :
    FindSpec tcp fs size (servicePlaces (pathDirs list) s) (findDescOrName tcp fs size list s) := by
  have e : servicePlaces (pathDirs list) s =
      (([s.descriptor].filter fun n => decide (n.length ≤ 255)).flatMap fun n =>
        (pathDirs list).map fun d => d ++ c!"/" ++ n) ++
      (([s.name].filter fun n => decide (n.length ≤ 255)).flatMap fun n =>
        (pathDirs list).map fun d => d ++ c!"/" ++ n) := by
    unfold servicePlaces
    rw [← List.flatMap_append, ← List.filter_append]
    rfl
  rw [e]
  have hd := findFile_spec tcp fs size list s.descriptor
  have hn := findFile_spec tcp fs size list s.name
  generalize (([s.descriptor].filter fun n => decide (n.length ≤ 255)).flatMap fun n =>
    (pathDirs list).map fun d => d ++ c!"/" ++ n) = A at *
  generalize (([s.name].filter fun n => decide (n.length ≤ 255)).flatMap fun n =>
    (pathDirs list).map fun d => d ++ c!"/" ++ n) = B at *
  have left : ∀ p, FirstPlace tcp fs A p → FirstPlace tcp fs (A ++ B) p := by
    rintro p ⟨b, a, rfl, hb⟩
    exact ⟨b, a ++ B, by simp, hb⟩
  have right : (∀ p ∈ A, NothingAt tcp fs p) → ∀ p, FirstPlace tcp fs B p → FirstPlace tcp fs (A ++ B) p := by
    rintro hA p ⟨b, a, rfl, hb⟩
    refine ⟨A ++ b, a, by simp, fun q hq => ?_⟩
    rcases List.mem_append.1 hq with hq | hq
    · exact hA q hq
    · exact hb q hq
  unfold findDescOrName
  generalize findFile tcp fs size list s.descriptor = r1 at hd
  cases r1 with
  | absent =>
    dsimp only
    generalize findFile tcp fs size list s.name = r2 at hn
    cases r2 with
    | absent =>
      intro p hp
      rcases List.mem_append.1 hp with hp | hp
      · exact hd p hp
      · exact hn p hp
    | error =>
      rcases hn with ⟨p, h1, h2⟩ | ⟨p, h1, h2⟩
      · exact .inl ⟨p, right hd p h1, h2⟩
      · exact .inr ⟨p, List.mem_append_right _ h1, h2⟩
    | found p k => exact ⟨right hd p hn.1, hn.2⟩
    | tcp t =>
      obtain ⟨h0, h1, h2, h2', p, st, h3, h4⟩ := hn
      exact ⟨h0, h1, h2, h2', p, st, right hd p h3, h4⟩
  | error =>
    rcases hd with ⟨p, h1, h2⟩ | ⟨p, h1, h2⟩
    · exact .inl ⟨p, left p h1, h2⟩
    · exact .inr ⟨p, List.mem_append_left _ h1, h2⟩
  | found p k => exact ⟨left p hd.1, hd.2⟩
  | tcp t =>
    obtain ⟨h0, h1, h2, h2', p, st, h3, h4⟩ := hd
    exact ⟨h0, h1, h2, h2', p, st, left p h3, h4⟩

/-- There is only one first place where there is something. -/
theorem firstPlace_unique {tcp : Bool} {fs : Str → LstatRes} {places : List Str} {p q : Str}
    (hp : FirstPlace tcp fs places p) (hq : FirstPlace tcp fs places q) (np : ¬ NothingAt tcp fs p)
    (nq : ¬ NothingAt tcp fs q) : p = q := by
  obtain ⟨b1, a1, e1, h1⟩ := hp
  obtain ⟨b2, a2, e2, h2⟩ := hq
  rw [e1] at e2
  clear e1
  induction b1 generalizing b2 with
  | nil =>
    cases b2 with
    | nil => exact (List.cons.inj e2).1
    | cons x b2 =>
      have := (List.cons.inj e2).1
      exact absurd (this ▸ h2 x (List.mem_cons_self ..)) np
  | cons y b1 ih =>
    cases b2 with
    | nil =>
      have := (List.cons.inj e2).1
      exact absurd (this ▸ h1 y (List.mem_cons_self ..)) nq
    | cons x b2 =>
      exact ih (fun q hq => h1 q (List.mem_cons_of_mem _ hq)) b2 (List.cons.inj e2).2
        (fun q hq => h2 q (List.mem_cons_of_mem _ hq))

theorem fileAt_not_nothing {tcp : Bool} {fs : Str → LstatRes} {p : Str} {k : FileKind} (h : FileAt tcp fs p k) :
    ¬ NothingAt tcp fs p := by
  rcases h with h | ⟨t, h, _⟩ <;> rintro (h' | ⟨t', h', _⟩) <;> rw [h] at h' <;> cases h'

/-- **C65, nothing else is in the way.** If all the paths fit into the buffer, the file at the first place where there is
something is found. -/
theorem C65_found (tcp : Bool) (fs : Str → LstatRes) (size : Nat) (list : Str) (s : RpcService) (p : Str) (k : FileKind)
    (hsize : ∀ q ∈ servicePlaces (pathDirs list) s, q.length < size)
    (hp : FirstPlace tcp fs (servicePlaces (pathDirs list) s) p) (hk : FileAt tcp fs p k) :
    findDescOrName tcp fs size list s = .found p k := by
  have h := C65_place tcp fs size list s
  have hnp := fileAt_not_nothing hk
  cases hr : findDescOrName tcp fs size list s with
  | found q k' =>
    rw [hr] at h
    obtain rfl := firstPlace_unique hp h.1 hnp (fileAt_not_nothing h.2)
    have : k = k' := by
      rcases hk with a | ⟨_, a, _⟩ <;> rcases h.2 with b | ⟨_, b, _⟩ <;> rw [a] at b <;> cases b <;> rfl
    rw [this]
  | absent =>
    rw [hr] at h
    obtain ⟨b, a, e, _⟩ := hp
    exact absurd (h p (by rw [e]; simp)) hnp
  | tcp t =>
    rw [hr] at h
    obtain ⟨h0, h1, h2, h2', q, st, h3, h4⟩ := h
    have hnq : ¬ NothingAt tcp fs q := by
      rintro (x | ⟨t', x, y⟩) <;> rw [h4] at x <;> cases x
      obtain ⟨t'', e, n⟩ := y h0
      cases e
      exact n h1
    obtain rfl := firstPlace_unique hp h3 hnp hnq
    rcases hk with a | ⟨t', a, y⟩ <;> rw [h4] at a <;> cases a
    obtain ⟨t'', e, n⟩ := y h0
    cases e
    exact absurd h1 n
  | error =>
    rw [hr] at h
    rcases h with ⟨q, h1, h2⟩ | ⟨q, h1, h2⟩
    · have hnq : ¬ NothingAt tcp fs q := by
        rcases h2 with a | ⟨t, a, _⟩ | ⟨e, st, a⟩ | ⟨e, t, st, a, ht, _⟩ <;> rintro (x | ⟨t', x, y⟩) <;> rw [a] at x <;> cases x
        · obtain ⟨t'', e', _⟩ := y e
          cases e'
        · obtain ⟨t'', e', n⟩ := y e
          cases e'
          exact n ht
      obtain rfl := firstPlace_unique hp h1 hnp hnq
      rcases h2 with a | ⟨t, a, _⟩ | ⟨e, st, a⟩ | ⟨e, t, st, a, ht, _⟩ <;> rcases hk with x | ⟨t', x, y⟩ <;>
        rw [a] at x <;> cases x
      · obtain ⟨t'', e', _⟩ := y e
        cases e'
      · obtain ⟨t'', e', n⟩ := y e
        cases e'
        exact absurd ht n
    · have := hsize q h1
      omega

/-- **C65, inside.** If the name of the service has no slash - the daemon sees to that - what is found is directly in one of
the directories. -/
theorem C65_inside (dirs : List Str) (s : RpcService) (p : Str) (hn : '/' ∉ s.name) (hd : '/' ∉ s.descriptor)
    (hp : p ∈ servicePlaces dirs s) : ∃ d ∈ dirs, ∃ n, '/' ∉ n ∧ n.length ≤ 255 ∧ p = d ++ c!"/" ++ n := by
  unfold servicePlaces at hp
  obtain ⟨n, hn', hp⟩ := List.mem_flatMap.1 hp
  obtain ⟨d, hd', rfl⟩ := List.mem_map.1 hp
  obtain ⟨hm, hl⟩ := List.mem_filter.1 hn'
  refine ⟨d, hd', n, ?_, by simpa using hl, rfl⟩
  rcases List.mem_cons.1 hm with rfl | hm
  · exact hd
  · rw [List.mem_singleton.1 hm]; exact hn

/-! ## TCP -/

theorem splitLast_iff {sep : Char} {s a b : Str} : splitLast sep s = some (a, b) ↔ s = a ++ sep :: b ∧ sep ∉ b := by
  induction s generalizing a b with
  | nil => simp [splitLast]
  | cons c s ih =>
    rw [splitLast]
    cases h : splitLast sep s with
    | none =>
      dsimp only
      have hn : sep ∉ s := by
        intro hm
        clear ih
        induction s with
        | nil => cases hm
        | cons x s ih2 =>
          rw [splitLast] at h
          cases hx : splitLast sep s with
          | some p => rw [hx] at h; cases h
          | none =>
            rw [hx] at h
            dsimp only at h
            by_cases hxs : x = sep
            · rw [if_pos hxs] at h; cases h
            · rcases List.mem_cons.1 hm with e | hm
              · exact hxs e.symm
              · exact ih2 hx hm
      by_cases hc : c = sep
      · rw [if_pos hc]
        constructor
        · intro e; cases e; exact ⟨by rw [hc]; rfl, hn⟩
        · rintro ⟨e, hb⟩
          cases a with
          | nil => simp only [List.nil_append, List.cons.injEq] at e; rw [e.2]
          | cons x a =>
            simp only [List.cons_append, List.cons.injEq] at e
            exact absurd (by rw [e.2]; simp) hn
      · rw [if_neg hc]
        constructor
        · intro e; cases e
        · rintro ⟨e, hb⟩
          cases a with
          | nil => simp only [List.nil_append, List.cons.injEq] at e; exact absurd e.1 hc
          | cons x a =>
            simp only [List.cons_append, List.cons.injEq] at e
            exact absurd (by rw [e.2]; simp) hn
    | some p =>
      obtain ⟨x, y⟩ := p
      dsimp only
      obtain ⟨e1, e2⟩ := ih.1 h
      constructor
      · intro e; cases e; exact ⟨by rw [e1]; rfl, e2⟩
      · rintro ⟨e, hb⟩
        cases a with
        | nil =>
          simp only [List.nil_append, List.cons.injEq] at e
          exact absurd (by rw [← e.2, e1]; simp) hb
        | cons z a =>
          simp only [List.cons_append, List.cons.injEq] at e
          have := ih.2 ⟨e.2, hb⟩
          rw [h] at this
          cases this
          rw [e.1]

theorem drop8_link (t : Str) : (c!"/dev/tcp" ++ t).drop 8 = t := rfl

theorem tcpTo_iff (T : Str) (a : Option Str) (H P : Str) : TcpTo T a H P ↔
    (T = c!"/dev/tcp" ++ '/' :: (H ++ '/' :: P) ∧ '/' ∉ H ∧ (a = none ∨ a = some [])) ∨
    (T = c!"/dev/tcp" ++ '/' :: H ∧ a = some P ∧ '/' ∉ H ∧ P ≠ []) ∨
    (T = c!"/dev/tcp" ++ [] ∧ ∃ h, a = some (h ++ '+' :: P) ∧ H = (h.map fun c => if c = '+' then ':' else c) ∧ '_' ∉ h ∧
      '+' ∉ P) := by
  constructor
  · intro h
    cases h with
    | fixed _ _ _ h1 h2 => exact .inl ⟨by simp, h1, h2⟩
    | port _ _ h1 h2 => exact .inr (.inl ⟨by simp, rfl, h1, h2⟩)
    | both h _ h1 h2 => exact .inr (.inr ⟨rfl, h, by simp, rfl, h1, h2⟩)
  · rintro (⟨rfl, h1, h2⟩ | ⟨rfl, rfl, h1, h2⟩ | ⟨rfl, h, rfl, rfl, h1, h2⟩)
    · have := TcpTo.fixed H P a h1 h2
      simpa using this
    · exact TcpTo.port H P h1 h2
    · have := TcpTo.both h P h1 h2
      simpa using this

/-- Where a TCP service connects to. -/
theorem tcpAddress_iff (target : Str) (arg : Option Str) (host port : Str) (hl : TcpLink target) :
    tcpAddress target arg = some (host, port) ↔ TcpTo target arg host port := by
  have noArg : noArgument arg = true ↔ arg = none ∨ arg = some [] := by
    cases arg with
    | none => simp [noArgument]
    | some a => simp [noArgument]
  have shape : ∃ t, target = c!"/dev/tcp" ++ t ∧ (t = [] ∨ ∃ r, t = '/' :: r) := by
    rcases hl with rfl | ⟨r, rfl⟩
    · exact ⟨[], rfl, .inl rfl⟩
    · exact ⟨'/' :: r, rfl, .inr ⟨r, rfl⟩⟩
  obtain ⟨t, rfl, ht⟩ := shape
  unfold tcpAddress
  rw [drop8_link, tcpTo_iff]
  simp only [List.append_cancel_left_eq]
  generalize noArgument arg = na at *
  rcases ht with rfl | ⟨r, rfl⟩
  · have e : ∀ A B : Prop, (([] : Str) = '/' :: (host ++ '/' :: port) ∧ A ∨ ([] : Str) = '/' :: host ∧ B ∨
        ([] : Str) = [] ∧ ∃ h, arg = some (h ++ '+' :: port) ∧ host = (h.map fun c => if c = '+' then ':' else c) ∧
          '_' ∉ h ∧ '+' ∉ port) ↔
        ∃ h, arg = some (h ++ '+' :: port) ∧ host = (h.map fun c => if c = '+' then ':' else c) ∧ '_' ∉ h ∧ '+' ∉ port := by
      intro A B; simp
    rw [e]
    by_cases hna : na = true
    · rw [if_pos hna]
      constructor
      · intro h; cases h
      · rintro ⟨h, rfl, _⟩
        have := noArg.1 hna
        simp at this
    · rw [if_neg hna]
      cases hs : splitLast '+' (arg.getD []) with
      | none =>
        dsimp only
        constructor
        · intro h; cases h
        · rintro ⟨h, rfl, _, _, h2⟩
          rw [Option.getD_some, splitLast_iff.2 ⟨rfl, h2⟩] at hs
          cases hs
      | some q =>
        obtain ⟨h, p⟩ := q
        dsimp only
        obtain ⟨e1, e2⟩ := splitLast_iff.1 hs
        have hb : (h.any (· == '_')) = true ↔ '_' ∈ h := by simp
        have hmap : (h.map fun c => if (c == '+') = true then ':' else c) = h.map fun c => if c = '+' then ':' else c := by
          simp only [beq_iff_eq]
        have harg : arg = some (h ++ '+' :: p) := by
          cases arg with
          | none => exact absurd e1 (by simp)
          | some a => simp only [Option.getD_some] at e1; rw [e1]
        have uniq : ∀ h', arg = some (h' ++ '+' :: port) → '+' ∉ port → h' = h ∧ port = p := by
          rintro h' e hp
          rw [e, Option.getD_some, splitLast_iff.2 ⟨rfl, hp⟩] at hs
          cases hs
          exact ⟨rfl, rfl⟩
        by_cases hu : (h.any (· == '_')) = true
        · rw [if_pos hu]
          constructor
          · intro x; cases x
          · rintro ⟨h', k1, k2, k3, k4⟩
            obtain ⟨rfl, rfl⟩ := uniq h' k1 k4
            exact absurd (hb.1 hu) k3
        · rw [if_neg hu, hmap]
          constructor
          · intro x
            cases x
            exact ⟨h, harg, rfl, fun y => hu (hb.2 y), e2⟩
          · rintro ⟨h', k1, k2, k3, k4⟩
            obtain ⟨rfl, rfl⟩ := uniq h' k1 k4
            rw [k2]
  · have e : ∀ C : Prop, ('/' :: r = '/' :: (host ++ '/' :: port) ∧ '/' ∉ host ∧ (arg = none ∨ arg = some []) ∨
        '/' :: r = '/' :: host ∧ arg = some port ∧ '/' ∉ host ∧ port ≠ [] ∨ '/' :: r = [] ∧ C) ↔
        (r = host ++ '/' :: port ∧ '/' ∉ host ∧ (arg = none ∨ arg = some []) ∨
          r = host ∧ arg = some port ∧ '/' ∉ host ∧ port ≠ []) := by
      intro C; simp
    rw [e]
    cases hs : splitOnce '/' r with
    | none =>
      have hn := splitOnce_none.1 hs
      by_cases hna : na = true
      · simp only [if_pos hna, hs]
        constructor
        · intro h; cases h
        · rintro (⟨rfl, _⟩ | ⟨rfl, rfl, _, hp⟩)
          · exact absurd (by simp) hn
          · have := noArg.1 hna
            simp [hp] at this
      · simp only [if_neg hna, hs]
        have hna' : ∃ a, arg = some a ∧ a ≠ [] := by
          cases arg with
          | none => exact absurd (noArg.2 (.inl rfl)) hna
          | some a => exact ⟨a, rfl, fun x => hna (noArg.2 (.inr (by rw [x])))⟩
        obtain ⟨a, rfl, ha⟩ := hna'
        constructor
        · intro x; cases x
          exact .inr ⟨rfl, rfl, hn, ha⟩
        · rintro (⟨_, _, h2⟩ | ⟨rfl, h1, _, hp⟩)
          · simp [ha] at h2
          · cases h1; rfl
    | some q =>
      obtain ⟨h, p⟩ := q
      obtain ⟨e1, e2⟩ := splitOnce_eq_some.1 hs
      by_cases hna : na = true
      · simp only [if_pos hna, hs]
        constructor
        · intro x; cases x
          exact .inl ⟨e1, e2, noArg.1 hna⟩
        · rintro (⟨k1, k2, _⟩ | ⟨rfl, rfl, _, hp⟩)
          · rw [splitOnce_eq_some.2 ⟨k1, k2⟩] at hs
            cases hs; rfl
          · have := noArg.1 hna
            simp [hp] at this
      · simp only [if_neg hna, hs]
        constructor
        · intro x; cases x
        · rintro (⟨_, _, h2⟩ | ⟨rfl, _, h1, _⟩)
          · exact absurd (noArg.2 h2) hna
          · exact absurd (by rw [e1]; simp) h1

theorem digit_iff (c : Char) : ('0' ≤ c ∧ c ≤ '9') ↔ 48 ≤ c.toNat ∧ c.toNat ≤ 57 := by
  constructor <;> rintro ⟨h1, h2⟩ <;> exact ⟨h1, h2⟩

/-- Value of a decimal number. -/
def decVal (s : Str) : Nat := s.foldl (fun n c => 10 * n + (c.toNat - '0'.toNat)) 0

theorem foldl_dec_lt (s : Str) (n : Nat) (hs : ∀ c ∈ s, '0' ≤ c ∧ c ≤ '9') :
    s.foldl (fun n c => 10 * n + (c.toNat - '0'.toNat)) n < (n + 1) * 10 ^ s.length ∧
    n * 10 ^ s.length ≤ s.foldl (fun n c => 10 * n + (c.toNat - '0'.toNat)) n := by
  induction s generalizing n with
  | nil => simp
  | cons c s ih =>
    have hc := (digit_iff c).1 (hs c (List.mem_cons_self ..))
    obtain ⟨h1, h2⟩ := ih (10 * n + (c.toNat - '0'.toNat)) (fun c hc => hs c (List.mem_cons_of_mem _ hc))
    have h0 : '0'.toNat = 48 := rfl
    rw [h0] at h1 h2
    rw [List.foldl_cons, List.length_cons, Nat.pow_succ, h0]
    constructor
    · refine lt_of_lt_of_le h1 ?_
      rw [show (n + 1) * (10 ^ s.length * 10) = (10 * n + 10) * 10 ^ s.length by ring]
      exact Nat.mul_le_mul_right _ (by omega)
    · refine le_trans ?_ h2
      rw [show n * (10 ^ s.length * 10) = (10 * n) * 10 ^ s.length by ring]
      exact Nat.mul_le_mul_right _ (by omega)

/-- **C65, port.** The ports that are accepted are the decimal numbers from 1 to 65535 without leading zero. -/
theorem C65_port (s : Str) : validatePort s = true ↔ IsPort s := by
  unfold IsPort
  cases s with
  | nil => simp [validatePort]
  | cons d ds =>
    have hd0 : '0'.toNat = 48 := rfl
    rw [validatePort]
    by_cases h1 : (decide (d < '1') || decide (d > '9')) = true
    · rw [if_pos h1]
      simp only [Bool.false_eq_true, false_iff]
      rintro ⟨_, hd, hz, _⟩
      have := hd d (List.mem_cons_self ..)
      have hz : d ≠ '0' := by simpa using hz
      have k := (digit_iff d).1 this
      simp only [Bool.or_eq_true, decide_eq_true_eq] at h1
      rcases h1 with h1 | h1
      · have h1 : d.toNat < 49 := h1
        have : d.toNat = 48 := by omega
        exact hz (Char.toNat_inj.1 this)
      · have h1 : 57 < d.toNat := h1
        omega
    rw [if_neg h1]
    simp only [Bool.or_eq_true, decide_eq_true_eq, not_or] at h1
    have k1 : 49 ≤ d.toNat := Nat.le_of_not_lt h1.1
    have k2 : d.toNat ≤ 57 := Nat.le_of_not_lt h1.2
    by_cases h2 : (ds.any fun c => decide (c < '0') || decide (c > '9')) = true
    · rw [if_pos h2]
      simp only [Bool.false_eq_true, false_iff]
      rintro ⟨_, hd, _⟩
      obtain ⟨c, hc, hx⟩ := List.any_eq_true.1 h2
      have k := (digit_iff c).1 (hd c (List.mem_cons_of_mem _ hc))
      simp only [Bool.or_eq_true, decide_eq_true_eq] at hx
      rcases hx with hx | hx
      · have hx : c.toNat < 48 := hx
        omega
      · have hx : 57 < c.toNat := hx
        omega
    rw [if_neg h2]
    have hdig : ∀ c ∈ ds, '0' ≤ c ∧ c ≤ '9' := by
      intro c hc
      have : ¬ ((decide (c < '0') || decide (c > '9')) = true) := fun hx => h2 (List.any_eq_true.2 ⟨c, hc, hx⟩)
      simp only [Bool.or_eq_true, decide_eq_true_eq, not_or] at this
      exact (digit_iff c).2 ⟨Nat.le_of_not_lt this.1, Nat.le_of_not_lt this.2⟩
    have hall : ∀ c ∈ d :: ds, '0' ≤ c ∧ c ≤ '9' := by
      intro c hc
      rcases List.mem_cons.1 hc with rfl | hc
      · exact (digit_iff c).2 ⟨by omega, k2⟩
      · exact hdig c hc
    have hz : (d :: ds).head? ≠ some '0' := by
      simp only [List.head?_cons, ne_eq, Option.some.injEq]
      rintro rfl
      rw [hd0] at k1; omega
    have hb := foldl_dec_lt ds (10 * 0 + (d.toNat - '0'.toNat)) hdig
    rw [hd0] at hb
    have hv : (d :: ds).foldl (fun n c => 10 * n + (c.toNat - '0'.toNat)) 0 =
        ds.foldl (fun n c => 10 * n + (c.toNat - 48)) (10 * 0 + (d.toNat - 48)) := rfl
    have hrest : ((d :: ds ≠ []) ∧ (∀ c ∈ d :: ds, '0' ≤ c ∧ c ≤ '9') ∧ (d :: ds).head? ≠ some '0' ∧
        let n := (d :: ds).foldl (fun n c => 10 * n + (c.toNat - '0'.toNat)) 0
        1 ≤ n ∧ n ≤ 65535) ↔
        ds.foldl (fun n c => 10 * n + (c.toNat - 48)) (10 * 0 + (d.toNat - 48)) ≤ 65535 := by
      rw [hv]
      have : 1 ≤ 10 ^ ds.length := Nat.one_le_pow _ _ (by omega)
      have : 1 ≤ (10 * 0 + (d.toNat - 48)) * 10 ^ ds.length := Nat.mul_pos (by omega) this
      exact ⟨fun h => h.2.2.2.2, fun h => ⟨by simp, hall, hz, le_trans this hb.2, h⟩⟩
    rw [hrest]
    by_cases h3 : (d :: ds).length > 5
    · rw [if_pos h3]
      simp only [Bool.false_eq_true, false_iff, not_le]
      have hb2 := hb.2
      have : 10 ^ 5 ≤ 10 ^ ds.length := Nat.pow_le_pow_right (by omega) (by simp at h3; omega)
      have : 1 * 10 ^ 5 ≤ (10 * 0 + (d.toNat - 48)) * 10 ^ ds.length := Nat.mul_le_mul (by omega) this
      omega
    rw [if_neg h3]
    by_cases h4 : (d :: ds).length < 5
    · rw [if_pos h4]
      simp only [true_iff]
      have hb1 := hb.1
      have hl : ds.length ≤ 3 := by simp at h4; omega
      have : 10 ^ ds.length ≤ 10 ^ 3 := Nat.pow_le_pow_right (by omega) hl
      have : (10 * 0 + (d.toNat - 48) + 1) * 10 ^ ds.length ≤ 10 * 10 ^ 3 := Nat.mul_le_mul (by omega) this
      omega
    rw [if_neg h4]
    have hl : ds.length = 4 := by simp at h3 h4; omega
    match ds, hl, hdig with
    | [a, b, c, e], _, hdig =>
      have ha := (digit_iff a).1 (hdig a (by simp))
      have hb := (digit_iff b).1 (hdig b (by simp))
      have hc := (digit_iff c).1 (hdig c (by simp))
      have he := (digit_iff e).1 (hdig e (by simp))
      have e6 : '6'.toNat = 54 := rfl
      have e5 : '5'.toNat = 53 := rfl
      have e3 : '3'.toNat = 51 := rfl
      simp only [strLe, strLt, List.foldl_cons, List.foldl_nil, e6, e5, e3]
      generalize d.toNat = d at *
      generalize a.toNat = a at *
      generalize b.toNat = b at *
      generalize c.toNat = c at *
      generalize e.toNat = e at *
      rw [Bool.not_eq_true', iff_comm]
      by_cases p1 : 54 < d
      · rw [if_pos p1]; simp; omega
      rw [if_neg p1]
      by_cases p1' : d < 54
      · rw [if_pos p1']; simp; omega
      rw [if_neg p1']
      by_cases p2 : 53 < a
      · rw [if_pos p2]; simp; omega
      rw [if_neg p2]
      by_cases p2' : a < 53
      · rw [if_pos p2']; simp; omega
      rw [if_neg p2']
      by_cases p3 : 53 < b
      · rw [if_pos p3]; simp; omega
      rw [if_neg p3]
      by_cases p3' : b < 53
      · rw [if_pos p3']; simp; omega
      rw [if_neg p3']
      by_cases p4 : 51 < c
      · rw [if_pos p4]; simp; omega
      rw [if_neg p4]
      by_cases p4' : c < 51
      · rw [if_pos p4']; simp; omega
      rw [if_neg p4']
      by_cases p5 : 53 < e
      · rw [if_pos p5]; simp; omega
      rw [if_neg p5]
      by_cases p5' : e < 53
      · rw [if_pos p5']; simp; omega
      rw [if_neg p5']
      simp; omega

/-- **C65.** What is run or connected to for a call. -/
theorem C65_service (fs : Str → LstatRes) (size : Nat) (list : Str) (sockets sendDesc connects : Bool) (command : Str)
    (s : RpcService) :
    ServiceSpec fs (servicePlaces (pathDirs list) s) sockets sendDesc command s
      (findService fs size list sockets sendDesc connects command s) := by
  have h := C65_place true fs size list s
  unfold findService
  dsimp only
  generalize findDescOrName true fs size list s = r at h
  cases r with
  | absent => exact h
  | error => trivial
  | found p k =>
    cases k with
    | sock =>
      dsimp only
      cases sockets with
      | false => trivial
      | true =>
        cases connects with
        | false => trivial
        | true => exact ⟨rfl, h.1, h.2, rfl⟩
    | other x =>
      cases x with
      | false => trivial
      | true => exact h
  | tcp t =>
    dsimp only
    cases sockets with
    | false => trivial
    | true =>
      rw [if_neg (by simp)]
      obtain ⟨_, h1, h2, h2', p, st, h3, h4⟩ := h
      cases ha : tcpAddress t s.arg with
      | none => trivial
      | some q =>
        obtain ⟨host, port⟩ := q
        dsimp only
        cases hv : validatePort port with
        | false => trivial
        | true =>
          cases connects with
          | false => trivial
          | true => exact ⟨rfl, ⟨p, t, st, h3, h4, h1, (tcpAddress_iff t s.arg host port h1).1 ha⟩, (C65_port _).1 hv, rfl⟩

/-- **C65, TCP.** A TCP service connects wherever the link and the argument say, if this is a host and a port. -/
theorem C65_tcp (fs : Str → LstatRes) (size : Nat) (list : Str) (sendDesc : Bool) (command : Str) (s : RpcService)
    (t host port : Str) (hf : findDescOrName true fs size list s = .tcp t) (ht : TcpTo t s.arg host port) (hp : IsPort port) :
    findService fs size list true sendDesc true command s =
      .tcp host port (if sendDesc = true then command ++ [Char.ofNat 0] else []) := by
  have h := C65_place true fs size list s
  rw [hf] at h
  unfold findService
  dsimp only
  rw [hf]
  dsimp only
  rw [if_neg (by simp), (tcpAddress_iff t s.arg host port h.2.1).2 ht]
  dsimp only
  rw [(C65_port _).2 hp]
  rfl

/-- Files of the examples. -/
def exFs : Str → LstatRes := fun p =>
  if p = c!"/usr/local/etc/qubes-rpc/svc+x" then .link (some c!"/nowhere") .enoent
  else if p = c!"/etc/qubes-rpc/svc" then .ok (.other true)
  else if p = c!"/etc/qubes-rpc/tcp" then .link (some c!"/dev/tcp") .enoent
  else if p = c!"/etc/qubes-rpc/port" then .link (some c!"/dev/tcp/localhost") .enoent
  else if p = c!"/etc/qubes-rpc/.." then .ok (.other true)
  else .enoent

set_option maxRecDepth 20000 in
/-- A link to nothing for "svc+x" - which the comment on `find_file` calls an error - does not hide the service itself. -/
theorem C65_dangling : findService exFs 4096 c!"/usr/local/etc/qubes-rpc:/etc/qubes-rpc" true true true c!"svc+x work"
    ⟨c!"svc+x", c!"svc", some c!"x", c!"work"⟩ = .exec c!"/etc/qubes-rpc/svc" := by decide

set_option maxRecDepth 20000 in
/-- The name of a service may be "..", whose directory can be "executed". -/
theorem C65_dotdot : findService exFs 4096 c!"/etc/qubes-rpc" true true true c!".. work"
    ⟨c!"..+", c!"..", none, c!"work"⟩ = .exec c!"/etc/qubes-rpc/.." := by decide

set_option maxRecDepth 20000 in
example : findService exFs 4096 c!"/usr/local/etc/qubes-rpc:/etc/qubes-rpc" true false true c!"tcp+::1+80 work"
    ⟨c!"tcp+++1+80", c!"tcp", some c!"++1+80", c!"work"⟩ = .tcp c!"::1" c!"80" [] := by decide
set_option maxRecDepth 20000 in
example : findService exFs 4096 c!"/usr/local/etc/qubes-rpc:/etc/qubes-rpc" true false true c!"port+0080 work"
    ⟨c!"port+0080", c!"port", some c!"0080", c!"work"⟩ = .failed := by decide
set_option maxRecDepth 20000 in
example : findService exFs 4096 c!"/etc/qubes-rpc" true false true c!"port+8080 work"
    ⟨c!"port+8080", c!"port", some c!"8080", c!"work"⟩ = .tcp c!"localhost" c!"8080" [] := by decide
set_option maxRecDepth 20000 in
example : findService exFs 4096 c!"/etc/qubes-rpc" true false true c!"no+8080 work"
    ⟨c!"no+8080", c!"no", some c!"8080", c!"work"⟩ = .notFound := by decide
example : IsPort c!"65535" := by rw [← C65_port]; decide
example : ¬ IsPort c!"65536" := by rw [← C65_port]; decide

/-- **C65.** The directories of a list are those between its colons; an empty list has none, and so finds nothing. -/
theorem C65_directories (dirs : List Str) (h : ∀ d ∈ dirs, d ≠ [] ∧ ':' ∉ d) :
    pathDirs (joinWith ':' dirs) = dirs := by
  cases dirs with
  | nil => rfl
  | cons d ds =>
    have hd := h d List.mem_cons_self
    have hne : joinWith ':' (d :: ds) ≠ [] := by
      cases ds with
      | nil => exact hd.1
      | cons e es =>
        intro hh
        have : joinWith ':' (d :: e :: es) = d ++ ':' :: joinWith ':' (e :: es) := rfl
        rw [this] at hh
        simp at hh
    have hs := splitOn_joinWith (sep := ':') (ws := d :: ds) (by simp) fun x hx => (h x hx).2
    unfold pathDirs
    rw [if_neg (by simpa using hne), hs]
    dsimp only
    congr 1
    rw [List.filter_eq_self]
    intro x hx
    simpa using (h x (List.mem_cons_of_mem _ hx)).1

end Qrexec
