import Verif.Spec.Agent
import Verif.Lemmas.RuleLine

/-! # C43: the texts of the question window and of notifications -/
namespace Qrexec
open Spec

set_option maxRecDepth 20000 in
theorem hex2_number : ∀ n : Fin 160, hexNumber 0 (hex2 n.1) = some n.1 ∧ hex2 n.1 ≠ [] := by decide

theorem plain_escapeChar (c : Char) {s t : Str} (h : PlainText s t) : PlainText (escapeChar c ++ s) (c :: t) := by
  unfold escapeChar
  by_cases h1 : c = '&'
  · rw [if_pos h1, h1]; exact PlainText.entity (n := c!"amp") (by decide) h
  rw [if_neg h1]
  by_cases h2 : c = '<'
  · rw [if_pos h2, h2]; exact PlainText.entity (n := c!"lt") (by decide) h
  rw [if_neg h2]
  by_cases h3 : c = '>'
  · rw [if_pos h3, h3]; exact PlainText.entity (n := c!"gt") (by decide) h
  rw [if_neg h3]
  by_cases h4 : c = '\''
  · rw [if_pos h4, h4]; exact PlainText.entity (n := c!"apos") (by decide) h
  rw [if_neg h4]
  by_cases h5 : c = '"'
  · rw [if_pos h5, h5]; exact PlainText.entity (n := c!"quot") (by decide) h
  rw [if_neg h5]
  dsimp only
  split_ifs with h6
  · have hn : c.toNat < 160 := by
      simp only [Bool.or_eq_true, Bool.and_eq_true, decide_eq_true_eq] at h6
      omega
    obtain ⟨k1, k2⟩ := hex2_number ⟨c.toNat, hn⟩
    have := PlainText.number k2 k1 h
    rw [char_ofNat_toNat] at this
    exact this
  · exact .char h1 h2 h3 h

theorem plain_escape (s : Str) {r t : Str} (h : PlainText r t) : PlainText (markupEscape s ++ r) (s ++ t) := by
  induction s with
  | nil => exact h
  | cons c cs ih =>
    have := plain_escapeChar c ih
    rw [← List.append_assoc] at this
    exact this

theorem plain_escape' (s : Str) : PlainText (markupEscape s) s := by
  have := plain_escape s PlainText.nil
  simpa using this

theorem plain_dot {s t : Str} (h : PlainText s t) : PlainText (s ++ c!".") (t ++ c!".") := by
  induction h with
  | nil => exact .char (by decide) (by decide) (by decide) .nil
  | char h1 h2 h3 _ ih => exact .char h1 h2 h3 ih
  | entity h _ ih => rw [List.append_assoc]; exact .entity h ih
  | number h1 h2 _ ih => rw [List.append_assoc]; exact .number h1 h2 ih

/-! ## A markup shows one thing -/

/-- What stands between `&` and `;`, and the character it means. -/
def Reference (name : Str) (c : Char) : Prop :=
  (name, c) ∈ entities ∨ ∃ h n, name = '#' :: 'x' :: h ∧ hexNumber 0 h = some n ∧ c = Char.ofNat n

theorem hexValue_ne {c : Char} {d : Nat} (h : hexValue c = some d) : c ≠ ';' ∧ c ≠ '<' := by
  constructor
  · rintro rfl
    exact absurd h (by rw [show hexValue ';' = none from by decide]; simp)
  · rintro rfl
    exact absurd h (by rw [show hexValue '<' = none from by decide]; simp)

theorem hexNumber_ne {h : Str} {m n : Nat} (hh : hexNumber m h = some n) : ∀ c ∈ h, c ≠ ';' ∧ c ≠ '<' := by
  induction h generalizing m with
  | nil => simp
  | cons c cs ih =>
    rw [hexNumber] at hh
    obtain ⟨d, hd, hh⟩ := Option.bind_eq_some_iff.1 hh
    intro x hx
    rcases List.mem_cons.1 hx with rfl | hx
    · exact hexValue_ne hd
    · exact ih hh x hx

theorem reference_ne {name : Str} {c : Char} (h : Reference name c) : ∀ x ∈ name, x ≠ ';' ∧ x ≠ '<' := by
  rcases h with h | ⟨h, n, rfl, hn, _⟩
  · have : ∀ e ∈ entities, ∀ x ∈ e.1, x ≠ ';' ∧ x ≠ '<' := by decide
    exact this _ h
  · intro x hx
    rcases List.mem_cons.1 hx with rfl | hx
    · decide
    rcases List.mem_cons.1 hx with rfl | hx
    · decide
    exact hexNumber_ne hn x hx

theorem reference_unique {name : Str} {c c' : Char} (h : Reference name c) (h' : Reference name c') : c = c' := by
  have he : ∀ e ∈ entities, e.1.head? ≠ some '#' := by decide
  rcases h with h | ⟨x, n, rfl, hn, rfl⟩
  · rcases h' with h' | ⟨x', n', rfl, _⟩
    · have : ∀ e ∈ entities, ∀ e' ∈ entities, e.1 = e'.1 → e.2 = e'.2 := by decide
      exact this _ h _ h' rfl
    · exact absurd rfl (he _ h)
  · rcases h' with h' | ⟨x', n', e, hn', rfl⟩
    · exact absurd rfl (he _ h')
    · cases e
      rw [hn] at hn'
      rw [Option.some.inj hn']

theorem plain_inv {z t : Str} (h : PlainText z t) :
    (z = [] ∧ t = []) ∨
    (∃ c s u, z = c :: s ∧ t = c :: u ∧ c ≠ '&' ∧ c ≠ '<' ∧ PlainText s u) ∨
    ∃ name c s u, z = '&' :: (name ++ ';' :: s) ∧ t = c :: u ∧ Reference name c ∧ PlainText s u := by
  cases h with
  | nil => exact .inl ⟨rfl, rfl⟩
  | char h1 h2 h3 h => exact .inr (.inl ⟨_, _, _, rfl, rfl, h1, h2, h⟩)
  | entity he h => exact .inr (.inr ⟨_, _, _, _, by simp, rfl, .inl he, h⟩)
  | number h1 h2 h => exact .inr (.inr ⟨_, _, _, _, by simp, rfl, .inr ⟨_, _, rfl, h2, rfl⟩, h⟩)

theorem split_unique {sep : Char} {a b a' b' : Str} (h : a ++ sep :: b = a' ++ sep :: b') (h1 : sep ∉ a) (h2 : sep ∉ a') :
    a = a' ∧ b = b' := by
  have e1 : splitOnce sep (a ++ sep :: b) = some (a, b) := splitOnce_eq_some.2 ⟨rfl, h1⟩
  rw [h, splitOnce_eq_some.2 ⟨rfl, h2⟩] at e1
  cases e1
  exact ⟨rfl, rfl⟩

theorem plain_unique_aux (n : Nat) : ∀ z t t', z.length ≤ n → PlainText z t → PlainText z t' → t = t' := by
  induction n with
  | zero =>
    intro z t t' hz h h'
    have : z = [] := List.length_eq_zero_iff.1 (by omega)
    subst this
    rcases plain_inv h with ⟨_, rfl⟩ | ⟨_, _, _, e, _⟩ | ⟨_, _, _, _, e, _⟩
    · rcases plain_inv h' with ⟨_, rfl⟩ | ⟨_, _, _, e, _⟩ | ⟨_, _, _, _, e, _⟩
      · rfl
      · cases e
      · cases e
    · cases e
    · cases e
  | succ n ih =>
    intro z t t' hz h h'
    rcases plain_inv h with ⟨rfl, rfl⟩ | ⟨c, s, u, rfl, rfl, hc, _, h1⟩ | ⟨m, c, s, u, rfl, rfl, hr, h1⟩
    · rcases plain_inv h' with ⟨_, rfl⟩ | ⟨_, _, _, e, _⟩ | ⟨_, _, _, _, e, _⟩
      · rfl
      · cases e
      · cases e
    · rcases plain_inv h' with ⟨e, _⟩ | ⟨_, _, _, e, rfl, _, _, h2⟩ | ⟨_, _, _, _, e, _⟩
      · cases e
      · cases e
        rw [ih s u _ (by simpa using hz) h1 h2]
      · cases e; exact absurd rfl hc
    · rcases plain_inv h' with ⟨e, _⟩ | ⟨_, _, _, e, rfl, hc, _, h2⟩ | ⟨m', c', s', u', e, rfl, hr', h2⟩
      · cases e
      · cases e; exact absurd rfl hc
      · obtain ⟨rfl, rfl⟩ := split_unique (List.cons.inj e).2 (fun hx => (reference_ne hr _ hx).1 rfl)
          (fun hx => (reference_ne hr' _ hx).1 rfl)
        rw [reference_unique hr hr', ih s u u' (by simp at hz; omega) h1 h2]

theorem plain_unique {z t t' : Str} (h : PlainText z t) (h' : PlainText z t') : t = t' :=
  plain_unique_aux z.length z t t' (Nat.le_refl _) h h'

theorem plain_no_tag {z t : Str} (h : PlainText z t) : '<' ∉ z := by
  induction h with
  | nil => simp
  | char _ h2 _ _ ih => simp [ih, Ne.symm h2]
  | entity he _ ih =>
    have := fun hx => (reference_ne (.inl he) '<' hx).2 rfl
    rename_i n c s t _
    have : '<' ∉ n := this
    simp [ih, this]
  | number _ hn _ ih =>
    have := fun hx => (hexNumber_ne hn '<' hx).2 rfl
    rename_i h n s t _ _
    have : '<' ∉ h := this
    simp [ih, this]

theorem shows_inv {z : Str} {out : List (Char × Bool)} (h : Shows z out) :
    (∃ t, PlainText z t ∧ out = plain t) ∨
    ∃ s t b u r o, z = s ++ '<' :: 'b' :: '>' :: (b ++ '<' :: '/' :: 'b' :: '>' :: r) ∧ PlainText s t ∧ PlainText b u ∧
      Shows r o ∧ out = plain t ++ strong u ++ o := by
  cases h with
  | text h => exact .inl ⟨_, h, rfl⟩
  | bold h1 h2 h3 => exact .inr ⟨_, _, _, _, _, _, by simp, h1, h2, h3, rfl⟩

theorem shows_unique_aux (n : Nat) : ∀ z o o', z.length ≤ n → Shows z o → Shows z o' → o = o' := by
  induction n with
  | zero =>
    intro z o o' hz h h'
    have : z = [] := List.length_eq_zero_iff.1 (by omega)
    subst this
    rcases shows_inv h with ⟨t, h1, rfl⟩ | ⟨s, _, _, _, _, _, e, _⟩
    · rcases shows_inv h' with ⟨t', h2, rfl⟩ | ⟨s, _, _, _, _, _, e, _⟩
      · rw [plain_unique h1 h2]
      · exact absurd (congrArg List.length e) (by simp)
    · exact absurd (congrArg List.length e) (by simp)
  | succ n ih =>
    intro z o o' hz h h'
    rcases shows_inv h with ⟨t, h1, rfl⟩ | ⟨s, t, b, u, r, w, rfl, h1, h2, h3, rfl⟩
    · rcases shows_inv h' with ⟨t', h2, rfl⟩ | ⟨s, _, _, _, _, _, rfl, _⟩
      · rw [plain_unique h1 h2]
      · exact absurd (by simp) (plain_no_tag h1)
    · rcases shows_inv h' with ⟨t', h4, rfl⟩ | ⟨s', t', b', u', r', w', e, h4, h5, h6, rfl⟩
      · exact absurd (by simp) (plain_no_tag h4)
      · obtain ⟨e1, e2⟩ := split_unique e (plain_no_tag h1) (plain_no_tag h4)
        obtain ⟨e3, e4⟩ := split_unique (List.cons.inj (List.cons.inj e2).2).2 (plain_no_tag h2) (plain_no_tag h5)
        cases e1
        cases e3
        cases e4
        rw [plain_unique h1 h4, plain_unique h2 h5, ih r w w' (by simp at hz; omega) h3 h6]

/-- **C43, unambiguous.** A markup shows at most one thing. -/
theorem C43_unambiguous (z : Str) (o o' : List (Char × Bool)) (h : Shows z o) (h' : Shows z o') : o = o' :=
  shows_unique_aux z.length z o o' (Nat.le_refl _) h h'

/-! ## The texts -/

set_option maxRecDepth 20000 in
theorem hex2_dot : ∀ n : Fin 160, '.' ∉ hex2 n.1 := by decide

theorem escape_dot {s : Str} (h : '.' ∉ s) : '.' ∉ markupEscape s := by
  intro hd
  obtain ⟨c, hc, hx⟩ := List.mem_flatMap.1 hd
  have hne : c ≠ '.' := by rintro rfl; exact h hc
  revert hx
  unfold escapeChar
  by_cases h1 : c = '&'
  · rw [if_pos h1]; decide
  rw [if_neg h1]
  by_cases h2 : c = '<'
  · rw [if_pos h2]; decide
  rw [if_neg h2]
  by_cases h3 : c = '>'
  · rw [if_pos h3]; decide
  rw [if_neg h3]
  by_cases h4 : c = '\''
  · rw [if_pos h4]; decide
  rw [if_neg h4]
  by_cases h5 : c = '"'
  · rw [if_pos h5]; decide
  rw [if_neg h5]
  dsimp only
  split_ifs with h6
  · have hc : c.toNat < 160 := by
      simp only [Bool.or_eq_true, Bool.and_eq_true, decide_eq_true_eq] at h6
      omega
    have : '.' ∉ hex2 c.toNat := hex2_dot ⟨c.toNat, hc⟩
    simp [this]
  · simpa using fun hx => hne hx.symm

theorem escape_append (a b : Str) : markupEscape (a ++ b) = markupEscape a ++ markupEscape b := by
  simp [markupEscape]

theorem escape_eq_nil {s : Str} : markupEscape s = [] ↔ s = [] := by
  cases s with
  | nil => simp [markupEscape]
  | cons c cs =>
    have : escapeChar c ≠ [] := by unfold escapeChar; dsimp only; split_ifs <;> simp
    simp [markupEscape, this]

theorem escape_plus {s : Str} : markupEscape s = c!"+" ↔ s = c!"+" := by
  constructor
  · intro h
    have := plain_escape' s
    rw [h] at this
    exact plain_unique this (.char (by decide) (by decide) (by decide) .nil)
  · rintro rfl; decide

theorem shows_tail {b u r o} (h1 : PlainText b u) (h2 : Shows r o) :
    Shows (c!"<b>" ++ b ++ c!"</b>" ++ r) (strong u ++ o) := Shows.bold .nil h1 h2

theorem splitOnce_no_sep {sep : Char} {s : Str} (h : splitOnce sep s = none) : sep ∉ s := by
  induction s with
  | nil => simp
  | cons c cs ih =>
    rw [splitOnce] at h
    split_ifs at h with hc
    have := ih (by simpa using h)
    simp [this, Ne.symm hc]

/-- How the call is to be shown: the part of the service name behind the first dot in bold - the whole name if there is no
such part - and the argument. -/
inductive CallShown : Str → Str → List (Char × Bool) → Prop
  | dotted (domain name argument : Str) : '.' ∉ domain → name ≠ [] →
      CallShown (domain ++ c!"." ++ name) argument (plain (domain ++ c!".") ++ strong name ++ plain argument)
  | whole (service argument : Str) : (∀ d n, service = d ++ c!"." ++ n → '.' ∉ d → n = []) →
      CallShown service argument (strong service ++ plain argument)

/-- **C43.** Whatever the service and the argument are, the window shows them, character by character, with no other markup
than the bold name; the argument "+" is not shown. -/
theorem C43_text (service argument : Str) :
    ∃ out, Shows (formatRpcText service argument) out ∧
      CallShown service (if argument = c!"+" then [] else argument) out := by
  have arg : PlainText (if markupEscape argument = c!"+" then [] else markupEscape argument)
      (if argument = c!"+" then [] else argument) := by
    by_cases h : argument = c!"+"
    · rw [if_pos h, if_pos (escape_plus.2 h)]; exact .nil
    · rw [if_neg h, if_neg (fun hx => h (escape_plus.1 hx))]; exact plain_escape' _
  have split : ∀ r : Str, (if markupEscape argument = c!"+" then r else r ++ markupEscape argument) =
      r ++ (if markupEscape argument = c!"+" then [] else markupEscape argument) := by
    intro r; split_ifs <;> simp
  unfold formatRpcText
  dsimp only
  rw [split]
  generalize (if markupEscape argument = c!"+" then [] else markupEscape argument) = ra at arg
  generalize (if argument = c!"+" then [] else argument) = oa at arg
  have whole : Shows (c!"<b>" ++ markupEscape service ++ c!"</b>" ++ ra) (strong service ++ plain oa) :=
    shows_tail (plain_escape' service) (.text arg)
  cases hs : splitOnce '.' service with
  | none =>
    have hn : '.' ∉ service := by
      exact splitOnce_no_sep hs
    have he : splitOnce '.' (markupEscape service) = none := by
      cases h : splitOnce '.' (markupEscape service) with
      | none => rfl
      | some q =>
        obtain ⟨e, _⟩ := splitOnce_eq_some.1 (show splitOnce '.' (markupEscape service) = some (q.1, q.2) from h)
        exact absurd (by rw [e]; simp) (escape_dot hn)
    rw [he]
    refine ⟨_, whole, .whole service oa ?_⟩
    rintro d n rfl
    exact absurd (by simp) hn
  | some q =>
    obtain ⟨d, n⟩ := q
    obtain ⟨e, hd⟩ := splitOnce_eq_some.1 hs
    have he : markupEscape service = markupEscape d ++ '.' :: markupEscape n := by
      rw [e, show d ++ '.' :: n = d ++ (c!"." ++ n) from rfl, escape_append, escape_append]; rfl
    have he' : splitOnce '.' (markupEscape service) = some (markupEscape d, markupEscape n) :=
      splitOnce_eq_some.2 ⟨he, escape_dot hd⟩
    rw [he']
    dsimp only
    by_cases hn : n = []
    · rw [if_pos (by rw [hn]; rfl)]
      refine ⟨_, whole, .whole service oa ?_⟩
      intro d' n' e' hd'
      have := (split_unique (a' := d') (b' := n') (e.symm.trans (e'.trans (by simp))) hd hd').2
      rw [← this, hn]
    · rw [if_neg (fun hx => hn (escape_eq_nil.1 (List.isEmpty_iff.1 hx)))]
      have := Shows.bold (plain_dot (plain_escape' d)) (plain_escape' n) (.text arg)
      have hc := CallShown.dotted d n oa hd hn
      rw [show service = d ++ c!"." ++ n by rw [e]; simp]
      refine ⟨_, ?_, hc⟩
      simpa [plain, strong] using this

/-- **C43, inert.** What is shown is the given text, whatever else is in it. -/
theorem C43_inert (service argument : Str) (out : List (Char × Bool)) (h : Shows (formatRpcText service argument) out) :
    out.map Prod.fst = service ++ (if argument = c!"+" then [] else argument) ∧
      (∀ i c, out[i]? = some (c, true) → i < service.length) := by
  obtain ⟨out', h1, h2⟩ := C43_text service argument
  rw [C43_unambiguous _ _ _ h h1]
  clear h h1
  have fp : ∀ s, (plain s).map Prod.fst = s := by intro s; simp [plain, Function.comp_def]
  have fs : ∀ s, (strong s).map Prod.fst = s := by intro s; simp [strong, Function.comp_def]
  have pl : ∀ (s : Str) (i : Nat) (c : Char), (plain s)[i]? ≠ some (c, true) := by
    intro s i c hx
    unfold plain at hx
    rw [List.getElem?_map] at hx
    obtain ⟨_, _, hx⟩ := Option.map_eq_some_iff.1 hx
    cases hx
  have tail : ∀ (l : List (Char × Bool)) (s : Str) (i : Nat) (c : Char), (l ++ plain s)[i]? = some (c, true) → i < l.length := by
    intro l s i c hx
    by_contra hlt
    rw [List.getElem?_append_right (by omega)] at hx
    exact pl _ _ _ hx
  generalize (if argument = c!"+" then [] else argument) = oa at h2
  cases h2 with
  | dotted d n _ h3 h4 =>
    refine ⟨by rw [List.map_append, List.map_append, fp, fs, fp], ?_⟩
    intro i c hx
    have := tail _ _ _ _ hx
    simpa [plain, strong] using this
  | whole _ _ h3 =>
    refine ⟨by rw [List.map_append, fs, fp], ?_⟩
    intro i c hx
    have := tail _ _ _ _ hx
    simpa [strong] using this

/-- **C43, notifications.** The body of a notification shows the call, the caller and the target as they are. -/
theorem C43_notify (resolution service argument source target body : Str)
    (h : notifyBody resolution service argument source target = .ok body) :
    let call := service ++ (if argument = c!"+" then [] else argument)
    let ends := c!" from ".map (·, false) ++ strong source ++ plain c!" to " ++ strong target
    (resolution = c!"allow" ∧ Shows body (plain c!"Allowed " ++ strong call ++ ends)) ∨
    (resolution = c!"deny" ∧ Shows body (plain c!"Denied " ++ strong call ++ ends)) ∨
    (resolution = c!"fail" ∧ Shows body (plain c!"Failed to execute " ++ strong call ++ plain c!" (from " ++
      strong source ++ plain c!" to " ++ strong target ++ plain c!")")) := by
  dsimp only
  have hcall : (if argument = c!"+" then service else service ++ argument) =
      service ++ (if argument = c!"+" then [] else argument) := by split_ifs <;> simp
  unfold notifyBody at h
  dsimp only at h
  rw [hcall] at h
  generalize service ++ (if argument = c!"+" then [] else argument) = call at h
  have lit : ∀ s : Str, (∀ c ∈ s, c ≠ '&' ∧ c ≠ '<' ∧ c ≠ '>') → PlainText s s := by
    intro s hs
    induction s with
    | nil => exact .nil
    | cons c cs ih =>
      obtain ⟨k1, k2, k3⟩ := hs c (by simp)
      exact .char k1 k2 k3 (ih fun x hx => hs x (by simp [hx]))
  have e3 : ∀ tail : Str, (∀ c ∈ tail, c ≠ '&' ∧ c ≠ '<' ∧ c ≠ '>') → ∀ mid : Str,
      (∀ c ∈ mid, c ≠ '&' ∧ c ≠ '<' ∧ c ≠ '>') → ∀ pre : Str, (∀ c ∈ pre, c ≠ '&' ∧ c ≠ '<' ∧ c ≠ '>') →
      Shows (pre ++ c!"<b>" ++ markupEscape call ++ c!"</b>" ++ (mid ++ c!"<b>" ++ markupEscape source ++ c!"</b>" ++
        (c!" to " ++ c!"<b>" ++ markupEscape target ++ c!"</b>" ++ tail)))
        (plain pre ++ strong call ++ (plain mid ++ strong source ++ (plain c!" to " ++ strong target ++ plain tail))) := by
    intro tail ht mid hm pre hp
    exact Shows.bold (lit pre hp) (plain_escape' call) (Shows.bold (lit mid hm) (plain_escape' source)
      (Shows.bold (lit c!" to " (by decide)) (plain_escape' target) (.text (lit tail ht))))
  by_cases h1 : resolution = c!"allow"
  · rw [if_pos h1] at h
    cases h
    refine .inl ⟨h1, ?_⟩
    have := e3 [] (by simp) c!" from " (by decide) c!"Allowed " (by decide)
    simpa [plain, strong] using this
  rw [if_neg h1] at h
  by_cases h2 : resolution = c!"deny"
  · rw [if_pos h2] at h
    cases h
    refine .inr (.inl ⟨h2, ?_⟩)
    have := e3 [] (by simp) c!" from " (by decide) c!"Denied " (by decide)
    simpa [plain, strong] using this
  rw [if_neg h2] at h
  by_cases h3 : resolution = c!"fail"
  · rw [if_pos h3] at h
    cases h
    refine .inr (.inr ⟨h3, ?_⟩)
    have := e3 c!")" (by decide) c!" (from " (by decide) c!"Failed to execute " (by decide)
    simpa [plain, strong] using this
  · rw [if_neg h3] at h; cases h

example : formatRpcText c!"a.b<i>" c!"+&'x" = c!"a.<b>b&lt;i&gt;</b>+&amp;&apos;x" := by decide
example : ∃ b, notifyBody c!"deny" c!"qubes.X" c!"+</b>" c!"work" c!"@default" = .ok b ∧
    b = c!"Denied <b>qubes.X+&lt;/b&gt;</b> from <b>work</b> to <b>@default</b>" := ⟨_, rfl, by decide⟩

end Qrexec
