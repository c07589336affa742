import Verif.Model.Print
import Verif.Props.RuleLine
import Verif.Props.Grammar
import Verif.Props.Legacy
import Mathlib.Tactic.Tauto

/-! # C45: printing a rule and reading it again -/
namespace Qrexec
open Spec

/-- The action without the parameters that are not printed: what a reader of the printed rule gets. -/
def plainUser : Option Str → Option Str
  | some [] => none
  | o => o

def plainAction : Action → Action
  | .deny _ => .deny true
  | .allow t u _ _ => .allow t (plainUser u) false true
  | .ask t d u _ _ => .ask t d (plainUser u) false true

/-- A text without white space. -/
def Solid (w : Str) : Prop := w ≠ [] ∧ ∀ c ∈ w, isSpace c = false

theorem words_solid {sep w rest ws} (hs : isSpace sep = true) (hw : Solid w)
    (hr : ∀ c, rest.head? = some c → isSpace c = true) (h : Words rest ws) : Words (sep :: (w ++ rest)) (w :: ws) :=
  Words.word (gap := [sep]) (by simpa using hs) hw.1 hw.2 hr h

theorem words_first {w rest ws} (hw : Solid w)
    (hr : ∀ c, rest.head? = some c → isSpace c = true) (h : Words rest ws) : Words (w ++ rest) (w :: ws) :=
  Words.word (gap := []) (by simp) hw.1 hw.2 hr h

/-- The `key=value` pairs a printed parameter stands for. -/
def pairOf (key : Str) : Option Str → List (Str × Str)
  | none => []
  | some v => if v.isEmpty then [] else [(key, v)]

theorem head_print (key : Str) (o : Option Str) (rest : Str) (hr : ∀ c, rest.head? = some c → isSpace c = true) :
    ∀ c, (printParam key o ++ rest).head? = some c → isSpace c = true := by
  cases o with
  | none => exact hr
  | some v =>
    unfold printParam
    dsimp only
    by_cases h : v.isEmpty
    · rw [if_pos h]; exact hr
    · rw [if_neg h]
      intro c hc
      rw [show (c!" " ++ key ++ c!"=" ++ v ++ rest).head? = some ' ' from rfl] at hc
      cases hc
      rfl

theorem words_print (key : Str) (o : Option Str) (rest : Str) (ws : List Str)
    (hk : ∀ c ∈ key, isSpace c = false) (ho : ∀ v, o = some v → ∀ c ∈ v, isSpace c = false)
    (hr : ∀ c, rest.head? = some c → isSpace c = true) (h : Words rest ws) :
    Words (printParam key o ++ rest) ((pairOf key o).map (fun kv => kv.1 ++ '=' :: kv.2) ++ ws) := by
  cases o with
  | none => exact h
  | some v =>
    unfold printParam pairOf
    dsimp only
    by_cases hv : v.isEmpty
    · rw [if_pos hv, if_pos hv]; exact h
    · rw [if_neg hv, if_neg hv]
      have := words_solid (sep := ' ') (w := key ++ '=' :: v) rfl ⟨by simp, ?_⟩ hr h
      · simpa using this
      · intro c hc
        rcases List.mem_append.1 hc with hc | hc
        · exact hk c hc
        · rcases List.mem_cons.1 hc with rfl | hc
          · rfl
          · exact ho v rfl c hc

theorem pairOf_key {key : Str} {o : Option Str} {kv : Str × Str} (h : kv ∈ pairOf key o) : kv.1 = key := by
  cases o with
  | none => cases h
  | some v =>
    unfold pairOf at h
    dsimp only at h
    split_ifs at h
    · cases h
    · rw [List.mem_singleton.1 h]

theorem pairOf_nodup (key : Str) (o : Option Str) : ((pairOf key o).map Prod.fst).Nodup := by
  cases o with
  | none => simp [pairOf]
  | some v => unfold pairOf; dsimp only; split_ifs <;> simp

/-- The pairs of a printed action. -/
def printedPairs : Action → List (Str × Str)
  | .deny _ => []
  | .allow t u _ _ => pairOf c!"target" (t.map Token.str) ++ pairOf c!"user" u
  | .ask t d u _ _ => pairOf c!"target" (t.map Token.str) ++
      (pairOf c!"default_target" (d.map Token.str) ++ pairOf c!"user" u)

def actionName : Action → Str
  | .deny _ => c!"deny"
  | .allow .. => c!"allow"
  | .ask .. => c!"ask"

theorem actionName_of {kvs : List (Str × Str)} {action : Str} {act : Action} (h : ActionText kvs action act) :
    actionName act = action := by cases h <;> rfl

theorem solid_name (act : Action) : Solid (actionName act) := by
  cases act <;> exact ⟨by simp [actionName], by simp only [actionName]; decide⟩

/-- Texts of the parameters have no white space. -/
def SolidParams : Action → Prop
  | .deny _ => True
  | .allow t u _ _ => (∀ x, t = some x → ∀ c ∈ x.str, isSpace c = false) ∧ (∀ x, u = some x → ∀ c ∈ x, isSpace c = false)
  | .ask t d u _ _ => (∀ x, t = some x → ∀ c ∈ x.str, isSpace c = false) ∧
      (∀ x, d = some x → ∀ c ∈ x.str, isSpace c = false) ∧ (∀ x, u = some x → ∀ c ∈ x, isSpace c = false)

theorem solid_map {t : Option Token} (h : ∀ x, t = some x → ∀ c ∈ x.str, isSpace c = false) :
    ∀ v, t.map Token.str = some v → ∀ c ∈ v, isSpace c = false := by
  intro v hv
  obtain ⟨x, hx, rfl⟩ := Option.map_eq_some_iff.1 hv
  exact h x hx

theorem words_action (act : Action) (h : SolidParams act) :
    Words act.print (actionName act :: (printedPairs act).map (fun kv => kv.1 ++ '=' :: kv.2)) := by
  have nil : Words [] [] := Words.none (by simp)
  have hnil : ∀ c, ([] : Str).head? = some c → isSpace c = true := by simp
  cases act with
  | deny n =>
    have := words_first (solid_name (.deny n)) hnil nil
    exact this
  | allow t u n a =>
    obtain ⟨h1, h2⟩ := h
    have w1 := words_print c!"user" u [] [] (by decide) h2 hnil nil
    have p1 := head_print c!"user" u [] hnil
    have w2 := words_print c!"target" (t.map Token.str) _ _ (by decide) (solid_map h1) p1 w1
    have := words_first (solid_name (.allow t u n a)) (head_print c!"target" (t.map Token.str) _ p1) w2
    simpa [printedPairs, Action.print, actionName] using this
  | ask t d u n a =>
    obtain ⟨h1, h2, h3⟩ := h
    have w1 := words_print c!"user" u [] [] (by decide) h3 hnil nil
    have p1 := head_print c!"user" u [] hnil
    have w2 := words_print c!"default_target" (d.map Token.str) _ _ (by decide) (solid_map h2) p1 w1
    have p2 := head_print c!"default_target" (d.map Token.str) _ p1
    have w3 := words_print c!"target" (t.map Token.str) _ _ (by decide) (solid_map h1) p2 w2
    have := words_first (solid_name (.ask t d u n a)) (head_print c!"target" (t.map Token.str) _ p2) w3
    simpa [printedPairs, Action.print, actionName] using this

theorem mem_pairOf {key k v : Str} {o : Option Str} : (k, v) ∈ pairOf key o ↔ k = key ∧ o = some v ∧ v ≠ [] := by
  cases o with
  | none => simp [pairOf]
  | some w =>
    unfold pairOf
    dsimp only
    by_cases h : w.isEmpty
    · rw [if_pos h]
      rw [List.isEmpty_iff] at h
      subst h
      simp only [List.not_mem_nil, Option.some.injEq, false_iff, not_and]
      rintro _ rfl h
      exact h rfl
    · rw [if_neg h]
      rw [List.isEmpty_iff] at h
      simp only [List.mem_singleton, Prod.mk.injEq, Option.some.injEq]
      constructor
      · rintro ⟨rfl, rfl⟩; exact ⟨rfl, rfl, h⟩
      · rintro ⟨rfl, rfl, _⟩; exact ⟨rfl, rfl⟩

theorem tokenText_ne {ctx : Ctx} {s : Str} {t : Token} (h : TokenText ctx s t) : s ≠ [] := by
  cases h with
  | name h => exact h.1
  | wildcard | adminvm | anyvm | default | dispvm => simp
  | typeVM | tagVM | dispvmTemplate | dispvmTag => simp

theorem redirectParam_text {kvs : List (Str × Str)} {key : Str} {o : Option Token} (h : RedirectParam kvs key o) :
    ∀ t, o = some t → TokenText .redirect t.str t ∧ (key, t.str) ∈ kvs := by
  rintro t rfl
  rcases h with ⟨_, h⟩ | ⟨v, t', hm, ht, h⟩
  · cases h
  · cases h
    rw [tokenText_str ht]
    exact ⟨ht, hm⟩

theorem text_mem {kvs : List (Str × Str)} {key : Str} {o : Option Str} (h : Text kvs key o) :
    ∀ v, o = some v → (key, v) ∈ kvs := by
  rintro v rfl
  rcases h with ⟨_, h⟩ | ⟨v', hm, h⟩
  · cases h
  · cases h; exact hm

theorem redirect_again {kvs : List (Str × Str)} {key : Str} {o : Option Token}
    (ht : ∀ t, o = some t → TokenText .redirect t.str t)
    (hk : ∀ v, (key, v) ∈ kvs ↔ (key, v) ∈ pairOf key (o.map Token.str)) : RedirectParam kvs key o := by
  cases o with
  | none =>
    refine .inl ⟨fun v hv => ?_, rfl⟩
    have := (hk v).1 hv
    simp [pairOf] at this
  | some t =>
    refine .inr ⟨t.str, t, (hk _).2 (mem_pairOf.2 ⟨rfl, rfl, tokenText_ne (ht t rfl)⟩), ht t rfl, rfl⟩

theorem text_again {kvs : List (Str × Str)} {key : Str} {o : Option Str}
    (hk : ∀ v, (key, v) ∈ kvs ↔ (key, v) ∈ pairOf key o) : Text kvs key (plainUser o) := by
  have none_case : (∀ v, o = some v → v = []) → ∀ v, (key, v) ∉ kvs := by
    intro ho v hv
    obtain ⟨_, h1, h2⟩ := mem_pairOf.1 ((hk v).1 hv)
    exact h2 (ho v h1)
  cases o with
  | none => exact .inl ⟨none_case (by simp), rfl⟩
  | some v =>
    cases v with
    | nil => exact .inl ⟨none_case (by simp), rfl⟩
    | cons c cs => exact .inr ⟨c :: cs, (hk _).2 (mem_pairOf.2 ⟨rfl, rfl, by simp⟩), rfl⟩

theorem flag_again {kvs : List (Str × Str)} {key : Str} {b : Bool} (h : ∀ v, (key, v) ∉ kvs) : Flag kvs key b b :=
  .inl ⟨h, rfl⟩

theorem action_again {kvs : List (Str × Str)} {action : Str} {act : Action} (h : ActionText kvs action act) :
    ActionText (printedPairs act) (actionName act) (plainAction act) := by
  cases h with
  | deny => exact .deny (flag_again (by simp [printedPairs]))
  | allow ht hu _ _ =>
    refine .allow (redirect_again (fun t h => (redirectParam_text ht t h).1) ?_) (text_again ?_)
      (flag_again ?_) (flag_again ?_)
    all_goals
      intro v
      simp only [printedPairs, List.mem_append, mem_pairOf]
      simp
  | ask ht hd hu _ _ =>
    refine .ask (redirect_again (fun t h => (redirectParam_text ht t h).1) ?_)
      (redirect_again (fun t h => (redirectParam_text hd t h).1) ?_) (text_again ?_)
      (flag_again ?_) (flag_again ?_)
    all_goals
      intro v
      simp only [printedPairs, List.mem_append, mem_pairOf]
      simp

theorem solid_params {params : List Str} {kvs : List (Str × Str)} {action : Str} {act : Action}
    (hp : ParamWords params kvs) (hs : ∀ w ∈ params, ∀ c ∈ w, isSpace c = false) (h : ActionText kvs action act) :
    SolidParams act := by
  have key : ∀ k v, (k, v) ∈ kvs → ∀ c ∈ v, isSpace c = false := by
    intro k v hm c hc
    refine hs (k ++ '=' :: v) ?_ c (by simp [hc])
    rw [hp.1]
    exact List.mem_map.2 ⟨(k, v), hm, rfl⟩
  cases h with
  | deny => trivial
  | allow ht hu _ _ =>
    exact ⟨fun x hx => key _ _ (redirectParam_text ht x hx).2, fun x hx => key _ _ (text_mem hu x hx)⟩
  | ask ht hd hu _ _ =>
    exact ⟨fun x hx => key _ _ (redirectParam_text ht x hx).2, fun x hx => key _ _ (redirectParam_text hd x hx).2,
      fun x hx => key _ _ (text_mem hu x hx)⟩

theorem printed_nodup (act : Action) : ((printedPairs act).map Prod.fst).Nodup := by
  have h1 := pairOf_nodup
  have hk : ∀ {key o k}, k ∈ (pairOf key o).map Prod.fst → k = key := by
    intro key o k h
    obtain ⟨kv, hkv, rfl⟩ := List.mem_map.1 h
    exact pairOf_key hkv
  cases act with
  | deny => simp [printedPairs]
  | allow t u n a =>
    unfold printedPairs
    rw [List.map_append, List.nodup_append]
    refine ⟨h1 _ _, h1 _ _, ?_⟩
    intro x hx y hy
    rw [hk hx, hk hy]
    decide
  | ask t d u n a =>
    unfold printedPairs
    rw [List.map_append, List.map_append, List.nodup_append, List.nodup_append]
    refine ⟨h1 _ _, ⟨h1 _ _, h1 _ _, ?_⟩, ?_⟩
    · intro x hx y hy
      rw [hk hx, hk hy]
      decide
    · intro x hx y hy
      rw [hk hx]
      rcases List.mem_append.1 hy with hy | hy
      · rw [hk hy]; decide
      · rw [hk hy]; decide

theorem printed_known (act : Action) : ∀ kv ∈ printedPairs act, KnownParam (actionName act) kv.1 := by
  intro kv h
  cases act with
  | deny => cases h
  | allow t u n a =>
    rcases List.mem_append.1 h with h | h <;> rw [pairOf_key h] <;> exact .allow (by simp)
  | ask t d u n a =>
    rcases List.mem_append.1 h with h | h
    · rw [pairOf_key h]; exact .ask (by simp)
    · rcases List.mem_append.1 h with h | h <;> rw [pairOf_key h] <;> exact .ask (by simp)

theorem printed_eq (act : Action) : ∀ kv ∈ printedPairs act, '=' ∉ kv.1 := by
  intro kv h
  have := printed_known act kv h
  cases act with
  | deny => cases h
  | allow t u n a =>
    rcases List.mem_append.1 h with h | h <;> rw [pairOf_key h] <;> decide
  | ask t d u n a =>
    rcases List.mem_append.1 h with h | h
    · rw [pairOf_key h]; decide
    · rcases List.mem_append.1 h with h | h <;> rw [pairOf_key h] <;> decide

theorem print_words {path : List Str} {ws : List Str} {r : Rule} (h : RuleWords path ws r)
    (hs : ∀ w ∈ ws, ∀ c ∈ w, isSpace c = false) (hne : r.service ≠ some []) :
    ∃ vs, Words r.print vs ∧
      RuleWords path vs ⟨some (r.service.getD c!"None"), r.argument, r.source, r.target, plainAction r.action, path⟩ := by
  cases h with
  | @mk service argument source target action params kvs s a src tgt act h1 h2 h3 h4 h5 h6 h7 h8 h9 h10 =>
    dsimp only at hne
    have hsrv : Solid (s.getD c!"None") := by
      cases h1 with
      | any => exact ⟨by simp, by decide⟩
      | name _ _ => exact ⟨by rintro rfl; exact hne rfl, hs _ (by simp)⟩
    have harg : Solid (printArgument a) ∧ ArgumentText (printArgument a) a := by
      cases h2 with
      | any => exact ⟨⟨by simp [printArgument], by decide⟩, .any⟩
      | @arg a h => exact ⟨⟨by simp [printArgument], hs ('+' :: a) (by simp)⟩, .arg h⟩
    have hsrc : Solid src.str := by
      rw [tokenText_str h4]; exact ⟨tokenText_ne h4, hs _ (by simp)⟩
    have htgt : Solid tgt.str := by
      rw [tokenText_str h5]; exact ⟨tokenText_ne h5, hs _ (by simp)⟩
    have hw := words_action act (solid_params h6 (fun w hw => hs w (by simp [hw])) h9)
    have tab : ∀ rest : Str, ∀ c, ('\t' :: rest).head? = some c → isSpace c = true := by
      intro rest c hc; cases hc; rfl
    have w0 : Words ('\t' :: act.print)
        (actionName act :: (printedPairs act).map (fun kv => kv.1 ++ '=' :: kv.2)) := by
      generalize ht : act.print = txt at hw
      cases hw with
      | @word gap w rest ws' g1 g2 g3 g4 g5 =>
        exact Words.word (gap := '\t' :: gap) (by
          intro c hc
          rcases List.mem_cons.1 hc with rfl | hc
          · rfl
          · exact g1 c hc) g2 g3 g4 g5
    have w1 := words_solid (sep := '\t') rfl htgt (tab _) w0
    have w2 := words_solid (sep := '\t') rfl hsrc (tab _) w1
    have w3 := words_solid (sep := '\t') rfl harg.1 (tab _) w2
    have w4 := words_first hsrv (tab _) w3
    refine ⟨_, ?_, .mk (service := s.getD c!"None") (argument := printArgument a) (source := src.str) (target := tgt.str)
      (action := actionName act) (kvs := printedPairs act) ?_ harg.2 (by simp) ?_ ?_ ⟨rfl, printed_eq act⟩
      (printed_nodup act) (printed_known act) (action_again h9) ?_⟩
    · have e : (Rule.mk s a src tgt act path).print = s.getD c!"None" ++ '\t' :: (printArgument a ++ '\t' :: (src.str ++
          '\t' :: (tgt.str ++ '\t' :: act.print))) := by
        simp [Rule.print]
      rw [e]
      exact w4
    · cases h1 with
      | any =>
        refine .name (by decide) ?_
        have : ∀ c ∈ c!"None", NameChar c ∧ c ≠ '+' := by
          intro c hc
          rw [← nameChar_iff]
          revert c
          decide
        exact this
      | name g1 g2 => exact .name g1 g2
    · rw [tokenText_str h4]; exact h4
    · rw [tokenText_str h5]; exact h5
    · intro hd u n b
      have := h10 hd
      cases act with
      | deny => simp [plainAction]
      | allow t u' n' b' =>
        intro hc
        simp only [plainAction, Action.allow.injEq] at hc
        exact this u' n' b' (by rw [hc.1])
      | ask => simp [plainAction]

/-- **C45.** A rule that was loaded from a policy line is printed as a line that is accepted again, and means the same but
for: the parameters `notify` and `autostart` and an empty `user` are lost, and a rule for all services becomes one for the
service "None". -/
theorem C45_print (line : Str) (path : List Str) (r : Rule) (h : ruleFromLine line path = .ok r) :
    ruleFromLine r.print path =
      .ok ⟨some (r.service.getD c!"None"), r.argument, r.source, r.target, plainAction r.action, path⟩ := by
  obtain ⟨ws, hw, hr⟩ := (C23_rule_line line path r).1 h
  have hs : ∀ w ∈ ws, w ≠ [] ∧ ∀ c ∈ w, isSpace c = false := by
    clear h hr
    induction hw with
    | none => simp
    | word _ h2 h3 _ _ ih =>
      intro w hw
      rcases List.mem_cons.1 hw with rfl | hw
      · exact ⟨h2, h3⟩
      · exact ih w hw
  rw [C23_rule_line]
  refine print_words hr (fun w hw => (hs w hw).2) ?_
  cases hr with
  | mk h1 =>
    cases h1 with
    | any => simp
    | name => intro hc; exact (hs _ (by simp)).1 (Option.some.inj hc)

/-- Nothing of the action is lost by printing. -/
def PrintsWhole : Action → Prop
  | .deny n => n = true
  | .allow _ u n a => n = false ∧ a = true ∧ u ≠ some []
  | .ask _ _ u n a => n = false ∧ a = true ∧ u ≠ some []

theorem plainUser_eq (u : Option Str) : plainUser u = u ↔ u ≠ some [] := by
  cases u with
  | none => simp [plainUser]
  | some v => cases v <;> simp [plainUser]

theorem plainAction_eq (a : Action) : plainAction a = a ↔ PrintsWhole a := by
  cases a with
  | deny n => cases n <;> simp [plainAction, PrintsWhole]
  | allow t u n a =>
    simp only [plainAction, PrintsWhole, Action.allow.injEq, plainUser_eq, true_and]
    cases n <;> cases a <;> simp
  | ask t d u n a =>
    simp only [plainAction, PrintsWhole, Action.ask.injEq, plainUser_eq, true_and]
    cases n <;> cases a <;> simp

/-- **C45, the same rule.** Reading a printed rule gives the same rule exactly if the rule is for one service, its `notify`
and `autostart` are the defaults, and it does not have an empty `user`. -/
theorem C45_same_partial (line : Str) (path : List Str) (r : Rule) (h : ruleFromLine line path = .ok r) :
    ruleFromLine r.print path = .ok r ↔ r.service ≠ none ∧ PrintsWhole r.action := by
  rw [C45_print line path r h, Except.ok.injEq]
  have hp : r.filepath = path := by
    obtain ⟨ws, _, hr⟩ := (C23_rule_line line path r).1 h
    cases hr; rfl
  rw [← plainAction_eq]
  obtain ⟨s, a, src, tgt, act, p⟩ := r
  dsimp only at hp ⊢
  subst hp
  simp only [Rule.mk.injEq, true_and, and_true]
  cases s <;> simp

theorem nameChar_solid {c : Char} (h : NameChar c) : isSpace c = false := by
  have : ∀ c ∈ c!"ABCDEFGHIJKLMNOPQRSTUVWXYZabcdefghijklmnopqrstuvwxyz0123456789+-._", isSpace c = false := by decide
  exact this c h

theorem column_solid {path : List Str} {s a : Str} {ws : List Str} {r : Rule} (h : RuleWords path (s :: a :: ws) r) :
    (∀ c ∈ s, isSpace c = false) ∧ ∀ c ∈ a, isSpace c = false := by
  cases h with
  | mk h1 h2 =>
    constructor
    · cases h1 with
      | any => decide
      | name _ h => exact fun c hc => nameChar_solid (h c hc).1
    · cases h2 with
      | any => decide
      | arg h =>
        intro c hc
        rcases List.mem_cons.1 hc with rfl | hc
        · rfl
        · exact nameChar_solid (h c hc)

theorem mem_of_splitOn {sep : Char} {s w : Str} (h : w ∈ splitOn sep s) {c : Char} (hc : c ∈ w) : c ∈ s := by
  induction s generalizing w with
  | nil => simp [splitOn] at h; subst h; cases hc
  | cons x xs ih =>
    rw [splitOn] at h
    by_cases hx : x = sep
    · rw [if_pos hx] at h
      rcases List.mem_cons.1 h with rfl | h
      · cases hc
      · exact List.mem_cons_of_mem _ (ih h hc)
    · rw [if_neg hx] at h
      cases hs : splitOn sep xs with
      | nil =>
        rw [hs] at h
        rw [List.mem_singleton.1 h] at hc
        rw [List.mem_singleton.1 hc]
        exact List.mem_cons_self ..
      | cons v vs =>
        rw [hs] at h ih
        rcases List.mem_cons.1 h with rfl | h
        · rcases List.mem_cons.1 hc with rfl | hc
          · exact List.mem_cons_self ..
          · exact List.mem_cons_of_mem _ (ih (List.mem_cons_self ..) hc)
        · exact List.mem_cons_of_mem _ (ih (List.mem_cons_of_mem _ h) hc)

/-- A rule of the old format says what some words without white space say in the new one. -/
theorem legacy_ruleWords {service argument : Option Str} {line : Str} {path : List Str} {r : Rule}
    (h : ruleFromLineService service argument line path = .ok r) :
    ∃ ws, RuleWords path ws r ∧ ∀ w ∈ ws, ∀ c ∈ w, isSpace c = false := by
  unfold ruleFromLineService at h
  have hw := words_splitWs line
  generalize splitWs line = ws at h hw
  have hs' : ∀ w ∈ ws, ∀ c ∈ w, isSpace c = false := by
    clear h
    induction hw with
    | none => simp
    | word _ h2 h3 _ _ ih =>
      intro w hw
      rcases List.mem_cons.1 hw with rfl | hw
      · exact h3
      · exact ih w hw
  match ws, h, hs' with
  | source :: target :: ap, h, hs' =>
    dsimp only at h
    have hap : ∀ w ∈ (ap.map (splitOn ',')).flatten, ∀ c ∈ w, isSpace c = false := by
      intro w hw c hc
      obtain ⟨l, hl, hwl⟩ := List.mem_flatten.1 hw
      obtain ⟨x, hx, rfl⟩ := List.mem_map.1 hl
      exact hs' x (by simp [hx]) c (mem_of_splitOn hwl hc)
    generalize (ap.map (splitOn ',')).flatten = aps at h hap
    match aps, h, hap with
    | action :: params, h, hap =>
      dsimp only at h
      rw [mkRule_column] at h
      have hr := ruleWords_iff.1 h
      refine ⟨_, hr, ?_⟩
      intro w hw
      rcases List.mem_cons.1 hw with rfl | hw
      · exact column_solid hr |>.1
      rcases List.mem_cons.1 hw with rfl | hw
      · exact column_solid hr |>.2
      rcases List.mem_cons.1 hw with rfl | hw
      · exact hs' _ (by simp)
      rcases List.mem_cons.1 hw with rfl | hw
      · exact hs' _ (by simp)
      exact hap w hw

/-- **C45, legacy.** The same for rules of the old format, which is what the converter prints. -/
theorem C45_legacy (service argument : Option Str) (line : Str) (path : List Str) (r : Rule)
    (h : ruleFromLineService service argument line path = .ok r) (hs : r.service ≠ some []) :
    ruleFromLine r.print path =
      .ok ⟨some (r.service.getD c!"None"), r.argument, r.source, r.target, plainAction r.action, path⟩ := by
  obtain ⟨ws, hr, hw⟩ := legacy_ruleWords h
  rw [C23_rule_line]
  exact print_words hr hw hs

/-- Examples of what is lost. -/
theorem C45_violated :
    (∃ r, ruleFromLine c!"svc * work vault allow autostart=no" [] = .ok r ∧ r.print = c!"svc\t*\twork\tvault\tallow" ∧
      ruleFromLine r.print [] = .ok ⟨some c!"svc", none, .name c!"work", .name c!"vault", .allow none none false true, []⟩) ∧
    (∃ r, ruleFromLine c!"* * work vault deny" [] = .ok r ∧ r.print = c!"None\t*\twork\tvault\tdeny") := by
  refine ⟨⟨_, rfl, by decide, by decide⟩, ⟨_, rfl, by decide⟩⟩

example : ∃ r, ruleFromLine c!"svc +arg @tag:x @default ask default_target=@dispvm user=root" [] = .ok r ∧
    r.service ≠ none ∧ PrintsWhole r.action ∧
    r.print = c!"svc\t+arg\t@tag:x\t@default\task default_target=@dispvm user=root" :=
  ⟨_, rfl, by decide, ⟨rfl, rfl, by decide⟩, by decide⟩

example : ∃ r, ruleFromLineService (some c!"svc") (some c!"+") c!"@anyvm @dispvm allow,target=work,user=root" [] = .ok r ∧
    r.service ≠ some [] ∧ r.print = c!"svc\t+\t@anyvm\t@dispvm\tallow target=work user=root" :=
  ⟨_, rfl, by decide, by decide⟩

end Qrexec
