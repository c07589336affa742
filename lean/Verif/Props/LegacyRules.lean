import Verif.Props.LegacyConvert

/-! # C88: the rules that are converted -/
namespace Qrexec
open Spec

theorem sameLine_iff {a b : LRule} : sameLine a b = true ↔ a.rule.filepath = b.rule.filepath ∧ a.lineno = b.lineno := by
  simp [sameLine]

theorem hasLine_iff {r : LRule} : hasLine r = true ↔ ∃ n, r.lineno = some (n + 1) := by
  unfold hasLine
  cases r.lineno with
  | none => simp
  | some n => cases n <;> simp

theorem mem_legacyRules {all new : List LRule} {r : LRule} : r ∈ legacyRules all new ↔ OnlyLegacy all new r := by
  unfold legacyRules OnlyLegacy
  rw [List.mem_filter, List.mem_filter, hasLine_iff, Bool.not_eq_true', List.any_eq_false]
  simp only [sameLine_iff, and_assoc]
  constructor
  · rintro ⟨h1, h2, h3⟩
    exact ⟨h1, h2, fun q hq hc => h3 q hq ⟨hc.1.symm, hc.2.symm⟩⟩
  · rintro ⟨h1, h2, h3⟩
    exact ⟨h1, h2, fun q hq hc => h3 q hq ⟨hc.1.symm, hc.2.symm⟩⟩

theorem legacyRules_sublist (all new : List LRule) : (legacyRules all new).Sublist all :=
  (List.filter_sublist).trans List.filter_sublist

theorem missingRules_eq (legacy new : List LRule) (s : Option Str) :
    missingRules legacy new s = (ofService s legacy).filter fun r =>
      !((ofService s new).map fun q => q.rule.print).contains r.rule.print := by
  unfold missingRules
  dsimp only
  split_ifs with h
  · rw [Bool.or_eq_true] at h
    symm
    rw [List.filter_eq_nil_iff]
    intro r hr
    rcases h with h | h
    · rw [beq_iff_eq] at h
      rw [← h]
      simp only [Bool.not_eq_true', Bool.not_eq_false, List.contains_iff_mem]
      exact List.mem_map.2 ⟨r, hr, rfl⟩
    · rw [List.isEmpty_iff] at h
      rw [h] at hr; cases hr
  · rfl

theorem print_deny {a : Action} : a.print = c!"deny" ↔ ∃ n, a = .deny n := by
  cases a with
  | deny n => simp [Action.print]
  | allow => simp [Action.print]
  | ask => simp [Action.print]

theorem isCatchAll_iff {r : LRule} : isCatchAll r = true ↔ CatchAll r := by
  unfold isCatchAll CatchAll
  rw [Bool.and_eq_true, Bool.and_eq_true, Bool.and_eq_true, beq_iff_eq, beq_iff_eq, beq_iff_eq, print_deny]
  simp only [and_assoc]
  have : (r.rule.argument.getD []).isEmpty = true ↔ r.rule.argument = none ∨ r.rule.argument = some [] := by
    cases r.rule.argument with
    | none => simp
    | some a => simp
  rw [this]

theorem strGet_mem {l : List (Str × Str)} {k v : Str} (h : strGet l k = some v) : (k, v) ∈ l := by
  induction l with
  | nil => cases h
  | cons e es ih =>
    obtain ⟨a, b⟩ := e
    rw [strGet] at h
    split_ifs at h with h1
    · cases h; simp [h1]
    · exact List.mem_cons_of_mem _ (ih h)

theorem serviceToFile_for : ∀ e ∈ serviceToFile, FileFor (some e.1) e.2 := by
  unfold FileFor; decide

theorem convDest_file (r : LRule) : FileFor r.rule.service (convDest r) := by
  unfold convDest
  split_ifs
  · cases hs : r.rule.service with
    | none => exact .inl rfl
    | some s =>
      dsimp only
      cases hg : strGet serviceToFile s with
      | none => exact .inl rfl
      | some f =>
        have hm := strGet_mem hg
        exact serviceToFile_for _ hm
  · exact .inl rfl

theorem convDest_input {r : LRule} (h : convDest r = c!"50-config-input") :
    r.rule.service = some c!"qubes.InputKeyboard" ∨ r.rule.service = some c!"qubes.InputMouse" ∨
      r.rule.service = some c!"qubes.InputTablet" := by
  have := convDest_file r
  rw [h] at this
  unfold FileFor at this
  simpa using this

/-! ### Input rules -/

theorem splitLoop_sublist : ∀ (rules : List LRule) (cs : List (Option Str × Str)), (splitLoop cs rules).Sublist rules := by
  intro rules
  induction rules with
  | nil => intro cs; exact List.Sublist.slnil
  | cons r rs ih =>
    intro cs
    rw [splitLoop]
    split_ifs
    · exact (ih _).cons_cons r
    · exact (ih _).cons r

/-- Every rule whose combination is asked for is kept, or one with the same service and source before it. -/
theorem splitLoop_mem : ∀ (rules : List LRule) (cs : List (Option Str × Str)) (r : LRule), r ∈ rules →
    (r.rule.service, r.rule.source.str) ∈ cs →
    ∃ q ∈ splitLoop cs rules, q.rule.service = r.rule.service ∧ q.rule.source.str = r.rule.source.str := by
  intro rules
  induction rules with
  | nil => intro cs r hr; cases hr
  | cons x xs ih =>
    intro cs r hr hc
    rw [splitLoop]
    by_cases hx : cs.contains (x.rule.service, x.rule.source.str) = true
    · rw [if_pos hx]
      by_cases he : (x.rule.service, x.rule.source.str) = (r.rule.service, r.rule.source.str)
      · obtain ⟨h1, h2⟩ := Prod.mk.inj he
        exact ⟨x, by simp, h1, h2⟩
      · rcases List.mem_cons.1 hr with rfl | hr
        · exact absurd rfl he
        · have hf : (r.rule.service, r.rule.source.str) ∈ cs.filter fun c => c != (x.rule.service, x.rule.source.str) :=
            List.mem_filter.2 ⟨hc, by simpa using Ne.symm he⟩
          obtain ⟨q, hq, h⟩ := ih _ r hr hf
          exact ⟨q, List.mem_cons_of_mem _ hq, h⟩
    · rw [if_neg hx]
      rcases List.mem_cons.1 hr with rfl | hr
      · exact absurd (by simpa using hc) hx
      · exact ih cs r hr hc

/-! ### Where a rule goes -/

theorem mem_converted {legacy new : List LRule} {services : List (Option Str)}
    (hs : ServicesOf legacy services) {r : LRule} :
    r ∈ services.flatMap (convertedRules legacy new) ↔ r ∈ convertedRules legacy new r.rule.service := by
  rw [List.mem_flatMap]
  have key : ∀ s, r ∈ convertedRules legacy new s → r.rule.service = s ∧ r ∈ legacy := by
    intro s h
    have h1 := (List.takeWhile_sublist _).subset h
    rw [missingRules_eq] at h1
    have h2 := (List.mem_filter.1 h1).1
    unfold ofService at h2
    rw [List.mem_filter] at h2
    exact ⟨by simpa using h2.2, h2.1⟩
  constructor
  · rintro ⟨s, _, h⟩
    rw [(key s h).1]; exact h
  · intro h
    exact ⟨r.rule.service, (hs.2 _).2 ⟨r, (key _ h).2, rfl⟩, h⟩

theorem takeWhile_or {α : Type} (p : α → Bool) {l : List α} {x : α} (h : x ∈ l) :
    x ∈ l.takeWhile p ∨ ∃ q pre post, l = pre ++ q :: post ∧ p q = false ∧ x ∈ q :: post := by
  induction l with
  | nil => cases h
  | cons y ys ih =>
    by_cases hy : p y = true
    · rw [List.takeWhile_cons_of_pos hy]
      rcases List.mem_cons.1 h with rfl | h
      · exact .inl (by simp)
      · rcases ih h with h | ⟨q, pre, post, h1, h2, h3⟩
        · exact .inl (List.mem_cons_of_mem _ h)
        · exact .inr ⟨q, y :: pre, post, by rw [h1]; rfl, h2, h3⟩
    · exact .inr ⟨y, [], ys, rfl, by simpa using hy, h⟩

theorem sublist_split {α : Type} {l l' : List α} (h : l.Sublist l') : ∀ {q : α} {pre post : List α} {x : α}, l = pre ++ q :: post →
    x ∈ q :: post → ∃ pre' post', l' = pre' ++ q :: post' ∧ x ∈ q :: post' := by
  induction h with
  | slnil => intro q pre post x h; simp at h
  | cons a _ ih =>
    intro q pre post x h hx
    obtain ⟨pre', post', h1, h2⟩ := ih h hx
    exact ⟨a :: pre', post', by rw [h1]; rfl, h2⟩
  | @cons_cons l1 l2 a hsub ih =>
    intro q pre post x h hx
    cases pre with
    | nil =>
      rw [List.nil_append, List.cons.injEq] at h
      obtain ⟨rfl, rfl⟩ := h
      refine ⟨[], l2, rfl, ?_⟩
      rcases List.mem_cons.1 hx with rfl | hx
      · simp
      · exact List.mem_cons_of_mem _ (hsub.subset hx)
    | cons b pre =>
      rw [List.cons_append, List.cons.injEq] at h
      obtain ⟨pre', post', h1, h2⟩ := ih h.2 hx
      exact ⟨a :: pre', post', by rw [h1]; rfl, h2⟩

/-- **C88, every rule.** A rule that stands only in the old files is written to the file for its service or to 30-user; or
the new policy has a rule of the service with the same text; or it is, or stands behind, a denial of every call of the
service; or it is about an input device, and a rule for the same service and source is written. -/
theorem C88_every_rule (all new : List LRule) (services : List (Option Str))
    (hs : ServicesOf (legacyRules all new) services) (r : LRule) (hr : OnlyLegacy all new r) :
    (∃ f, FileFor r.rule.service f ∧ r ∈ rulesToSave services (legacyRules all new) new f) ∨
    (∃ q ∈ new, q.rule.service = r.rule.service ∧ q.rule.print = r.rule.print) ∨
    (∃ q pre post, all = pre ++ q :: post ∧ r ∈ q :: post ∧ OnlyLegacy all new q ∧ q.rule.service = r.rule.service ∧
      CatchAll q) ∨
    (∃ q ∈ rulesToSave services (legacyRules all new) new c!"50-config-input", q.rule.service = r.rule.service ∧
      q.rule.source.str = r.rule.source.str) := by
  have hm : r ∈ ofService r.rule.service (legacyRules all new) := by
    unfold ofService
    rw [List.mem_filter]
    exact ⟨mem_legacyRules.2 hr, by simp⟩
  by_cases hp : ((ofService r.rule.service new).map fun q => q.rule.print).contains r.rule.print = true
  · right; left
    rw [List.contains_iff_mem, List.mem_map] at hp
    obtain ⟨q, hq, hqp⟩ := hp
    unfold ofService at hq
    rw [List.mem_filter] at hq
    exact ⟨q, hq.1, by simpa using hq.2, hqp⟩
  · have hmiss : r ∈ missingRules (legacyRules all new) new r.rule.service := by
      rw [missingRules_eq, List.mem_filter]
      exact ⟨hm, by simpa using hp⟩
    rcases takeWhile_or (fun r => !isCatchAll r) hmiss with h | ⟨q, pre, post, h1, h2, h3⟩
    · have hc : r ∈ services.flatMap (convertedRules (legacyRules all new) new) := (mem_converted hs).2 h
      have hd : r ∈ (services.flatMap (convertedRules (legacyRules all new) new)).filter
          fun x => convDest x == convDest r := List.mem_filter.2 ⟨hc, by simp⟩
      by_cases hi : convDest r = c!"50-config-input"
      · right; right; right
        rw [hi] at hd
        unfold rulesToSave
        dsimp only
        rw [if_pos (by rfl)]
        refine splitLoop_mem _ _ r hd ?_
        unfold inputCombinations
        rw [List.mem_flatMap]
        rcases convDest_input hi with h | h | h
        · exact ⟨c!"qubes.InputKeyboard", by simp, List.mem_map.2 ⟨r, hd, by rw [h]⟩⟩
        · exact ⟨c!"qubes.InputMouse", by simp, List.mem_map.2 ⟨r, hd, by rw [h]⟩⟩
        · exact ⟨c!"qubes.InputTablet", by simp, List.mem_map.2 ⟨r, hd, by rw [h]⟩⟩
      · left
        refine ⟨convDest r, convDest_file r, ?_⟩
        unfold rulesToSave
        dsimp only
        rw [if_neg (by simpa using hi)]
        exact hd
    · right; right; left
      have hqm : q ∈ missingRules (legacyRules all new) new r.rule.service := by rw [h1]; simp
      have hsub : (missingRules (legacyRules all new) new r.rule.service).Sublist all := by
        rw [missingRules_eq]
        exact List.filter_sublist.trans (List.filter_sublist.trans (legacyRules_sublist all new))
      obtain ⟨pre', post', g1, g2⟩ := sublist_split hsub h1 h3
      have hql : q ∈ ofService r.rule.service (legacyRules all new) := by
        rw [missingRules_eq] at hqm
        exact (List.mem_filter.1 hqm).1
      unfold ofService at hql
      rw [List.mem_filter] at hql
      exact ⟨q, pre', post', g1, g2, mem_legacyRules.1 hql.1, by simpa using hql.2, isCatchAll_iff.1 (by simpa using h2)⟩

theorem rulesToSave_sub {legacy new : List LRule} {services : List (Option Str)} {f : Str} :
    (rulesToSave services legacy new f).Sublist
      ((services.flatMap (convertedRules legacy new)).filter fun r => convDest r == f) := by
  unfold rulesToSave
  dsimp only
  split_ifs
  · exact splitLoop_sublist _ _
  · exact List.Sublist.refl _

/-- **C88, only those.** A rule that is written stood only in the old files, the new policy has no rule of the service with
the same text, and it goes to 30-user or to the file for its service. -/
theorem C88_only_legacy (all new : List LRule) (services : List (Option Str)) (f : Str)
    (hs : ServicesOf (legacyRules all new) services) (r : LRule)
    (h : r ∈ rulesToSave services (legacyRules all new) new f) :
    OnlyLegacy all new r ∧ FileFor r.rule.service f ∧ ¬ CatchAll r ∧
      ∀ q ∈ new, ¬ (q.rule.service = r.rule.service ∧ q.rule.print = r.rule.print) := by
  have h1 := List.mem_filter.1 (rulesToSave_sub.subset h)
  have h2 := (mem_converted hs).1 h1.1
  have h3 := (List.takeWhile_sublist _).subset h2
  have h5 := List.mem_takeWhile_imp h2
  rw [missingRules_eq, List.mem_filter] at h3
  obtain ⟨h3, h4⟩ := h3
  unfold ofService at h3
  rw [List.mem_filter] at h3
  refine ⟨mem_legacyRules.1 h3.1, ?_, ?_, ?_⟩
  · have := convDest_file r
    rw [beq_iff_eq] at h1
    rw [h1.2] at this
    exact this
  · rw [← isCatchAll_iff]; simpa using h5
  · rintro q hq ⟨h6, h7⟩
    rw [Bool.not_eq_true', List.contains_eq_mem, decide_eq_false_iff_not] at h4
    refine h4 (List.mem_map.2 ⟨q, ?_, h7⟩)
    unfold ofService
    exact List.mem_filter.2 ⟨hq, by simpa using h6⟩

/-- **C88, order.** The rules of one service are written to a file in the order they had. -/
theorem C88_order (all new : List LRule) (services : List (Option Str)) (f : Str)
    (hs : ServicesOf (legacyRules all new) services) (s : Option Str) :
    ((rulesToSave services (legacyRules all new) new f).filter fun r => r.rule.service = s).Sublist all := by
  refine ((rulesToSave_sub.trans List.filter_sublist).filter _).trans ?_
  rw [List.filter_flatMap]
  have hpure : ∀ s', ∀ r ∈ convertedRules (legacyRules all new) new s', r.rule.service = s' := by
    intro s' r h
    have h1 := (List.takeWhile_sublist _).subset h
    rw [missingRules_eq] at h1
    have h2 := (List.mem_filter.1 h1).1
    unfold ofService at h2
    rw [List.mem_filter] at h2
    simpa using h2.2
  have hsub : ∀ s', (convertedRules (legacyRules all new) new s').Sublist all := by
    intro s'
    unfold convertedRules
    refine (List.takeWhile_sublist _).trans ?_
    rw [missingRules_eq]
    exact List.filter_sublist.trans (List.filter_sublist.trans (legacyRules_sublist all new))
  have hn := hs.1
  clear hs
  induction services with
  | nil => simp
  | cons a as ih =>
    obtain ⟨ha, hn⟩ := List.nodup_cons.1 hn
    rw [List.flatMap_cons]
    by_cases e : a = s
    · have : as.flatMap (fun a => List.filter (fun r => decide (r.rule.service = s))
          (convertedRules (legacyRules all new) new a)) = [] := by
        rw [List.flatMap_eq_nil_iff]
        intro x hx
        rw [List.filter_eq_nil_iff]
        intro r hr
        rw [hpure x r hr]
        simp only [decide_eq_true_eq]
        rintro rfl
        exact ha (by rw [e]; exact hx)
      rw [this, List.append_nil]
      exact List.filter_sublist.trans (hsub a)
    · have : List.filter (fun r => decide (r.rule.service = s)) (convertedRules (legacyRules all new) new a) = [] := by
        rw [List.filter_eq_nil_iff]
        intro r hr
        rw [hpure a r hr]
        simpa using e
      rw [this, List.nil_append]
      exact ih hn

/-! ## Which file -/

theorem isKeyword_iff {t : Token} : isKeyword t = true ↔ Keyword t := by
  unfold isKeyword Keyword
  rw [Bool.or_eq_true, beq_iff_eq]
  refine or_congr_left ?_
  rw [startsWith_iff]
  rfl

theorem isInfix_iff (sub : Str) : ∀ s : Str, isInfix sub s = true ↔ ∃ a b, s = a ++ sub ++ b := by
  intro s
  induction s with
  | nil =>
    rw [isInfix, Bool.or_eq_true, startsWith_iff]
    constructor
    · rintro (⟨r, h⟩ | h)
      · exact ⟨[], r, by simpa using h⟩
      · cases h
    · rintro ⟨a, b, h⟩
      have h := h.symm
      simp only [List.append_eq_nil_iff] at h
      exact .inl ⟨[], by rw [h.1.2]; rfl⟩
  | cons c cs ih =>
    rw [isInfix, Bool.or_eq_true, startsWith_iff, ih]
    constructor
    · rintro (⟨r, h⟩ | ⟨a, b, h⟩)
      · exact ⟨[], r, by simpa using h⟩
      · exact ⟨c :: a, b, by rw [h]; rfl⟩
    · rintro ⟨a, b, h⟩
      cases a with
      | nil => exact .inl ⟨b, by simpa using h⟩
      | cons d a =>
        rw [List.cons_append, List.cons_append, List.cons.injEq] at h
        exact .inr ⟨a, b, h.2⟩

theorem openTarget_iff (a : Action) :
    isInfix c!"@dispvm" (openTarget a) = true ↔ a.print ≠ c!"ask" ∧ a.print ≠ c!"allow" := by
  have hnil : ∀ (key : Str) (t : Option Token), printParam key (t.map Token.str) = [] →
      isInfix c!"@dispvm" (tokenOrNone t) = false := by
    intro key t h
    cases t with
    | none => rfl
    | some t =>
      unfold printParam at h
      simp only [Option.map_some] at h
      cases hs : t.str with
      | nil => simp [tokenOrNone, hs, isInfix, startsWith]
      | cons c cs => rw [hs] at h; simp at h
  unfold openTarget
  by_cases h1 : a.print = c!"ask"
  · rw [if_pos (by rw [h1]; rfl)]
    cases a with
    | deny n => exact absurd h1 (show ¬ (c!"deny" : Str) = c!"ask" by decide)
    | allow t u x y => exact absurd h1 (by simp [Action.print])
    | ask t d u x y =>
      have h2 := h1
      unfold Action.print at h2
      have h3 : printParam c!"default_target" (d.map Token.str) = [] := by
        have : (c!"ask" : Str) ++ (printParam c!"target" (t.map Token.str) ++ (printParam c!"default_target" (d.map Token.str) ++
          printParam c!"user" u)) = c!"ask" ++ [] := by simpa [List.append_assoc] using h2
        have := List.append_cancel_left this
        simp only [List.append_eq_nil_iff] at this
        exact this.2.1
      dsimp only
      rw [hnil _ _ h3, h1]
      simp
  · rw [if_neg (by simpa using h1)]
    by_cases h2 : a.print = c!"allow"
    · rw [if_pos (by rw [h2]; rfl)]
      cases a with
      | deny n => exact absurd h2 (show ¬ (c!"deny" : Str) = c!"allow" by decide)
      | ask t d u x y => exact absurd h2 (by simp [Action.print])
      | allow t u x y =>
        have h3 : printParam c!"target" (t.map Token.str) = [] := by
          have h4 := h2
          unfold Action.print at h4
          have : (c!"allow" : Str) ++ (printParam c!"target" (t.map Token.str) ++ printParam c!"user" u) = c!"allow" ++ [] := by
            simpa [List.append_assoc] using h4
          have := List.append_cancel_left this
          simp only [List.append_eq_nil_iff] at this
          exact this.1
        dsimp only
        rw [hnil _ _ h3, h2]
        simp
    · rw [if_neg (by simpa using h2)]
      exact ⟨fun _ => ⟨h1, h2⟩, fun _ => by decide⟩

theorem inputAction_iff (a : Action) : inputAction a = true ↔ ToDom0 a := by
  unfold ToDom0 NamesDom0
  cases a with
  | deny n => simp [inputAction]
  | allow t u x y => cases t <;> simp [inputAction]
  | ask t d u x y => cases t <;> cases d <;> simp [inputAction]

theorem compatible_iff (r : Rule) : isRuleCompatible r = true ↔ ToolRule r := by
  have arg : (r.argument.getD []).isEmpty = true ↔ r.argument = none ∨ r.argument = some [] := by
    cases r.argument with
    | none => simp
    | some a => simp
  unfold isRuleCompatible ToolRule NamesDom0
  rw [← isInfix_iff, ← isKeyword_iff, ← isKeyword_iff, ← arg, ← inputAction_iff]
  have ho := openTarget_iff r.action
  rw [← ho]
  clear ho arg
  unfold isRuleSimple
  generalize isInfix c!"@dispvm" (openTarget r.action) = x1
  generalize isInfix c!"allow" r.action.print = x2
  generalize isKeyword r.source = ks
  generalize isKeyword r.target = kt
  generalize r.source.str = ss
  generalize r.target.str = tt
  generalize r.action.print = pp
  generalize inputAction r.action = ia
  generalize (r.argument.getD []).isEmpty = ea
  generalize r.argument = arg
  generalize r.service = sv
  by_cases e1 : sv = some c!"qubes.ClipboardPaste"
  · subst e1; simp
  by_cases e2 : sv = some c!"qubes.Filecopy"
  · subst e2; simp
  by_cases e3 : sv = some c!"qubes.UpdatesProxy"
  · subst e3
    clear e1 e2
    cases ks <;> cases kt <;> cases x2 <;> simp
  by_cases e4 : sv = some c!"qubes.OpenInVM" ∨ sv = some c!"qubes.OpenURL"
  · rcases e4 with e4 | e4 <;> subst e4 <;> cases x1 <;> simp
  by_cases e5 : sv = some c!"policy.RegisterArgument"
  · subst e5; simp
  by_cases e6 : sv = some c!"u2f.Authenticate" ∨ sv = some c!"u2f.Register"
  · rcases e6 with e6 | e6 <;> subst e6 <;> cases kt <;> cases ea <;> simp
  by_cases e7 : sv = some c!"qubes.InputKeyboard" ∨ sv = some c!"qubes.InputMouse" ∨ sv = some c!"qubes.InputTablet"
  · rcases e7 with e7 | e7 | e7 <;> subst e7 <;> cases ks <;> cases ia <;> simp
  · rw [not_or] at e4 e6
    rw [not_or, not_or] at e7
    simp [e1, e2, e3, e4.1, e4.2, e5, e6.1, e6.2, e7.1, e7.2.1, e7.2.2]

/-- **C88, where.** A rule is written to the file of the configuration tool for its service if the tool can show it, and to
30-user if not. -/
theorem C88_where (all new : List LRule) (services : List (Option Str)) (f : Str) (r : LRule)
    (h : r ∈ rulesToSave services (legacyRules all new) new f) : ToolRule r.rule ↔ f ≠ c!"30-user" := by
  have h1 := (List.mem_filter.1 (rulesToSave_sub.subset h)).2
  rw [beq_iff_eq] at h1
  rw [← compatible_iff, ← h1]
  unfold convDest
  constructor
  · intro hc
    rw [if_pos hc]
    have ht := (compatible_iff r.rule).1 hc
    unfold ToolRule at ht
    rcases ht with ⟨e, _⟩ | ⟨e, _⟩ | ⟨e, _⟩ | ⟨e | e, _⟩ | ⟨e, _⟩ | ⟨e | e, _⟩ | ⟨e | e | e, _⟩ <;> rw [e] <;> decide
  · intro hne
    by_contra hc
    rw [if_neg hc] at hne
    exact hne rfl

end Qrexec
