import Verif.Props.LegacyRules
import Verif.Lemmas.Lint
import Verif.Model.Policy
import Mathlib.Data.List.Dedup

/-! # C88: what the written files say -/
namespace Qrexec
open Spec

/-- Characters of a printed rule. -/
def PrintChar (c : Char) : Prop := c = '\t' ∨ c = ' ' ∨ isSpace c = false

theorem printParam_chars {key : Str} {o : Option Str} (hk : ∀ c ∈ key, isSpace c = false)
    (ho : ∀ v, o = some v → ∀ c ∈ v, isSpace c = false) : ∀ c ∈ printParam key o, PrintChar c := by
  intro c hc
  cases o with
  | none => cases hc
  | some v =>
    unfold printParam at hc
    dsimp only at hc
    split_ifs at hc
    · cases hc
    · rw [List.mem_append, List.mem_append, List.mem_append] at hc
      rcases hc with ((hc | hc) | hc) | hc
      · rw [List.mem_singleton.1 hc]; exact .inr (.inl rfl)
      · exact .inr (.inr (hk c hc))
      · rw [List.mem_singleton.1 hc]; exact .inr (.inr (by decide))
      · exact .inr (.inr (ho v rfl c hc))

theorem solid_chars {l : Str} (h : ∀ c ∈ l, isSpace c = false) : ∀ c ∈ l, PrintChar c :=
  fun c hc => .inr (.inr (h c hc))

theorem action_chars {act : Action} (h : SolidParams act) : ∀ c ∈ act.print, PrintChar c := by
  intro c hc
  cases act with
  | deny n => exact solid_chars (l := c!"deny") (by decide) c hc
  | allow t u n a =>
    obtain ⟨h1, h2⟩ := h
    unfold Action.print at hc
    rw [List.mem_append, List.mem_append] at hc
    rcases hc with (hc | hc) | hc
    · exact solid_chars (l := c!"allow") (by decide) c hc
    · exact printParam_chars (by decide) (solid_map h1) c hc
    · exact printParam_chars (by decide) h2 c hc
  | ask t d u n a =>
    obtain ⟨h1, h2, h3⟩ := h
    unfold Action.print at hc
    rw [List.mem_append, List.mem_append, List.mem_append] at hc
    rcases hc with ((hc | hc) | hc) | hc
    · exact solid_chars (l := c!"ask") (by decide) c hc
    · exact printParam_chars (by decide) (solid_map h1) c hc
    · exact printParam_chars (by decide) (solid_map h2) c hc
    · exact printParam_chars (by decide) h3 c hc

theorem print_chars {path : List Str} {ws : List Str} {r : Rule} (h : RuleWords path ws r)
    (hs : ∀ w ∈ ws, ∀ c ∈ w, isSpace c = false) : ∀ c ∈ r.print, PrintChar c := by
  cases h with
  | @mk service argument source target action params kvs s a src tgt act h1 h2 h3 h4 h5 h6 h7 h8 h9 h10 =>
    have c1 : ∀ c ∈ s.getD c!"None", PrintChar c := by
      cases h1 with
      | any => exact solid_chars (l := c!"None") (by decide)
      | name _ _ => exact solid_chars (hs _ (by simp))
    have c2 : ∀ c ∈ printArgument a, PrintChar c := by
      cases h2 with
      | any => exact solid_chars (l := c!"*") (by decide)
      | @arg a h => exact solid_chars (hs ('+' :: a) (by simp))
    have c3 : ∀ c ∈ src.str, PrintChar c := by
      rw [tokenText_str h4]; exact solid_chars (hs _ (by simp))
    have c4 : ∀ c ∈ tgt.str, PrintChar c := by
      rw [tokenText_str h5]; exact solid_chars (hs _ (by simp))
    have c5 := action_chars (solid_params h6 (fun w hw => hs w (by simp [hw])) h9)
    have ct : ∀ c ∈ c!"\t", PrintChar c := by
      intro c hc; rw [List.mem_singleton.1 hc]; exact .inl rfl
    intro c hc
    unfold Rule.print at hc
    dsimp only at hc
    simp only [List.mem_append] at hc
    rcases hc with (((((((hc | hc) | hc) | hc) | hc) | hc) | hc) | hc) | hc
    · exact c1 c hc
    · exact ct c hc
    · exact c2 c hc
    · exact ct c hc
    · exact c3 c hc
    · exact ct c hc
    · exact c4 c hc
    · exact ct c hc
    · exact c5 c hc

theorem printedAction_eq (a : Action) : printedAction a = plainAction a := by
  have : ∀ u : Option Str, (if u = some [] then none else u) = plainUser u := by
    intro u
    match u with
    | none => rfl
    | some [] => rfl
    | some (_ :: _) => rfl
  cases a <;> simp [printedAction, plainAction, this]

/-- What is needed of a printed rule. -/
theorem fromLegacy_line {r : Rule} (h : FromLegacy r) (env : LoadEnv) (n : Nat) (load : Opened → Except Err (List Rule))
    (path : Path) : fileLine env n load path r.print = .ok [convertedRule path r] ∧ '\n' ∉ r.print ∧ '\r' ∉ r.print := by
  obtain ⟨⟨s, hs, hrs⟩, service, argument, line, p, hl⟩ := h
  obtain ⟨ws, hr, hw⟩ := legacy_ruleWords hl
  have hch := print_chars hr hw
  obtain ⟨vs, h1, h2⟩ := print_words hr hw (by rw [hrs]; simpa using hs)
  refine ⟨fileLine_rule_eq h1 ?_, ?_, ?_⟩
  · unfold convertedRule
    rw [printedAction_eq]
    rw [show (some (r.service.getD c!"None") : Option Str) = r.service by rw [hrs]; rfl] at h2
    generalize hz : (Rule.mk r.service r.argument r.source r.target (plainAction r.action) p) = z at h2
    cases h2 with
    | mk a b c d e f g h i j =>
      cases hz
      exact .mk a b c d e f g h i j
  · intro hc
    rcases hch _ hc with h | h | h
    · cases h
    · cases h
    · exact absurd h (by decide)
  · intro hc
    rcases hch _ hc with h | h | h
    · cases h
    · cases h
    · exact absurd h (by decide)

/-! ### Texts -/

theorem rstripNewline_nl (s : Str) : rstripNewline (s ++ c!"\n") = rstripNewline s := by
  unfold rstripNewline lstripNl
  rw [List.reverse_append]
  rfl

theorem rstripNewline_id {s : Str} (h : s.getLast? ≠ some '\n') : rstripNewline s = s := by
  unfold rstripNewline lstripNl
  have : s.reverse.dropWhile (· == '\n') = s.reverse := by
    rw [← List.head?_reverse] at h
    cases hs : s.reverse with
    | nil => rfl
    | cons c cs =>
      rw [hs] at h
      rw [List.dropWhile_cons_of_neg]
      simpa using h
  rw [this, List.reverse_reverse]

theorem lstripNl_mem {s : Str} {c : Char} (h : c ∈ lstripNl s) : c ∈ s := (List.dropWhile_suffix _).subset h

theorem universalNewlines_noCR (s : Str) : '\r' ∉ universalNewlines s := by
  induction s using universalNewlines.induct with
  | case1 => simp [universalNewlines]
  | case2 cs ih => rw [universalNewlines]; simpa using ih
  | case3 cs hne ih =>
    rw [universalNewlines.eq_3]
    · simpa using ih
    · exact hne
  | case4 c cs h1 h2 ih =>
    rw [universalNewlines.eq_4]
    · intro hc
      rcases List.mem_cons.1 hc with hc | hc
      · exact h2 hc.symm
      · exact ih hc
    · intro x hx; exact h1 x hx
    · exact h2

section
variable (f : Str → Except Err (List Rule)) (h0 : f [] = .ok [])
include h0

theorem collect_lstrip (s : Str) : collectRules f (splitOn '\n' (lstripNl s)) = collectRules f (splitOn '\n' s) := by
  unfold lstripNl
  induction s with
  | nil => rfl
  | cons c cs ih =>
    by_cases hc : c = '\n'
    · subst hc
      rw [List.dropWhile_cons_of_pos (by rfl), ih]
      rw [splitOn_cons_eq, collectRules, h0]
      cases collectRules f (splitOn '\n' cs) <;> rfl
    · rw [List.dropWhile_cons_of_neg (by simpa using hc)]

end

theorem collect_silent {f : Str → Except Err (List Rule)} {a : Str} (b : Str)
    (h : ∀ l ∈ splitOn '\n' a, f l = .ok []) :
    collectRules f (splitOn '\n' (a ++ '\n' :: b)) = collectRules f (splitOn '\n' b) := by
  rw [splitOn_append_nl, collectRules_append]
  have : ∀ ls : List Str, (∀ l ∈ ls, f l = .ok []) → collectRules f ls = .ok [] := by
    intro ls
    induction ls with
    | nil => intro _; rfl
    | cons l ls ih =>
      intro h
      rw [collectRules, h l (by simp), ih (fun x hx => h x (List.mem_cons_of_mem _ hx))]
      rfl
  rw [this _ h]
  cases collectRules f (splitOn '\n' b) <;> rfl

theorem collect_each {f : Str → Except Err (List Rule)} {g : Rule → Rule} (rules : List Rule) (rest : List Str)
    (h : ∀ r ∈ rules, f r.print = .ok [g r]) :
    collectRules f (rules.map Rule.print ++ rest) = (collectRules f rest).map (rules.map g ++ ·) := by
  induction rules with
  | nil =>
    rw [List.map_nil, List.nil_append]
    cases collectRules f rest <;> rfl
  | cons r rs ih =>
    rw [List.map_cons, List.cons_append, collectRules, h r (by simp), ih (fun x hx => h x (List.mem_cons_of_mem _ hx))]
    cases collectRules f rest <;> rfl

/-- A disclaimer without its last newline. -/
def discBody (file : Str) : Str := (if file == convUserFile then convDisclaimer else toolDisclaimer).dropLast

set_option maxRecDepth 100000 in
theorem disc_eq (file : Str) : (if file == convUserFile then convDisclaimer else toolDisclaimer) = discBody file ++ ['\n'] := by
  unfold discBody
  split_ifs
  · decide
  · decide

set_option maxRecDepth 100000 in
theorem disc_lines : (∀ l ∈ splitOn '\n' convDisclaimer.dropLast, isCommentLine (strip l) = true) ∧
    ∀ l ∈ splitOn '\n' toolDisclaimer.dropLast, isCommentLine (strip l) = true := by decide

set_option maxRecDepth 100000 in
theorem disc_noCR : '\r' ∉ convDisclaimer ∧ '\r' ∉ toolDisclaimer := by decide

set_option maxRecDepth 100000 in
theorem tool_eq : toolDisclaimer = toolDisclaimer.dropLast ++ ['\n'] := by decide

theorem joinWith_chars {sep c : Char} : ∀ {ws : List Str}, c ∈ joinWith sep ws → c = sep ∨ ∃ w ∈ ws, c ∈ w
  | [], h => by cases h
  | [w], h => .inr ⟨w, by simp, h⟩
  | w :: v :: ws, h => by
    rw [joinWith] at h
    · rcases List.mem_append.1 h with h | h
      · exact .inr ⟨w, by simp, h⟩
      · rcases List.mem_cons.1 h with h | h
        · exact .inl h
        · rcases joinWith_chars h with h | ⟨x, hx, h⟩
          · exact .inl h
          · exact .inr ⟨x, List.mem_cons_of_mem _ hx, h⟩
    · simp

theorem joinWith_lastChar {sep : Char} : ∀ {ws : List Str}, (∀ w ∈ ws, w ≠ [] ∧ sep ∉ w) → ws ≠ [] →
    ∃ c, (joinWith sep ws).getLast? = some c ∧ c ≠ sep
  | [], _, h => absurd rfl h
  | [w], h, _ => by
    obtain ⟨h1, h2⟩ := h w (by simp)
    refine ⟨w.getLast h1, List.getLast?_eq_some_getLast h1, ?_⟩
    rintro he
    exact h2 (he ▸ List.getLast_mem h1)
  | w :: v :: ws, h, _ => by
    obtain ⟨c, h1, h2⟩ := joinWith_lastChar (ws := v :: ws) (fun x hx => h x (List.mem_cons_of_mem _ hx)) (by simp)
    refine ⟨c, ?_, h2⟩
    rw [joinWith]
    · rw [List.getLast?_append, List.getLast?_cons, h1]; rfl
    · simp

/-- The lines of a text that starts with a disclaimer and printed rules. -/
theorem collect_text {env : LoadEnv} {n : Nat} {load : Opened → Except Err (List Rule)} {path : Path} (file : Str)
    (rules : List LRule) (hne : rules ≠ []) (hr : ∀ r ∈ rules, FromLegacy r.rule) (rest : Str) (hcr : '\r' ∉ rest) :
    collectRules (fileLine env n load path)
      (fileLines ((if file == convUserFile then convDisclaimer else toolDisclaimer) ++
        joinWith '\n' (rules.map fun r => r.rule.print) ++ '\n' :: rest)) =
      (collectRules (fileLine env n load path) (splitOn '\n' rest)).map
        (rules.map (fun r => convertedRule path r.rule) ++ ·) := by
  have hp : ∀ w ∈ rules.map (fun r => r.rule.print), '\n' ∉ w ∧ '\r' ∉ w := by
    intro w hw
    obtain ⟨r, hr1, rfl⟩ := List.mem_map.1 hw
    exact (fromLegacy_line (hr r hr1) env n load path).2
  have hd : '\r' ∉ (if file == convUserFile then convDisclaimer else toolDisclaimer) := by
    split_ifs
    · exact disc_noCR.1
    · exact disc_noCR.2
  have hsil : ∀ l ∈ splitOn '\n' (discBody file), fileLine env n load path l = .ok [] := by
    intro l hl
    apply fileLine_comment
    unfold discBody at hl
    split_ifs at hl
    · exact disc_lines.1 l hl
    · exact disc_lines.2 l hl
  unfold fileLines
  rw [universalNewlines_plain]
  · rw [disc_eq, List.append_assoc, List.append_assoc, List.singleton_append, collect_silent _ hsil]
    rw [splitOn_append_nl, splitOn_joinWith (by simpa using hne) (fun w hw => (hp w hw).1)]
    have := collect_each (f := fileLine env n load path) (g := convertedRule path) (rules.map LRule.rule)
      (splitOn '\n' rest) (by
        intro r hr'
        obtain ⟨x, hx, rfl⟩ := List.mem_map.1 hr'
        exact (fromLegacy_line (hr x hx) env n load path).1)
    rw [List.map_map, List.map_map] at this
    exact this
  · rw [List.mem_append, List.mem_append]
    rintro ((h | h) | h)
    · exact hd h
    · rcases joinWith_chars h with h | ⟨w, hw, h⟩
      · cases h
      · exact (hp w hw).2 h
    · rcases List.mem_cons.1 h with h | h
      · cases h
      · exact hcr h

theorem fileLine_nil (env : LoadEnv) (n : Nat) (load : Opened → Except Err (List Rule)) (path : Path) :
    fileLine env n load path [] = .ok [] := fileLine_comment (by decide)

/-- **C88, a new file.** The text written to a file that did not exist (or to 50-config-input) loads as the converted
rules. -/
theorem C88_new_file (env : LoadEnv) (n : Nat) (path : Path) (file : Str) (rules : List LRule) (hne : rules ≠ [])
    (hr : ∀ r ∈ rules, FromLegacy r.rule) :
    loadFile env (n + 1) (fileLines (rulesText file rules), path) =
      .ok (rules.map fun r => convertedRule path r.rule) := by
  rw [loadFile]
  unfold rulesText
  rw [collect_text file rules hne hr [] (by simp)]
  have : collectRules (fileLine env n (loadFile env n) path) (splitOn '\n' []) = .ok [] := by
    rw [show splitOn '\n' [] = [[]] from rfl, collectRules, fileLine_nil]
    rfl
  rw [this]
  simp [Except.map]

/-- **C88, a file that existed.** The merged text loads as the converted rules, followed by whatever the file loaded as
before: the same rules, or the same error. -/
theorem C88_merged_file (env : LoadEnv) (n : Nat) (path : Path) (file raw : Str) (rules : List LRule) (hne : rules ≠ [])
    (hr : ∀ r ∈ rules, FromLegacy r.rule) :
    loadFile env (n + 1) (fileLines (mergeText (rulesText file rules) raw), path) =
      (loadFile env (n + 1) (fileLines raw, path)).map ((rules.map fun r => convertedRule path r.rule) ++ ·) := by
  have hp : ∀ w ∈ rules.map (fun r => r.rule.print), w ≠ [] ∧ '\n' ∉ w := by
    intro w hw
    obtain ⟨r, hr1, rfl⟩ := List.mem_map.1 hw
    refine ⟨?_, (fromLegacy_line (hr r hr1) env n (loadFile env n) path).2.1⟩
    simp [Rule.print]
  rw [loadFile, loadFile]
  dsimp only
  have hrs : rstripNewline (rulesText file rules) = (if file == convUserFile then convDisclaimer else toolDisclaimer) ++
      joinWith '\n' (rules.map fun r => r.rule.print) := by
    unfold rulesText
    rw [rstripNewline_nl, rstripNewline_id]
    obtain ⟨c, h1, h2⟩ := joinWith_lastChar hp (by simpa using hne)
    rw [List.getLast?_append, h1]
    simpa using h2
  unfold mergeText
  dsimp only
  rw [hrs, List.append_assoc _ c!"\n", List.singleton_append]
  have hcr := universalNewlines_noCR raw
  unfold fileLines at *
  generalize universalNewlines raw = cur at hcr
  have key : ∀ x : Str, '\r' ∉ x → collectRules (fileLine env n (loadFile env n) path) (splitOn '\n'
      (universalNewlines ((if file == convUserFile then convDisclaimer else toolDisclaimer) ++
        joinWith '\n' (rules.map fun r => r.rule.print) ++ '\n' :: lstripNl x))) =
      (collectRules (fileLine env n (loadFile env n) path) (splitOn '\n' x)).map
        ((rules.map fun r => convertedRule path r.rule) ++ ·) := by
    intro x hx
    have := collect_text (env := env) (n := n) (load := loadFile env n) (path := path) file rules hne hr (lstripNl x)
      (fun h => hx (lstripNl_mem h))
    unfold fileLines at this
    rw [this, collect_lstrip _ (fileLine_nil env n _ path)]
  by_cases h : startsWith toolDisclaimer cur = true
  · rw [if_pos (c := startsWith toolDisclaimer cur = true) h]
    obtain ⟨t, rfl⟩ := startsWith_iff.1 h
    rw [List.drop_left]
    rw [key t (fun hc => hcr (by simp [hc]))]
    congr 1
    have e : toolDisclaimer ++ t = toolDisclaimer.dropLast ++ '\n' :: t := by
      conv_lhs => rw [tool_eq]
      rw [List.append_assoc, List.singleton_append]
    rw [e]
    symm
    apply collect_silent
    intro l hl
    exact fileLine_comment (disc_lines.2 l hl)
  · rw [if_neg (c := startsWith toolDisclaimer cur = true) h]
    exact key cur hcr

/-! ### The files after the conversion -/

/-- What is written to a file. -/
def savedText (file : Str) (rules : List LRule) : Option Str → Str
  | none => rulesText file rules
  | some raw => if file == c!"50-config-input" then rulesText file rules else mergeText (rulesText file rules) raw

theorem runAll_other : ∀ (ops : List ConvOp) (d : ConvDisk) (q : ConvPath), (∀ op ∈ ops, (∃ p b, op = .copy p b ∧ b ≠ q) ∨
    (∃ p t, op = .write p t ∧ p ≠ q) ∨ ∃ p b, op = .rename p b ∧ p ≠ q ∧ b ≠ q) → (d.runAll ops).1.get q = d.get q := by
  intro ops
  induction ops with
  | nil => intro d q _; rfl
  | cons op ops ih =>
    intro d q h
    rw [ConvDisk.runAll]
    cases hr : d.run op with
    | none => rfl
    | some d1 =>
      dsimp only
      rw [ih d1 q (fun o ho => h o (List.mem_cons_of_mem _ ho))]
      rcases h op (by simp) with ⟨p, b, rfl, hb⟩ | ⟨p, t, rfl, hp⟩ | ⟨p, b, rfl, hp, hb⟩
      · obtain ⟨t, _, rfl⟩ := Option.map_eq_some_iff.1 hr
        rw [conv_get_set, if_neg (Ne.symm hb)]
      · cases hr
        rw [conv_get_set, if_neg (Ne.symm hp)]
      · obtain ⟨t, _, rfl⟩ := Option.map_eq_some_iff.1 hr
        rw [conv_get_set, if_neg (Ne.symm hb), conv_get_remove, if_neg (Ne.symm hp)]

theorem saveFile_other {d : ConvDisk} {file : Str} {rules : List LRule} {q : ConvPath} (hq : Converted q)
    (hne : q ≠ convPath file) : (d.runAll (saveFile d file rules).1).1.get q = d.get q := by
  apply runAll_other
  intro op h
  unfold saveFile at h
  by_cases hr : rules.isEmpty
  · rw [if_pos hr] at h; cases h
  · rw [if_neg hr] at h
    dsimp only at h
    cases hd : d.get (convPath file) with
    | none =>
      rw [hd] at h
      rw [List.mem_singleton.1 h]
      exact .inr (.inl ⟨_, _, rfl, Ne.symm hne⟩)
    | some raw =>
      rw [hd] at h
      rcases List.mem_cons.1 h with rfl | h
      · refine .inl ⟨_, _, rfl, ?_⟩
        rintro rfl
        exact backup_not_plain (backupOf_save d (convPath file).2) hq
      · rw [List.mem_singleton.1 h]
        exact .inr (.inl ⟨_, _, rfl, Ne.symm hne⟩)

theorem saveFile_text {d : ConvDisk} {file : Str} {rules : List LRule} (hf : file ∈ convFiles) (hne : rules ≠ []) :
    (d.runAll (saveFile d file rules).1).1.get (convPath file) = some (savedText file rules (d.get (convPath file))) := by
  unfold saveFile
  rw [if_neg (by simpa using hne)]
  dsimp only
  cases hd : d.get (convPath file) with
  | none =>
    dsimp only
    rw [ConvDisk.runAll]
    simp only [ConvDisk.run]
    rw [ConvDisk.runAll, conv_get_set, if_pos rfl]
    rfl
  | some raw =>
    dsimp only
    have hb : convPath file ≠ ((.new, backupName d .new c!".bak" (convPath file).2) : ConvPath) := by
      intro hc
      refine backup_not_plain (backupOf_save d (convPath file).2) ?_
      rw [← hc]
      exact convPath_plain hf
    rw [ConvDisk.runAll]
    simp only [ConvDisk.run, hd, Option.map_some]
    rw [ConvDisk.runAll]
    simp only [ConvDisk.run]
    rw [ConvDisk.runAll, conv_get_set, if_pos rfl]
    rfl

theorem savePlan_other (save : Str → List LRule) {q : ConvPath} (hq : Converted q) : ∀ (files : List Str) (d : ConvDisk)
    (_ : ∀ f ∈ files, q ≠ convPath f), (d.runAll (savePlan save d files).1).1.get q = d.get q ∨
      (d.runAll (savePlan save d files).1).2 = false := by
  intro files
  induction files with
  | nil => intro d _; exact .inl rfl
  | cons f fs ih =>
    intro d hn
    rw [savePlan]
    dsimp only
    by_cases hok : (d.runAll (saveFile d f (save f)).1).2 = true
    · rw [runAll_append _ _ _ hok]
      rcases ih (d.runAll (saveFile d f (save f)).1).1 (fun g hg => hn g (List.mem_cons_of_mem _ hg)) with h | h
      · left; rw [h, saveFile_other hq (hn f (by simp))]
      · exact .inr h
    · right
      have : ∀ (ops1 ops2 : List ConvOp) (d : ConvDisk), (d.runAll ops1).2 = false → (d.runAll (ops1 ++ ops2)).2 = false := by
        intro ops1
        induction ops1 with
        | nil => intro _ d h; cases h
        | cons op ops ih2 =>
          intro ops2 d h
          rw [List.cons_append, ConvDisk.runAll]
          rw [ConvDisk.runAll] at h
          cases hr : d.run op with
          | none => rfl
          | some d1 => rw [hr] at h; exact ih2 ops2 d1 h
      exact this _ _ _ (by simpa using hok)

theorem savePlan_text (d0 : ConvDisk) (save : Str → List LRule) {file : Str} (hf : file ∈ convFiles) :
    ∀ (files : List Str) (d : ConvDisk) (done bs), ConvInv d0 d done bs → files.Nodup →
      (∀ f ∈ files, convPath f ∉ done ∧ f ∈ convFiles) → file ∈ files →
      (d.runAll (savePlan save d files).1).1.get (convPath file) =
        if save file = [] then d.get (convPath file) else some (savedText file (save file) (d.get (convPath file))) := by
  intro files
  induction files with
  | nil => intro d done bs _ _ _ h; cases h
  | cons f fs ih =>
    intro d done bs hi hnd hn hm
    obtain ⟨hff, hnd2⟩ := List.nodup_cons.1 hnd
    obtain ⟨done1, h1, hd1⟩ := saveFile_part hi f (save f) (hn f (by simp)).1 (hn f (by simp)).2
    have hn1 : ∀ g ∈ fs, convPath g ∉ done1 ∧ g ∈ convFiles := by
      intro g hg
      refine ⟨fun hc => ?_, (hn g (List.mem_cons_of_mem _ hg)).2⟩
      rcases hd1 _ hc with he | hc
      · have : g = f := by simpa [convPath] using he
        exact hff (this ▸ hg)
      · exact (hn g (List.mem_cons_of_mem _ hg)).1 hc
    rw [savePlan]
    dsimp only
    rw [runAll_append _ _ _ h1.ok]
    by_cases hef : file = f
    · subst hef
      obtain ⟨_, h2, _⟩ := savePlan_part save fs h1.inv hnd2 hn1
      rcases savePlan_other save (convPath_plain hf) fs (d.runAll (saveFile d file (save file)).1).1 (by
        intro g hg hc
        have : file = g := by simpa [convPath] using hc
        exact hff (this ▸ hg)) with h | h
      · rw [h]
        split_ifs with he
        · rw [he]; unfold saveFile; rw [if_pos (by rfl)]; rfl
        · exact saveFile_text hf he
      · rw [h2.ok] at h; cases h
    · rcases List.mem_cons.1 hm with h | hm
      · exact absurd h hef
      · rw [ih _ done1 _ h1.inv hnd2 hn1 hm, saveFile_other (convPath_plain hf) (by
          intro hc
          exact hef (by simpa [convPath] using hc))]

theorem renamePlan_new : ∀ (names : List Str) (d : ConvDisk), ∀ op ∈ (renamePlan d names).1,
    ∃ p b, op = ConvOp.rename p b ∧ p.1 = .old ∧ b.1 = .old := by
  intro names
  induction names with
  | nil => intro d op h; cases h
  | cons m ms ih =>
    intro d op h
    rw [renamePlan] at h
    by_cases he : endsWith c!".rpmsave" m = true
    · rw [if_pos he] at h
      exact ih d op h
    · rw [if_neg he] at h
      dsimp only at h
      rcases List.mem_cons.1 h with rfl | h
      · exact ⟨_, _, rfl, rfl, rfl⟩
      · exact ih _ op h

/-- **C88, the converted policy.** After the conversion each of the eight files that gets rules holds a text that loads as
these rules, followed by what the file loaded as before (but 50-config-input is replaced); the others have the text they
had. -/
theorem C88_converted_file (w : ConvWorld) (d : ConvDisk) (all new : List LRule)
    (hfrom : ∀ r ∈ legacyRules all new, FromLegacy r.rule) (hso : ∀ rules : List LRule, ServicesOf rules (w.order
      (rules.map fun r => r.rule.service))) (file : Str) (hf : file ∈ convFiles) :
    ∃ rules, rules = rulesToSave (w.order ((legacyRules all new).map fun r => r.rule.service)) (legacyRules all new) new file ∧
      (rules = [] → (convertedDisk w d all new).get (.new, file ++ c!".policy") = d.get (.new, file ++ c!".policy")) ∧
      (rules ≠ [] → ∃ text, (convertedDisk w d all new).get (.new, file ++ c!".policy") = some text ∧
        ∀ env n path, loadFile env (n + 1) (fileLines text, path) =
          if file = c!"50-config-input" then .ok (rules.map fun r => convertedRule path r.rule)
          else match d.get (.new, file ++ c!".policy") with
            | none => .ok (rules.map fun r => convertedRule path r.rule)
            | some raw => (loadFile env (n + 1) (fileLines raw, path)).map
                ((rules.map fun r => convertedRule path r.rule) ++ ·)) := by
  refine ⟨_, rfl, ?_⟩
  have hso' := hso (legacyRules all new)
  have hsrc : ∀ r ∈ rulesToSave (w.order ((legacyRules all new).map fun r => r.rule.service)) (legacyRules all new) new file,
      FromLegacy r.rule := fun r hr =>
    hfrom r (mem_legacyRules.2 (C88_only_legacy all new _ file hso' r hr).1)
  have hget : (convertedDisk w d all new).get (convPath file) =
      if rulesToSave (w.order ((legacyRules all new).map fun r => r.rule.service)) (legacyRules all new) new file = []
      then d.get (convPath file) else some (savedText file (rulesToSave (w.order ((legacyRules all new).map
        fun r => r.rule.service)) (legacyRules all new) new file) (d.get (convPath file))) := by
    unfold convertedDisk convertPlan
    dsimp only
    generalize rulesToSave (w.order ((legacyRules all new).map fun r => r.rule.service)) (legacyRules all new) new = save
    obtain ⟨done1, h1, hd1⟩ := savePlan_part save convFiles (convInv_start d) (by decide) (fun f hf => ⟨by simp, hf⟩)
    rw [runAll_append _ _ _ h1.ok, runAll_other, savePlan_text d save hf convFiles d [] [] (convInv_start d) (by decide)
      (fun f hf => ⟨by simp, hf⟩) hf]
    intro op hop
    obtain ⟨p, b, rfl, h2, h3⟩ := renamePlan_new _ _ op hop
    refine .inr (.inr ⟨p, b, rfl, ?_, ?_⟩)
    · rintro rfl; cases h2
    · rintro rfl; cases h3
  unfold convPath at hget
  rw [hget]
  generalize rulesToSave (w.order ((legacyRules all new).map fun r => r.rule.service)) (legacyRules all new) new file = rules
    at hsrc
  refine ⟨fun h => by rw [if_pos h], fun h => ⟨_, if_neg h, fun env n path => ?_⟩⟩
  cases hd : d.get (.new, file ++ c!".policy") with
  | none =>
    dsimp only [savedText]
    rw [C88_new_file env n path file rules h hsrc]
    split_ifs <;> rfl
  | some raw =>
    dsimp only [savedText]
    by_cases hi : file = c!"50-config-input"
    · rw [if_pos (c := (file == c!"50-config-input") = true) (by simpa using hi), if_pos hi,
        C88_new_file env n path file rules h hsrc]
    · rw [if_neg (c := (file == c!"50-config-input") = true) (by simpa using hi), if_neg hi,
        C88_merged_file env n path file raw rules h hsrc]

/-! ### Examples, and what does not hold -/

/-- The names in the old directory. -/
def exListing (d : ConvDisk) : List Str :=
  (d.filterMap fun e => if e.1.1 = .old then some e.1.2 else none).dedup

theorem exListing_lists (d : ConvDisk) : Lists d (exListing d) := by
  refine ⟨List.nodup_dedup _, fun n => ?_⟩
  unfold exListing
  rw [List.mem_dedup, List.mem_filterMap]
  induction d with
  | nil => simp [ConvDisk.get]
  | cons e es ih =>
    obtain ⟨⟨dir, m⟩, v⟩ := e
    rw [ConvDisk.get]
    by_cases hk : ((dir, m) : ConvPath) = (.old, n)
    · rw [if_pos hk]
      obtain ⟨rfl, rfl⟩ := Prod.mk.inj hk
      simp
    · rw [if_neg hk, ← ih]
      constructor
      · rintro ⟨x, hx, he⟩
        rcases List.mem_cons.1 hx with rfl | hx
        · dsimp only at he
          split_ifs at he with h1
          · cases he; exact absurd (by rw [h1]) hk
        · exact ⟨x, hx, he⟩
      · rintro ⟨x, hx, he⟩
        exact ⟨x, List.mem_cons_of_mem _ hx, he⟩

theorem exOrder_services (rules : List LRule) : ServicesOf rules (rules.map fun r => r.rule.service).dedup := by
  refine ⟨List.nodup_dedup _, fun s => ?_⟩
  rw [List.mem_dedup, List.mem_map]

/-- A rule of an old file for qubes.Filecopy. -/
def exConvLegacy : LRule :=
  ⟨⟨some c!"qubes.Filecopy", none, .name c!"work", .name c!"vault", .allow none none false true,
    [c!"etc", c!"qubes-rpc", c!"policy", c!"qubes.Filecopy"]⟩, some 1⟩

/-- A catch-all denial behind it. -/
def exConvDeny : LRule :=
  ⟨⟨some c!"qubes.Filecopy", none, .anyvm, .anyvm, .deny true,
    [c!"etc", c!"qubes-rpc", c!"policy", c!"qubes.Filecopy"]⟩, some 2⟩

/-- The rule of 90-default.policy. -/
def exConvDefault : LRule :=
  ⟨⟨some c!"qubes.Filecopy", none, .anyvm, .anyvm, .allow none none false true,
    [c!"etc", c!"qubes", c!"policy.d", c!"90-default.policy"]⟩, some 7⟩

/-- The disk with the two files. -/
def exConvDisk : ConvDisk :=
  [ ((.new, c!"50-config-filecopy.policy"), c!"qubes.Filecopy * a b deny\n"),
    ((.new, c!"50-config-filecopy.policy.bak"), c!"older"),
    ((.old, c!"qubes.Filecopy"), c!"work vault allow\n$anyvm $anyvm deny\n"),
    ((.old, c!"x.rpmsave"), c!"saved") ]

/-- A world in which the graph shows whether the old file is there. -/
def exConvWorld (answer : Str) : ConvWorld where
  rulesOf _ := .ok [exConvLegacy, exConvDeny, exConvDefault]
  newRulesOf _ := .ok [exConvDefault]
  graphOf d := .ok (if (d.get (.old, c!"qubes.Filecopy")).isSome then [c!"before"] else [c!"after"])
  order := List.dedup
  listing := exListing
  answer := answer

theorem exLegacy_from : ∀ r ∈ legacyRules [exConvLegacy, exConvDeny, exConvDefault] [exConvDefault], FromLegacy r.rule := by
  have h : legacyRules [exConvLegacy, exConvDeny, exConvDefault] [exConvDefault] = [exConvLegacy, exConvDeny] := by decide
  rw [h]
  intro r hr
  rcases List.mem_cons.1 hr with rfl | hr
  · exact ⟨⟨c!"qubes.Filecopy", by simp, rfl⟩, some c!"qubes.Filecopy", some c!"*", c!"work vault allow",
      [c!"etc", c!"qubes-rpc", c!"policy", c!"qubes.Filecopy"], by decide⟩
  · rw [List.mem_singleton.1 hr]
    exact ⟨⟨c!"qubes.Filecopy", by simp, rfl⟩, some c!"qubes.Filecopy", some c!"*", c!"@anyvm @anyvm deny",
      [c!"etc", c!"qubes-rpc", c!"policy", c!"qubes.Filecopy"], by decide⟩

set_option maxRecDepth 100000 in
/-- The hypotheses are met: a run in which the rule goes to the file of its service, which is backed up under the second free
name, and the old file is renamed. -/
theorem C88_example :
    (convertMain (exConvWorld c!"n") exConvDisk).2 = .success true ∧
    (exConvDisk.runAll (convertMain (exConvWorld c!"n") exConvDisk).1).1.get (.new, c!"50-config-filecopy.policy.bak.bak") =
      some c!"qubes.Filecopy * a b deny\n" ∧
    (exConvDisk.runAll (convertMain (exConvWorld c!"n") exConvDisk).1).1.get (.new, c!"50-config-filecopy.policy") =
      some (toolDisclaimer ++ c!"qubes.Filecopy\t*\twork\tvault\tallow\nqubes.Filecopy * a b deny\n") ∧
    (exConvDisk.runAll (convertMain (exConvWorld c!"n") exConvDisk).1).1.get (.old, c!"qubes.Filecopy.rpmsave") =
      some c!"work vault allow\n$anyvm $anyvm deny\n" ∧
    (∀ d, Lists d ((exConvWorld c!"n").listing d)) ∧
    (∀ rules : List LRule, ServicesOf rules ((exConvWorld c!"n").order (rules.map fun r => r.rule.service))) :=
  ⟨by decide, by decide, by decide, by decide, exListing_lists, exOrder_services⟩

set_option maxRecDepth 100000 in
/-- The user's "yes" to restoring: the program raises an exception and the old file stays out of use. -/
theorem C89_violated :
    AsksAndReverts (exConvWorld c!"Y") exConvDisk ∧
    (convertMain (exConvWorld c!"Y") exConvDisk).2 = .raised ∧
    (exConvDisk.runAll (convertMain (exConvWorld c!"Y") exConvDisk).1).1.get (.old, c!"qubes.Filecopy") = none := by
  refine ⟨⟨[exConvLegacy, exConvDeny, exConvDefault], [exConvDefault], [c!"before"], [c!"after"], rfl, rfl, rfl, by decide, ?_, by decide,
    by decide⟩, by decide, by decide⟩
  intro h
  have := (h c!"before").1 (by simp)
  simp at this

/-- The old policy denied this call, the converted one allows it: a catch-all denial is dropped, and a later rule of the new
policy (here that of 90-default.policy) decides. -/
theorem C88_violated_deny :
    (∀ f, rulesToSave [some c!"qubes.Filecopy"] (legacyRules [exConvDeny, exConvDefault] [exConvDefault]) [exConvDefault] f = []) ∧
    (∃ req, mkRequest c!"qubes.Filecopy" c!"+" c!"work" c!"vault"
        [(c!"work", { name := c!"work" }), (c!"vault", { name := c!"vault" })] = .ok req ∧
      evaluate [exConvDeny.rule, exConvDefault.rule] req = .error (.accessDenied true) ∧
      ∃ res, evaluate [exConvDefault.rule] req = .ok res) := by
  constructor
  · intro f
    have h : [some c!"qubes.Filecopy"].flatMap (convertedRules (legacyRules [exConvDeny, exConvDefault] [exConvDefault]) [exConvDefault]) = [] := by
      decide
    unfold rulesToSave
    dsimp only
    rw [h]
    split_ifs <;> rfl
  · refine ⟨_, rfl, ?_, ?_⟩
    · decide
    · exact ⟨_, rfl⟩

/-- A rule about an input device is dropped if one for the same service and source, but another argument, comes before. -/
theorem C88_violated_input :
    let r1 : LRule := ⟨⟨some c!"qubes.InputMouse", some c!"+a", .name c!"sys-usb", .adminvm, .allow none none false true, []⟩, some 1⟩
    let r2 : LRule := ⟨⟨some c!"qubes.InputMouse", none, .name c!"sys-usb", .adminvm, .deny true, []⟩, some 2⟩
    legacyRules [r1, r2] [] = [r1, r2] ∧
    rulesToSave [some c!"qubes.InputMouse"] [r1, r2] [] c!"50-config-input" = [r1] ∧
    ∀ f, r2 ∉ rulesToSave [some c!"qubes.InputMouse"] [r1, r2] [] f := by
  intro r1 r2
  have h3 : [some c!"qubes.InputMouse"].flatMap (convertedRules [r1, r2] []) = [r1, r2] := by decide
  refine ⟨by decide, by decide, ?_⟩
  intro f hf
  by_cases hi : f = c!"50-config-input"
  · subst hi
    revert hf; decide
  · unfold rulesToSave at hf
    dsimp only at hf
    rw [h3, if_neg (by simpa using hi), List.mem_filter] at hf
    apply hi
    rw [← beq_iff_eq.1 hf.2]
    decide

end Qrexec
