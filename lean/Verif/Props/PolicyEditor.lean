import Verif.Spec.PolicyEditor
import Verif.Props.AdminClient
import Verif.Props.Lint

/-! # C79: qubes-policy-editor -/
namespace Qrexec
open Spec

theorem getReply_iff : ∀ (l : List Str),
    (∀ rest, getReply l = .again rest ↔ ∃ others, l = others ++ c!"e" :: rest ∧ ∀ r ∈ others, OtherReply r) ∧
    (getReply l = .quit ↔ ∃ others rest, l = others ++ c!"q" :: rest ∧ ∀ r ∈ others, OtherReply r)
  | [] => by simp [getReply]
  | r :: l => by
    obtain ⟨h1, h2⟩ := getReply_iff l
    by_cases he : r = c!"e"
    · subst he
      have hg : getReply (c!"e" :: l) = .again l := rfl
      rw [hg]
      constructor
      · intro rest
        constructor
        · intro h
          cases h
          exact ⟨[], rfl, by simp⟩
        · rintro ⟨others, h, ho⟩
          cases others with
          | nil => cases h; rfl
          | cons o os =>
            cases h
            exact absurd rfl (ho _ (by simp)).1
      · constructor
        · intro h; cases h
        · rintro ⟨others, rest, h, ho⟩
          cases others with
          | nil => cases h
          | cons o os =>
            cases h
            exact absurd rfl (ho _ (by simp)).1
    · by_cases hq : r = c!"q"
      · subst hq
        have hg : getReply (c!"q" :: l) = .quit := rfl
        rw [hg]
        constructor
        · intro rest
          constructor
          · intro h; cases h
          · rintro ⟨others, h, ho⟩
            cases others with
            | nil => cases h
            | cons o os =>
              cases h
              exact absurd rfl (ho _ (by simp)).2
        · exact ⟨fun _ => ⟨[], l, rfl, by simp⟩, fun _ => rfl⟩
      · have hg : getReply (r :: l) = getReply l := by
          rw [getReply, if_neg (by simpa using he), if_neg (by simpa using hq)]
        rw [hg]
        constructor
        · intro rest
          rw [h1]
          constructor
          · rintro ⟨others, rfl, ho⟩
            exact ⟨r :: others, rfl, fun x hx => by
              rcases List.mem_cons.1 hx with rfl | hx
              · exact ⟨he, hq⟩
              · exact ho x hx⟩
          · rintro ⟨others, h, ho⟩
            cases others with
            | nil => cases h; exact absurd rfl he
            | cons o os =>
              cases h
              exact ⟨os, rfl, fun x hx => ho x (by simp [hx])⟩
        · rw [h2]
          constructor
          · rintro ⟨others, rest, rfl, ho⟩
            exact ⟨r :: others, rest, rfl, fun x hx => by
              rcases List.mem_cons.1 hx with rfl | hx
              · exact ⟨he, hq⟩
              · exact ho x hx⟩
          · rintro ⟨others, rest, h, ho⟩
            cases others with
            | nil => cases h; exact absurd rfl hq
            | cons o os =>
              cases h
              exact ⟨os, rest, rfl, fun x hx => ho x (by simp [hx])⟩

theorem lintFile_area (a : Area) (n : Nat) (text : Str) (nums : List Nat)
    (h : lintFile a.isInclude (n + 3) text = .ok nums) :
    (nums = [] → ∀ line ∈ fileLines text, AreaLine a line) ∧ (nums ≠ [] → ∃ line ∈ fileLines text, ¬ AreaLine a line) := by
  have key : ∀ i, i ∈ nums ↔ ∃ j line, (fileLines text)[j]? = some line ∧ i = 1 + j ∧ ¬ AreaLine a line := by
    cases a with
    | policy => exact (C77_lines (n + 1) text nums h).1
    | incl => exact (C77_lines_service n text nums h).1
  constructor
  · rintro rfl line hl
    obtain ⟨j, hj⟩ := List.getElem?_of_mem hl
    by_contra hc
    have := (key (1 + j)).2 ⟨j, line, hj, rfl, hc⟩
    cases this
  · intro hne
    obtain ⟨i, hi⟩ := List.exists_mem_of_ne_nil _ hne
    obtain ⟨j, line, hj, -, hc⟩ := (key i).1 hi
    exact ⟨line, List.mem_of_getElem? hj, hc⟩

/-- What the linter says of one file. -/
theorem lintMain_one (h : Host) (enc : Str → Bytes) (u : Utf8 h enc) (a : Area) (n : Nat) (b : Bytes) :
    ((lintMain a.isInclude (n + 3) 0 [decodeText h b]).result = .ok 0 → LintClean enc a b) ∧
    (∀ c, (lintMain a.isInclude (n + 3) 0 [decodeText h b]).result = .ok c → c ≠ 0 → LintDirty enc a b) := by
  cases hd : h.decode b with
  | none =>
    have : decodeText h b = .error .unicode := by unfold decodeText; rw [hd]
    rw [this]
    exact ⟨fun h => (by cases h), fun c h => by cases h⟩
  | some text =>
    have hb : decodeText h b = .ok text := by unfold decodeText; rw [hd]
    rw [hb]
    have he := (u.decode_iff _ _).1 hd
    have hm : lintMain a.isInclude (n + 3) 0 [.ok text] = (match lintFile a.isInclude (n + 3) text with
      | .error e => ⟨[], .error e⟩
      | .ok [] => ⟨[], .ok 0⟩
      | .ok errs => ⟨errs.map fun i => (0, i), .ok 1⟩ : LintEnd) := rfl
    rw [hm]
    cases hl : lintFile a.isInclude (n + 3) text with
    | error e => exact ⟨fun h => (by cases h), fun c h => by cases h⟩
    | ok nums =>
      obtain ⟨h1, h2⟩ := lintFile_area a n text nums hl
      cases nums with
      | nil => exact ⟨fun _ => ⟨text, he, h1 rfl⟩, fun c hc hne => by cases hc; exact absurd rfl hne⟩
      | cons i l => exact ⟨fun h => (by cases h), fun c hc hne => ⟨text, he, h2 (by simp)⟩⟩

theorem clean_not_dirty {h : Host} {enc : Str → Bytes} (u : Utf8 h enc) {a : Area} {b : Bytes} (h1 : LintClean enc a b)
    (h2 : LintDirty enc a b) : False := by
  obtain ⟨t1, e1, c1⟩ := h1
  obtain ⟨t2, e2, line, hl, c2⟩ := h2
  have : t1 = t2 := by
    have := u.decode_enc t1
    rw [e1, ← e2, u.decode_enc] at this
    injection this with this
    exact this.symm
  subst this
  exact c2 (c1 line hl)

theorem editLint_sound {h : Host} {enc : Str → Bytes} (u : Utf8 h enc) (a : Area) (n : Nat) :
    ∀ (edits : List Edit) (replies : List Str) (tmp : Bytes),
    (∀ b, editLint h a.isInclude (n + 3) edits replies tmp = .clean b → Edited enc a edits replies tmp b) ∧
    (editLint h a.isInclude (n + 3) edits replies tmp = .quit → GivenUp enc a edits replies tmp)
  | [], replies, tmp => by
    constructor
    · intro b h; cases h
    · intro h; cases h
  | ed :: eds, replies, tmp => by
    have hstep : editLint h a.isInclude (n + 3) (ed :: eds) replies tmp = (
      if (ed tmp).1 != 0 then .failed
      else match (ed tmp).2 with
      | none => .raised
      | some b =>
        match (lintMain a.isInclude (n + 3) 0 [decodeText h b]).result with
        | .ok 0 => .clean b
        | .ok _ =>
          match getReply replies with
          | .again rest => editLint h a.isInclude (n + 3) eds rest b
          | .quit => .quit
          | .eof => .raised
        | .error _ => .raised) := rfl
    rw [hstep]
    rcases hed : ed tmp with ⟨st, after⟩
    by_cases hst : st = 0
    · subst hst
      rw [if_neg (by simp)]
      cases after with
      | none => exact ⟨fun b h => (by cases h), fun h => by cases h⟩
      | some b0 =>
        dsimp only
        obtain ⟨k1, k2⟩ := lintMain_one h enc u a n b0
        cases hr : (lintMain a.isInclude (n + 3) 0 [decodeText h b0]).result with
        | error e => exact ⟨fun b h => (by cases h), fun h => by cases h⟩
        | ok c =>
          cases c with
          | zero =>
            refine ⟨fun b h => ?_, fun h => by cases h⟩
            cases h
            exact .clean hed (k1 hr)
          | succ c =>
            have hdirty := k2 _ hr (by simp)
            obtain ⟨g1, g2⟩ := getReply_iff replies
            cases hg : getReply replies with
            | eof => exact ⟨fun b h => (by cases h), fun h => by cases h⟩
            | quit =>
              obtain ⟨others, rest, e1, e2⟩ := g2.1 hg
              exact ⟨fun b h => (by cases h), fun _ => .quit hed hdirty e1 e2⟩
            | again rest =>
              obtain ⟨others, e1, e2⟩ := (g1 rest).1 hg
              obtain ⟨i1, i2⟩ := editLint_sound u a n eds rest b0
              exact ⟨fun b h => .again hed hdirty e1 e2 (i1 b h), fun h => .again hed hdirty e1 e2 (i2 h)⟩
    · rw [if_pos (by simpa using hst)]
      exact ⟨fun b h => (by cases h), fun h => by cases h⟩

theorem lintLines_clean {incl : Bool} {n : Nat} : ∀ (lines : List Str) (k : Nat),
    (∀ l ∈ lines, lintLine incl n l = .ok ()) → lintLines incl n k lines = .ok []
  | [], _, _ => rfl
  | l :: lines, k, h => by
    rw [lintLines, h l (by simp)]
    exact lintLines_clean lines (k + 1) fun x hx => h x (by simp [hx])

theorem lintMain_clean {h : Host} {enc : Str → Bytes} (u : Utf8 h enc) {a : Area} (n : Nat) {b : Bytes}
    (hb : LintClean enc a b) : (lintMain a.isInclude (n + 3) 0 [decodeText h b]).result = .ok 0 := by
  obtain ⟨text, rfl, hl⟩ := hb
  have hd : decodeText h (enc text) = .ok text := by unfold decodeText; rw [u.decode_enc]
  have hf : lintFile a.isInclude (n + 3) text = .ok [] := by
    refine lintLines_clean _ _ fun l hm => ?_
    have hn := fileLines_no_newline hm
    cases a with
    | policy => exact (lintLine_policy (n + 1) l hn).2.2 (hl l hm)
    | incl => exact (lintLine_service n l hn).2.2 (hl l hm)
  rw [hd]
  have hm : lintMain a.isInclude (n + 3) 0 [.ok text] = (match lintFile a.isInclude (n + 3) text with
      | .error e => ⟨[], .error e⟩
      | .ok [] => ⟨[], .ok 0⟩
      | .ok errs => ⟨errs.map fun i => (0, i), .ok 1⟩ : LintEnd) := rfl
  rw [hm, hf]

/-- The linter does not crash on the text (C77_total). -/
def NoLoop : Area → Str → Prop
  | .policy, text => ∀ line ∈ fileLines text, ∀ p, Words line [c!"!include", p] → ¬ MainAlias p
  | .incl, text => ∀ line ∈ fileLines text, ∀ p, Words (compatSubst line) [c!"!include", p] → purePathStr p ≠ c!"inc"

theorem lintMain_dirty {h : Host} {enc : Str → Bytes} (u : Utf8 h enc) {a : Area} (n : Nat) {b : Bytes}
    (hb : LintDirty enc a b) (hl : ∀ text, enc text = b → NoLoop a text) :
    ∃ c, (lintMain a.isInclude (n + 3) 0 [decodeText h b]).result = .ok (c + 1) := by
  obtain ⟨text, rfl, line, hm, hbad⟩ := hb
  have hd : decodeText h (enc text) = .ok text := by unfold decodeText; rw [u.decode_enc]
  have hf : ∃ nums, lintFile a.isInclude (n + 3) text = .ok nums := by
    have := hl text rfl
    cases a with
    | policy => exact C77_total (n + 1) text this
    | incl => exact C77_total_service n text this
  obtain ⟨nums, hf⟩ := hf
  have hne : nums ≠ [] := fun e => hbad ((lintFile_area a n text nums hf).1 e line hm)
  rw [hd]
  have hm : lintMain a.isInclude (n + 3) 0 [.ok text] = (match lintFile a.isInclude (n + 3) text with
      | .error e => ⟨[], .error e⟩
      | .ok [] => ⟨[], .ok 0⟩
      | .ok errs => ⟨errs.map fun i => (0, i), .ok 1⟩ : LintEnd) := rfl
  rw [hm, hf]
  cases nums with
  | nil => exact absurd rfl hne
  | cons i l => exact ⟨0, rfl⟩

theorem editLint_complete {h : Host} {enc : Str → Bytes} (u : Utf8 h enc) {a : Area} (n : Nat)
    {edits : List Edit} {replies : List Str} {tmp b : Bytes} (he : Edited enc a edits replies tmp b)
    (hl : ∀ ed ∈ edits, ∀ t text, ed t = (0, some (enc text)) → NoLoop a text) :
    editLint h a.isInclude (n + 3) edits replies tmp = .clean b := by
  induction he with
  | @clean ed eds replies tmp b h1 h2 =>
    rw [editLint]
    rw [h1, if_neg (by simp)]
    dsimp only
    rw [lintMain_clean u n h2]
    rfl
  | @again ed eds replies rest others tmp b b' h1 h2 h3 h4 h5 ih =>
    rw [editLint]
    rw [h1, if_neg (by simp)]
    dsimp only
    obtain ⟨c, hc⟩ := lintMain_dirty u n h2 (fun text ht => hl ed (by simp) tmp text (by rw [h1, ht]))
    rw [hc, ((getReply_iff replies).1 rest).2 ⟨others, h3, h4⟩]
    exact ih fun ed hm => hl ed (by simp [hm])

/-! ### One session -/

theorem get_notFound {h : Host} {c : AdminConf} {d : Disk} {a : Area} {n : Str}
    (hr : ((Call.get a n).run h c d).2 = .error .notFound) : d.content (fileOf c d a n) = none := by
  unfold Call.run handleAdmin at hr
  cases hp : adminPlan h c d (Call.get a n).service (Call.get a n).arg (Call.get a n).payload with
  | ok plan =>
    rw [hp] at hr
    obtain ⟨reply, ws⟩ := plan
    dsimp only at hr
    split at hr <;> cases hr
  | error e =>
    rw [hp] at hr
    cases hr
    simp only [Call.arg, Call.payload] at hp
    rw [plan_get] at hp
    by_cases h1 : n.all rpcNameChar = true
    · rw [h1] at hp
      simp only [Bool.not_true, Bool.false_eq_true, if_false, noneGiven, locked, List.isEmpty_nil, if_true] at hp
      by_cases h2 : (d.entries (d.resolve c.policy)).isSome = true
      · rw [if_pos h2] at hp
        cases h3 : adminPath d n (a.dir c) a.suffix with
        | error e =>
          rw [h3] at hp
          unfold adminPath at h3
          split at h3
          · cases h3; cases hp
          · dsimp only at h3
            split at h3
            · cases h3
            · cases h3; cases hp
        | ok p =>
          rw [h3] at hp
          obtain ⟨-, rfl, -⟩ := adminPath_ok.1 h3
          have hp' : adminGet h d (fileOf c d a n) = .error .notFound := hp
          unfold adminGet at hp'
          cases h4 : d.content (fileOf c d a n) with
          | none => rfl
          | some x => rw [h4] at hp'; cases hp'
      · rw [if_neg h2] at hp; cases hp
    · rw [show n.all rpcNameChar = false by simpa using h1] at hp
      cases hp

theorem shown_notFound {msg : AdminErr → Str} {text : Bytes} {e : AdminErr} {m : Str}
    (h : ClientShows msg text e (.admin c!"PolicyAdminFileNotFoundException" m)) : e = .notFound := by
  generalize hz : ClientErr.admin c!"PolicyAdminFileNotFoundException" m = z at h
  cases h <;> first | rfl | simp at hz

/-- The calls of the editor reach the server. -/
structure EditorReaches (inDom0 : Option Bool) (run : Disk → List Str → Bytes → Disk × ProcEnd)
    (server : Disk → Str → Bytes → Disk × ProcEnd) (a : Area) (n : Str) : Prop where
  get : Carried inDom0 run server (a.prefix ++ c!"Get") (some n)
  replace : Carried inDom0 run server (a.prefix ++ c!"Replace") (some n)

/-- From the first editor run on: either nothing was sent, or a Replace of a clean file. -/
theorem editorSave_cases {h : Host} {enc : Str → Bytes} (u : Utf8 h enc) (msg : AdminErr → Str) (log : Str)
    (c : AdminConf) (d : Disk) {inDom0 : Option Bool} {run : Disk → List Str → Bytes → Disk × ProcEnd} (k : Nat)
    (edits : List Edit) (replies : List Str) (a : Area) (n : Str) (tmp : Bytes) (token : Str)
    (hcar : Carried inDom0 run (adminMain h enc msg log c) (a.prefix ++ c!"Replace") (some n)) (d' : Disk) (e : EditorEnd)
    (hr : editorSave h enc inDom0 run (k + 3) edits replies n a.isInclude tmp token d = (d', e)) :
    (d' = d ∧ e ≠ .saved ∧ (e = .quit → GivenUp enc a edits replies tmp)) ∨
    ∃ b text, Edited enc a edits replies tmp b ∧ enc text = b ∧
      d' = ((Call.replace a n (enc token) (enc (universalNewlines text))).run h c d).1 ∧
      (e = .saved ∨ e = .failed ∨ e = .raised) ∧
      (e = .saved ↔ ∃ r, ((Call.replace a n (enc token) (enc (universalNewlines text))).run h c d).2 = .ok r) ∧
      (∀ x, ((Call.replace a n (enc token) (enc (universalNewlines text))).run h c d).2 = .error x →
        (∀ y, x ≠ .internal y) → x ≠ .died → e = .failed) := by
  unfold editorSave at hr
  obtain ⟨s1, s2⟩ := editLint_sound u a k edits replies tmp
  cases hl : editLint h a.isInclude (k + 3) edits replies tmp with
  | failed => rw [hl] at hr; cases hr; exact .inl ⟨rfl, by simp, by simp⟩
  | quit => rw [hl] at hr; cases hr; exact .inl ⟨rfl, by simp, fun _ => s2 hl⟩
  | raised => rw [hl] at hr; cases hr; exact .inl ⟨rfl, by simp, by simp⟩
  | waiting => rw [hl] at hr; cases hr; exact .inl ⟨rfl, by simp, by simp⟩
  | clean b =>
    rw [hl] at hr
    dsimp only at hr
    cases hd : h.decode b with
    | none => rw [hd] at hr; cases hr; exact .inl ⟨rfl, by simp, by simp⟩
    | some text =>
      rw [hd] at hr
      dsimp only at hr
      right
      refine ⟨b, text, s1 b hl, (u.decode_iff _ _).1 hd, ?_⟩
      obtain ⟨r1, r2, r3⟩ := C78_replace h enc u msg log c d inDom0 run a n (universalNewlines text) token hcar
      rcases hx : policyReplace h enc inDom0 run d n (universalNewlines text) token a.isInclude with ⟨d1, res⟩
      rw [hx] at hr r1 r2 r3
      dsimp only at r1 r2 r3
      rw [← r1]
      cases hs : ((Call.replace a n (enc token) (enc (universalNewlines text))).run h c d).2 with
      | ok r =>
        have := r2 r hs
        subst this
        cases hr
        exact ⟨rfl, .inl rfl, ⟨fun _ => ⟨r, rfl⟩, fun _ => rfl⟩, fun x hx => by cases hx⟩
      | error x =>
        obtain ⟨y, hy, rfl⟩ := r3 x hs
        have hd1 : d' = d1 := by
          cases hy <;> cases hr <;> rfl
        have he : e = .failed ∨ e = .raised := by
          cases hy <;> cases hr <;> simp
        refine ⟨hd1, .inr he, ⟨fun h => ?_, fun ⟨r, h⟩ => by cases h⟩, ?_⟩
        · subst h; rcases he with h | h <;> cases h
        · intro x' hx' h1 h2
          cases hx'
          cases hy <;> first | (cases hr; rfl) | exact absurd rfl (h1 _) | exact absurd rfl h2

/-- **C79.** What is saved. When the editor reports success, the file holds exactly the text of the last run of the user's
editor (with line ends made uniform), in which the linter had nothing to report; the user began with the content the file
had then, and the file still had that content (up to a collision of SHA-256) when it was replaced - or it did not exist
then, nor when it was created. No other file changed. -/
theorem C79_saved (h : Host) (enc : Str → Bytes) (u : Utf8 h enc) (hh : HexHash h) (msg : AdminErr → Str) (log : Str)
    (c : AdminConf) (d d3 : Disk) (inDom0 : Option Bool) (run : Disk → List Str → Bytes → Disk × ProcEnd) (k : Nat)
    (edits : List Edit) (replies : List Str) (change : Disk → Disk) (a : Area) (n : Str)
    (hcar : EditorReaches inDom0 run (adminMain h enc msg log c) a n)
    (hr : managePolicy h enc inDom0 run (k + 3) edits replies change n a.isInclude d = (d3, .saved)) :
    ∃ start b text, Edited enc a edits replies start b ∧ enc text = b ∧
      d3.content (fileOf c (change d) a n) = some (enc (universalNewlines text)) ∧
      (∀ q, q ≠ fileOf c (change d) a n → q ≠ tempOf (fileOf c (change d) a n) → d3.content q = (change d).content q) ∧
      ((d.content (fileOf c d a n) = some start ∧
          ∃ cur, (change d).content (fileOf c (change d) a n) = some cur ∧ h.hash cur = h.hash start) ∨
        (d.content (fileOf c d a n) = none ∧ start = [] ∧ (change d).exists (fileOf c (change d) a n) = false)) := by
  obtain ⟨g1, g2, g3⟩ := C78_get h enc u hh msg log c d inDom0 run a n hcar.get
  unfold managePolicy at hr
  have key : ∀ tmp token, '\n' ∉ enc token → editorSave h enc inDom0 run (k + 3) edits replies n a.isInclude tmp token (change d) = (d3, .saved) →
      ∃ b text, Edited enc a edits replies tmp b ∧ enc text = b ∧
      d3.content (fileOf c (change d) a n) = some (enc (universalNewlines text)) ∧
      (∀ q, q ≠ fileOf c (change d) a n → q ≠ tempOf (fileOf c (change d) a n) → d3.content q = (change d).content q) ∧
      (enc token = c!"any" ∨ (enc token = c!"new" ∧ (change d).exists (fileOf c (change d) a n) = false) ∨
        ∃ current, (change d).content (fileOf c (change d) a n) = some current ∧ enc token = tokenOf h current) := by
    intro tmp token ht hs
    rcases editorSave_cases u msg log c (change d) k edits replies a n tmp token hcar.replace d3 .saved hs with
      ⟨-, hne, -⟩ | ⟨b, text, e1, e2, e3, -, e5, -⟩
    · exact absurd rfl hne
    · obtain ⟨r, er⟩ := e5.1 rfl
      have hrun : (Call.replace a n (enc token) (enc (universalNewlines text))).run h c (change d) = (d3, .ok r) :=
        Prod.ext e3.symm er
      obtain ⟨w1, w2, w3⟩ := C32_replace_get h c (change d) d3 a n _ _ r ht hrun
      obtain ⟨-, -, -, hne, -, -, -, hd3, -, -⟩ := replace_run ht hrun
      refine ⟨b, text, e1, e2, ?_, w2, C31_replace h c (change d) d3 a n _ _ r ht hrun⟩
      rw [hd3, afterReplace_content hne, if_neg (by rw [tempOf_eq]; exact (tempPath_ne _ hne).symm), if_pos rfl]
  rcases hg : policyGet h enc inDom0 run d n a.isInclude with ⟨d1, res⟩
  rw [hg] at hr g1 g2 g3
  dsimp only at g1 g2 g3
  subst g1
  cases hs : ((Call.get a n).run h c d1).2 with
  | ok r =>
    obtain ⟨data, hdata, ⟨text, ht, rfl⟩ | ⟨-, rfl⟩⟩ := g2 r hs
    · dsimp only at hr
      have hasc : enc (tokenOf h data) = tokenOf h data := u.ascii_all _ fun ch hc => (hh.ascii data ch hc).1
      obtain ⟨b, text', k1, k2, k3, k4, k5⟩ := key _ _
        (by rw [hasc]; exact fun hm => (hh.ascii data _ hm).2.1 rfl) hr
      rw [ht] at k1
      refine ⟨data, b, text', k1, k2, k3, k4, .inl ⟨hdata, ?_⟩⟩
      rw [hasc] at k5
      rcases k5 with k5 | ⟨k5, -⟩ | ⟨cur, k5, k6⟩
      · simp [tokenOf] at k5
      · simp [tokenOf] at k5
      · unfold tokenOf at k6
        exact ⟨cur, k5, (List.append_cancel_left k6).symm⟩
    · cases hr
  | error x =>
    obtain ⟨y, hy, rfl⟩ := g3 x hs
    by_cases hnf : x = .notFound
    · subst hnf
      cases hy
      dsimp only at hr
      rw [if_pos (by decide)] at hr
      have hnew : enc c!"new" = c!"new" := u.ascii_all _ (by decide)
      obtain ⟨b, text', k1, k2, k3, k4, k5⟩ := key _ _ (by rw [hnew]; decide) hr
      refine ⟨[], b, text', k1, k2, k3, k4, .inr ⟨get_notFound hs, rfl, ?_⟩⟩
      rw [hnew] at k5
      rcases k5 with k5 | ⟨-, k5⟩ | ⟨cur, -, k6⟩
      · simp at k5
      · exact k5
      · simp [tokenOf] at k6
    · exfalso
      cases hy <;> first | exact hnf rfl | (dsimp only at hr; first | (rw [if_neg (by decide)] at hr; cases hr) | cases hr)

/-- **C79.** What is not saved. Otherwise no file changes, except that the server may leave behind the temporary file of
a Replace that failed; nothing at all changes when the user quits, and that is only when the user said so. -/
theorem C79_unsaved (h : Host) (enc : Str → Bytes) (u : Utf8 h enc) (hh : HexHash h) (msg : AdminErr → Str) (log : Str)
    (c : AdminConf) (d d3 : Disk) (inDom0 : Option Bool) (run : Disk → List Str → Bytes → Disk × ProcEnd) (k : Nat)
    (edits : List Edit) (replies : List Str) (change : Disk → Disk) (a : Area) (n : Str) (e : EditorEnd)
    (hcar : EditorReaches inDom0 run (adminMain h enc msg log c) a n)
    (hr : managePolicy h enc inDom0 run (k + 3) edits replies change n a.isInclude d = (d3, e)) (he : e ≠ .saved) :
    (∀ q, q ≠ tempOf (fileOf c (change d) a n) → d3.content q = (change d).content q) ∧
    (e = .quit ∨ e = .waiting → d3 = change d) ∧
    (e = .quit → ∃ start, (d.content (fileOf c d a n) = some start ∨ d.content (fileOf c d a n) = none ∧ start = []) ∧
      GivenUp enc a edits replies start) := by
  obtain ⟨g1, g2, g3⟩ := C78_get h enc u hh msg log c d inDom0 run a n hcar.get
  unfold managePolicy at hr
  have key : ∀ tmp token, '\n' ∉ enc token →
      editorSave h enc inDom0 run (k + 3) edits replies n a.isInclude tmp token (change d) = (d3, e) →
      (∀ q, q ≠ tempOf (fileOf c (change d) a n) → d3.content q = (change d).content q) ∧
      (e = .quit ∨ e = .waiting → d3 = change d) ∧ (e = .quit → GivenUp enc a edits replies tmp) := by
    intro tmp token ht hs
    rcases editorSave_cases u msg log c (change d) k edits replies a n tmp token hcar.replace d3 e hs with
      ⟨rfl, -, hq⟩ | ⟨b, text, e1, e2, e3, e4, e5, -⟩
    · exact ⟨fun _ _ => rfl, fun _ => rfl, hq⟩
    · refine ⟨?_, ?_, ?_⟩
      · cases hx : ((Call.replace a n (enc token) (enc (universalNewlines text))).run h c (change d)).2 with
        | ok r => exact absurd (e5.2 ⟨r, hx⟩) he
        | error x =>
          intro q hq
          exact C33_failed h c (change d) d3 a n _ _ x ht (Prod.ext e3.symm hx) q hq
      · intro hq
        rcases hq with rfl | rfl <;> simp at e4
      · rintro rfl; simp at e4
  rcases hg : policyGet h enc inDom0 run d n a.isInclude with ⟨d1, res⟩
  rw [hg] at hr g1 g2 g3
  dsimp only at g1 g2 g3
  subst g1
  have triv : (d3, e) = (change d1, EditorEnd.raised) ∨ (d3, e) = (change d1, EditorEnd.failed) →
      (∀ q, q ≠ tempOf (fileOf c (change d1) a n) → d3.content q = (change d1).content q) ∧
      (e = .quit ∨ e = .waiting → d3 = change d1) ∧
      (e = .quit → ∃ start, (d1.content (fileOf c d1 a n) = some start ∨ d1.content (fileOf c d1 a n) = none ∧ start = []) ∧
        GivenUp enc a edits replies start) := by
    intro hx
    rcases hx with hx | hx
    · cases hx; exact ⟨fun _ _ => rfl, fun _ => rfl, by simp⟩
    · cases hx; exact ⟨fun _ _ => rfl, fun _ => rfl, by simp⟩
  cases hs : ((Call.get a n).run h c d1).2 with
  | ok r =>
    obtain ⟨data, hdata, ⟨text, ht, rfl⟩ | ⟨-, rfl⟩⟩ := g2 r hs
    · dsimp only at hr
      have hasc : enc (tokenOf h data) = tokenOf h data := u.ascii_all _ fun ch hc => (hh.ascii data ch hc).1
      obtain ⟨k1, k2, k3⟩ := key _ _ (by rw [hasc]; exact fun hm => (hh.ascii data _ hm).2.1 rfl) hr
      rw [ht] at k3
      exact ⟨k1, k2, fun q => ⟨data, .inl hdata, k3 q⟩⟩
    · exact triv (.inl hr.symm)
  | error x =>
    obtain ⟨y, hy, rfl⟩ := g3 x hs
    by_cases hnf : x = .notFound
    · subst hnf
      cases hy
      dsimp only at hr
      rw [if_pos (by decide)] at hr
      have hnew : enc c!"new" = c!"new" := u.ascii_all _ (by decide)
      obtain ⟨k1, k2, k3⟩ := key _ _ (by rw [hnew]; decide) hr
      exact ⟨k1, k2, fun q => ⟨[], .inr ⟨get_notFound hs, rfl⟩, k3 q⟩⟩
    · cases hy <;> first
        | exact absurd rfl hnf
        | (dsimp only at hr; rw [if_neg (by decide)] at hr; exact triv (.inl hr.symm))
        | (dsimp only at hr; exact triv (.inr hr.symm))

theorem replace_not_died {h : Host} {c : AdminConf} {d : Disk} {a : Area} {n : Str} {t x : Bytes} :
    ((Call.replace a n t x).run h c d).2 ≠ .error .died := by
  intro hr
  unfold Call.run handleAdmin at hr
  cases hp : adminPlan h c d (Call.replace a n t x).service (Call.replace a n t x).arg (Call.replace a n t x).payload with
  | ok plan =>
    rw [hp] at hr
    obtain ⟨reply, ws⟩ := plan
    dsimp only at hr
    split at hr <;> cases hr
  | error e =>
    rw [hp] at hr
    cases hr
    rw [plan_replace] at hp
    split at hp
    · cases hp
    · unfold locked at hp
      split at hp
      · cases h1 : adminPath d (Call.replace a n t x).arg (a.dir c) a.suffix with
        | error e =>
          rw [h1] at hp
          cases hp
          unfold adminPath at h1
          dsimp only at h1
          split at h1
          · cases h1
          · split at h1 <;> cases h1
        | ok p =>
          rw [h1] at hp
          have hp : adminReplace h c d p (Call.replace a n t x).payload = .error .died := hp
          unfold adminReplace at hp
          split at hp
          · cases hp
          · rename_i token data _
            cases h2 : checkToken h d p token with
            | error e =>
              rw [h2] at hp
              cases hp
              unfold checkToken at h2
              split at h2
              · cases h2
              · split at h2
                · split at h2 <;> cases h2
                · split at h2
                  · cases h2
                  · split at h2
                    · cases h2
                    · split at h2
                      · cases h2
                      · split at h2 <;> cases h2
            | ok _ =>
              rw [h2] at hp
              cases h3 : h.decode data with
              | none => simp only [h3] at hp; cases hp
              | some text =>
                simp only [h3] at hp
                cases h4 : adminValidate h c d p (some text) with
                | ok _ => rw [h4] at hp; cases hp
                | error e =>
                  rw [h4] at hp
                  cases hp
                  unfold adminValidate at h4
                  split at h4 <;> cases h4
      · cases hp

/-- What the editor starts with: the content and token of the file, or nothing and `new`. -/
def StartsWith (h : Host) (c : AdminConf) (d : Disk) (a : Area) (n : Str) (start : Bytes) (token : Bytes) : Prop :=
  ((Call.get a n).run h c d).2 = .ok (some (tokenOf h start ++ '\n' :: start)) ∧ token = tokenOf h start ∨
  ((Call.get a n).run h c d).2 = .error .notFound ∧ start = [] ∧ token = c!"new"

/-- **C79.** The editor gets the file or finds that there is none, the user edits until the linter accepts, and then
exactly this is what happens: the Replace with the token. If the server refuses it, the editor fails and says so. -/
theorem C79_saves (h : Host) (enc : Str → Bytes) (u : Utf8 h enc) (hh : HexHash h) (msg : AdminErr → Str) (log : Str)
    (c : AdminConf) (d : Disk) (inDom0 : Option Bool) (run : Disk → List Str → Bytes → Disk × ProcEnd) (k : Nat)
    (edits : List Edit) (replies : List Str) (change : Disk → Disk) (a : Area) (n : Str) (start b : Bytes) (text : Str)
    (token : Bytes) (hcar : EditorReaches inDom0 run (adminMain h enc msg log c) a n)
    (hstart : StartsWith h c d a n start token) (htext : ∃ s, enc s = start) (hed : Edited enc a edits replies start b)
    (hb : enc text = b) (hl : ∀ ed ∈ edits, ∀ t s, ed t = (0, some (enc s)) → NoLoop a s) :
    (managePolicy h enc inDom0 run (k + 3) edits replies change n a.isInclude d).1 =
      ((Call.replace a n token (enc (universalNewlines text))).run h c (change d)).1 ∧
    (∀ r, ((Call.replace a n token (enc (universalNewlines text))).run h c (change d)).2 = .ok r →
      (managePolicy h enc inDom0 run (k + 3) edits replies change n a.isInclude d).2 = .saved) ∧
    (∀ x, ((Call.replace a n token (enc (universalNewlines text))).run h c (change d)).2 = .error x →
      (∀ y, x ≠ .internal y) → (managePolicy h enc inDom0 run (k + 3) edits replies change n a.isInclude d).2 = .failed) := by
  have hlint := editLint_complete u k hed hl
  have hdec : h.decode b = some text := (u.decode_iff _ _).2 hb
  obtain ⟨g1, g2, g3⟩ := C78_get h enc u hh msg log c d inDom0 run a n hcar.get
  have key : ∀ tok, enc tok = token →
      (editorSave h enc inDom0 run (k + 3) edits replies n a.isInclude start tok (change d)).1 =
      ((Call.replace a n token (enc (universalNewlines text))).run h c (change d)).1 ∧
    (∀ r, ((Call.replace a n token (enc (universalNewlines text))).run h c (change d)).2 = .ok r →
      (editorSave h enc inDom0 run (k + 3) edits replies n a.isInclude start tok (change d)).2 = .saved) ∧
    (∀ x, ((Call.replace a n token (enc (universalNewlines text))).run h c (change d)).2 = .error x →
      (∀ y, x ≠ .internal y) → (editorSave h enc inDom0 run (k + 3) edits replies n a.isInclude start tok (change d)).2 = .failed) := by
    rintro tok rfl
    unfold editorSave
    rw [hlint]
    dsimp only
    rw [hdec]
    dsimp only
    obtain ⟨r1, r2, r3⟩ := C78_replace h enc u msg log c (change d) inDom0 run a n (universalNewlines text) tok hcar.replace
    rcases hx : policyReplace h enc inDom0 run (change d) n (universalNewlines text) tok a.isInclude with ⟨d1, res⟩
    rw [hx] at r1 r2 r3
    dsimp only at r1 r2 r3
    rw [← r1]
    cases hs : ((Call.replace a n (enc tok) (enc (universalNewlines text))).run h c (change d)).2 with
    | ok r =>
      have := r2 r hs
      subst this
      exact ⟨rfl, fun _ _ => rfl, fun x hx => by cases hx⟩
    | error x =>
      obtain ⟨y, hy, rfl⟩ := r3 x hs
      refine ⟨?_, (fun r hr => by cases hr), ?_⟩
      · cases hy <;> rfl
      · intro x' hx' h1
        cases hx'
        by_cases hd : x = .died
        · subst hd
          exfalso
          exact replace_not_died hs
        · cases hy <;> first | rfl | exact absurd rfl (h1 _) | exact absurd rfl hd
  rcases hg : policyGet h enc inDom0 run d n a.isInclude with ⟨d1, res⟩
  unfold managePolicy
  rw [hg] at g1 g2 g3 ⊢
  dsimp only at g1 g2 g3
  subst g1
  rcases hstart with ⟨hs, rfl⟩ | ⟨hs, rfl, rfl⟩
  · have hrun : (Call.get a n).run h c d1 = (((Call.get a n).run h c d1).1, .ok (some (tokenOf h start ++ '\n' :: start))) :=
      Prod.ext rfl hs
    obtain ⟨-, -, -, -, -, data, hdata, hrep⟩ := get_run.1 hrun
    have hsame : start = data := by
      simp only [Option.some.injEq] at hrep
      have k1 := splitOnce_append' (t := tokenOf h start) (x := start) (fun hm => (hh.ascii start _ hm).2.1 rfl)
      have k2 := splitOnce_append' (t := tokenOf h data) (x := data) (fun hm => (hh.ascii data _ hm).2.1 rfl)
      rw [hrep, k2] at k1
      simp only [Option.some.injEq, Prod.mk.injEq] at k1
      exact k1.2.symm
    subst hsame
    obtain ⟨data, hdata', ⟨s, hs', rfl⟩ | ⟨hno, rfl⟩⟩ := g2 _ hs
    · rw [hdata] at hdata'
      cases hdata'
      dsimp only
      rw [hs']
      exact key _ (u.ascii_all _ fun ch hc => (hh.ascii start ch hc).1)
    · rw [hdata] at hdata'
      cases hdata'
      obtain ⟨s, hs'⟩ := htext
      exact absurd hs' (hno s)
  · obtain ⟨y, hy, rfl⟩ := g3 _ hs
    cases hy
    dsimp only
    rw [if_pos (by decide)]
    exact key _ (u.ascii_all _ (by decide))

theorem replace_token_run {h : Host} {c : AdminConf} {d : Disk} {a : Area} {n : Str} {t x : Bytes} (ht : '\n' ∉ t)
    (hdir : d.entries (d.resolve c.policy) ≠ none) (hn : AdminName n) (hp : (fileOf c d a n).dropLast = a.dir c)
    (hne : fileOf c d a n ≠ []) (htok : checkToken h d (fileOf c d a n) t = .error .token) :
    (Call.replace a n t x).run h c d = (d, .error .token) := by
  unfold Call.run handleAdmin
  have hplan : adminPlan h c d (Call.replace a n t x).service (Call.replace a n t x).arg (Call.replace a n t x).payload =
      .error .token := by
    have h1 : (Call.replace a n t x).arg = n := rfl
    have h2 : (Call.replace a n t x).payload = t ++ '\n' :: x := rfl
    rw [plan_replace, h1, h2, adminName_rpc hn, if_neg (by simp)]
    have h3 : adminPath d n (a.dir c) a.suffix = .ok (fileOf c d a n) := adminPath_ok.2 ⟨hn, rfl, hp, hne⟩
    unfold locked
    cases hd : d.entries (d.resolve c.policy) with
    | none => exact absurd hd hdir
    | some _ =>
      rw [h3]
      show adminReplace h c d (fileOf c d a n) (t ++ '\n' :: x) = .error .token
      unfold adminReplace
      rw [splitOnce_append' ht]
      dsimp only
      rw [htok]
      rfl
  rw [hplan]

/-- Since the editor read the file someone else has changed it, removed it, or created it. -/
def ChangedSince (h : Host) (c : AdminConf) (d d' : Disk) (a : Area) (n : Str) : Prop :=
  (∃ start, ((Call.get a n).run h c d).2 = .ok (some (tokenOf h start ++ '\n' :: start)) ∧
    ((∃ cur, d'.content (fileOf c d' a n) = some cur ∧ h.hash cur ≠ h.hash start) ∨
      d'.exists (fileOf c d' a n) = false)) ∨
  ((Call.get a n).run h c d).2 = .error .notFound ∧ d'.exists (fileOf c d' a n) = true

/-- **C79.** A change by someone else while the user is editing is not lost: the editor fails and leaves everything as it
is now. -/
theorem C79_conflict (h : Host) (enc : Str → Bytes) (u : Utf8 h enc) (hh : HexHash h) (msg : AdminErr → Str) (log : Str)
    (c : AdminConf) (d : Disk) (inDom0 : Option Bool) (run : Disk → List Str → Bytes → Disk × ProcEnd) (k : Nat)
    (edits : List Edit) (replies : List Str) (change : Disk → Disk) (a : Area) (n : Str) (start b : Bytes)
    (token : Bytes) (hcar : EditorReaches inDom0 run (adminMain h enc msg log c) a n)
    (hstart : StartsWith h c d a n start token) (htext : ∃ s, enc s = start) (hed : Edited enc a edits replies start b)
    (hl : ∀ ed ∈ edits, ∀ t s, ed t = (0, some (enc s)) → NoLoop a s)
    (hdir : (change d).entries ((change d).resolve c.policy) ≠ none) (hn : AdminName n)
    (hp : (fileOf c (change d) a n).dropLast = a.dir c) (hne : fileOf c (change d) a n ≠ [])
    (hch : ChangedSince h c d (change d) a n) :
    managePolicy h enc inDom0 run (k + 3) edits replies change n a.isInclude d = (change d, .failed) := by
  have htextb : ∃ text, enc text = b := by
    clear hcar hstart htext hl hdir hn hp hne hch
    induction hed with
    | clean _ hc => obtain ⟨t, ht, -⟩ := hc; exact ⟨t, ht⟩
    | again _ _ _ _ _ ih => exact ih
  obtain ⟨text, hb⟩ := htextb
  have hex : ∀ cur, (change d).content (fileOf c (change d) a n) = some cur →
      (change d).exists (fileOf c (change d) a n) = true := by
    intro cur hc
    unfold Disk.exists
    rw [hc]; rfl
  have htok : '\n' ∉ token ∧ checkToken h (change d) (fileOf c (change d) a n) token = .error .token := by
    rcases hstart with ⟨hs, rfl⟩ | ⟨hs, rfl, rfl⟩
    · refine ⟨fun hm => (hh.ascii start _ hm).2.1 rfl, ?_⟩
      have ha : tokenOf h start ≠ c!"any" := by unfold tokenOf; simp
      have hnw : tokenOf h start ≠ c!"new" := by unfold tokenOf; simp
      unfold checkToken
      rw [if_neg (by simpa using ha), if_neg (by simpa using hnw),
        if_neg (by rw [Bool.not_eq_true', Bool.eq_false_iff, ne_eq, not_not, startsWith_iff]; exact ⟨_, rfl⟩)]
      rcases hch with ⟨start', hs', hch⟩ | ⟨hs', -⟩
      · have hsame : start' = start := by
          rw [hs] at hs'
          simp only [Except.ok.injEq, Option.some.injEq] at hs'
          have k1 := splitOnce_append' (t := tokenOf h start) (x := start) (fun hm => (hh.ascii start _ hm).2.1 rfl)
          have k2 := splitOnce_append' (t := tokenOf h start') (x := start') (fun hm => (hh.ascii start' _ hm).2.1 rfl)
          rw [hs', k2] at k1
          simp only [Option.some.injEq, Prod.mk.injEq] at k1
          exact k1.2
        subst hsame
        rcases hch with ⟨cur, hc, hne'⟩ | hno
        · rw [hex cur hc, if_neg (by simp), hc]
          dsimp only
          rw [if_neg]
          intro e
          have e : computeToken h cur = tokenOf h start' := by simpa using e
          exact hne' (List.append_cancel_left (show c!"sha256:" ++ h.hash cur = c!"sha256:" ++ h.hash start' from e))
        · rw [hno, if_pos (by rfl)]
      · rw [hs] at hs'; cases hs'
    · refine ⟨by decide, ?_⟩
      rcases hch with ⟨start', hs', -⟩ | ⟨-, hx⟩
      · rw [hs] at hs'; cases hs'
      · unfold checkToken
        rw [if_neg (by decide), if_pos (by decide), hx, if_pos rfl]
  have hrun := replace_token_run (x := enc (universalNewlines text)) htok.1 hdir hn hp hne htok.2
  obtain ⟨s1, -, s3⟩ := C79_saves h enc u hh msg log c d inDom0 run k edits replies change a n start b text token hcar hstart
    htext hed hb hl
  rw [hrun] at s1 s3
  exact Prod.ext s1 (s3 .token rfl (fun y => by simp))

/-- **C79.** Which file is edited: `NAME`, `NAME.policy`, `include/NAME` or `include/NAME.policy`. -/
theorem C79_name (file : Str) (a : Area) (n : Str) : editorFile file = some (n, a.isInclude) ↔ EditorName file a n := by
  have hall : ∀ s : Str, s.all rpcNameChar = true ↔ ∀ ch ∈ s, NameChar ch := by
    intro s
    rw [List.all_eq_true]
    exact ⟨fun h x hx => (nameChar_iff x).1 (h x hx), fun h x hx => (nameChar_iff x).2 (h x hx)⟩
  have hslash : ¬ NameChar '/' := by rw [← nameChar_iff]; decide
  have hpol : ∀ ch ∈ c!".policy", NameChar ch := by
    intro ch hc
    rw [← nameChar_iff]
    have : ∀ x ∈ c!".policy", rpcNameChar x = true := by decide
    exact this ch hc
  have strip : ∀ (s : Str), (if endsWith c!".policy" s then s.take (s.length - 7) else s) = n ↔
      s = n ++ c!".policy" ∨ s = n ∧ ¬ c!".policy" <:+ n := by
    intro s
    by_cases he : endsWith c!".policy" s = true
    · rw [if_pos he]
      obtain ⟨t, rfl⟩ := endsWith_iff.1 he
      have hl : (t ++ c!".policy").length - 7 = t.length := by simp
      rw [hl, List.take_left]
      constructor
      · rintro rfl; exact .inl rfl
      · rintro (h | ⟨rfl, h⟩)
        · exact List.append_cancel_right h
        · exact absurd ⟨t, rfl⟩ h
    · rw [if_neg he]
      rw [endsWith_iff] at he
      constructor
      · rintro rfl
        exact .inr ⟨rfl, fun ⟨t, ht⟩ => he ⟨t, ht.symm⟩⟩
      · rintro (h | ⟨rfl, -⟩)
        · exact absurd ⟨n, h⟩ he
        · rfl
  have body : ∀ (s : Str) (inc : Bool), ((if !s.all rpcNameChar then none else
      some (if endsWith c!".policy" s then s.take (s.length - 7) else s, inc)) = some (n, a.isInclude)) ↔
      (∀ ch ∈ s, NameChar ch) ∧ (s = n ++ c!".policy" ∨ s = n ∧ ¬ c!".policy" <:+ n) ∧ inc = a.isInclude := by
    intro s inc
    by_cases hs : s.all rpcNameChar = true
    · rw [hs, if_neg (by simp), Option.some.injEq, Prod.mk.injEq, strip]
      exact ⟨fun h => ⟨(hall s).1 hs, h⟩, fun h => h.2⟩
    · rw [Bool.not_eq_true] at hs
      rw [hs, if_pos (by simp)]
      constructor
      · intro h; cases h
      · rintro ⟨h, -⟩
        rw [(hall s).2 h] at hs; cases hs
  unfold editorFile
  dsimp only
  by_cases hi : startsWith c!"include/" file = true
  · rw [hi, if_pos rfl, body]
    obtain ⟨s, rfl⟩ := startsWith_iff.1 hi
    rw [show (c!"include/" ++ s).drop 8 = s from rfl]
    constructor
    · rintro ⟨h1, h2, h3⟩
      cases a with
      | policy => cases h3
      | incl =>
        rcases h2 with rfl | ⟨rfl, h2⟩
        · exact .inclSuffix fun ch hc => h1 ch (by simp [hc])
        · exact .incl h1 h2
    · intro h
      generalize hz : c!"include/" ++ s = z at h
      cases h with
      | policy h1 h2 => exact absurd (h1 '/' (by rw [← hz]; simp)) hslash
      | suffix h1 =>
        exfalso
        have : ∀ ch ∈ n ++ c!".policy", NameChar ch := fun ch hc => by
          rw [List.mem_append] at hc
          exact hc.elim (h1 ch) (hpol ch)
        exact hslash (this '/' (by rw [← hz]; simp))
      | incl h1 h2 =>
        have := List.append_cancel_left hz
        subst this
        exact ⟨h1, .inr ⟨rfl, h2⟩, rfl⟩
      | inclSuffix h1 =>
        have := List.append_cancel_left hz
        subst this
        exact ⟨fun ch hc => by rw [List.mem_append] at hc; exact hc.elim (h1 ch) (hpol ch), .inl rfl, rfl⟩
  · rw [if_neg hi, body]
    rw [Bool.not_eq_true] at hi
    rw [hi]
    constructor
    · rintro ⟨h1, h2, h3⟩
      cases a with
      | incl => cases h3
      | policy =>
        rcases h2 with rfl | ⟨rfl, h2⟩
        · exact .suffix fun ch hc => h1 ch (by simp [hc])
        · exact .policy h1 h2
    · intro h
      cases h with
      | policy h1 h2 => exact ⟨h1, .inr ⟨rfl, h2⟩, rfl⟩
      | suffix h1 => exact ⟨fun ch hc => by rw [List.mem_append] at hc; exact hc.elim (h1 ch) (hpol ch), .inl rfl, rfl⟩
      | incl h1 h2 => rw [startsWith_iff.2 ⟨_, rfl⟩] at hi; cases hi
      | inclSuffix h1 => rw [startsWith_iff.2 ⟨_, rfl⟩] at hi; cases hi

/-- **C79.** The command line: any other name is refused before anything is done; without a name it is `30-user`. -/
theorem C79_main {σ : Type} (h : Host) (enc : Str → Bytes) (inDom0 : Option Bool) (run : σ → List Str → Bytes → σ × ProcEnd)
    (n : Nat) (edits : List Edit) (replies : List Str) (change : σ → σ) (file : Option Str) (st : σ) :
    (∀ a name, EditorName (file.getD c!"30-user") a name → editorMain h enc inDom0 run n edits replies change file st =
      managePolicy h enc inDom0 run n edits replies change name a.isInclude st) ∧
    ((∀ a name, ¬ EditorName (file.getD c!"30-user") a name) →
      editorMain h enc inDom0 run n edits replies change file st = (st, .failed)) := by
  unfold editorMain
  constructor
  · intro a name hn
    rw [(C79_name _ a name).2 hn]
  · intro hn
    cases he : editorFile (file.getD c!"30-user") with
    | none => rfl
    | some r =>
      obtain ⟨name, incl⟩ := r
      exfalso
      cases incl with
      | true => exact hn .incl name ((C79_name _ .incl name).1 he)
      | false => exact hn .policy name ((C79_name _ .policy name).1 he)

/-! ### A concrete case -/

/-- Calls that reach the server. -/
def editorRun : Disk → List Str → Bytes → Disk × ProcEnd := fun d cmd input =>
  adminMain clientHost id (fun _ => c!"no") c!"log" exampleConf d (cmd.getLast?.getD []) input

theorem editorRun_reaches : EditorReaches (some false) editorRun
    (adminMain clientHost id (fun _ => c!"no") c!"log" exampleConf) .policy c!"a" :=
  ⟨⟨_, rfl, by decide, fun _ _ => rfl⟩, ⟨_, rfl, by decide, fun _ _ => rfl⟩⟩

/-- First the user writes a line with an error, then a correct file. -/
def exampleEdits : List Edit := [fun _ => (0, some c!"junk\n"), fun _ => (0, some c!"* * @anyvm @anyvm allow\n")]

set_option maxRecDepth 20000 in
example : (managePolicy clientHost id (some false) editorRun 9 exampleEdits [c!"?", c!"e"] id c!"a" false diskA).2 = .saved ∧
    (managePolicy clientHost id (some false) editorRun 9 exampleEdits [c!"?", c!"e"] id c!"a" false diskA).1.content
      [c!"p", c!"a.policy"] = some c!"* * @anyvm @anyvm allow\n" := ⟨by rfl, by rfl⟩

set_option maxRecDepth 20000 in
example : (managePolicy clientHost id (some false) editorRun 9 exampleEdits [c!"?", c!"q"] id c!"a" false diskA).2 = .quit := by
  rfl

set_option maxRecDepth 20000 in
example : (managePolicy clientHost id (some false) editorRun 9 exampleEdits [c!"?", c!"e"] (fun d => d.removeFile
    [c!"p", c!"a.policy"]) c!"a" false diskA).2 = .failed := by rfl

set_option maxRecDepth 20000 in
example : StartsWith clientHost exampleConf diskA .policy c!"a" c!"* * @anyvm @anyvm deny" c!"sha256:0" := .inl ⟨rfl, rfl⟩

set_option maxRecDepth 20000 in
example : ChangedSince clientHost exampleConf diskA (diskA.removeFile [c!"p", c!"a.policy"]) .policy c!"a" :=
  .inl ⟨c!"* * @anyvm @anyvm deny", by rfl, .inr (by rfl)⟩

set_option maxRecDepth 20000 in
/-- **C79.** Files to be included with `!include` cannot be edited: the linter takes each for one of `!include-service`. -/
theorem C79_include_violation : (managePolicy clientHost id (some false) editorRun 9
    [fun _ => (0, some c!"* * @anyvm @anyvm allow\n")] [c!"q"] id c!"a" true diskA).2 = .quit ∧
    lintFile false 9 c!"* * @anyvm @anyvm allow\n" = .ok [] := ⟨by rfl, by rfl⟩

end Qrexec
