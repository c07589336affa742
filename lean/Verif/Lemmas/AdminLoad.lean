import Verif.Props.Admin
import Verif.Props.Load

namespace Qrexec
open Spec

/-! ### Line ends -/

theorem content_of_words {l1 l2 : List Str}
    (h : List.Forall₂ (fun a b => splitWs a = splitWs b) l1 l2) :
    ∃ c, Content l1 c ∧ Content l2 c := by
  induction h with
  | nil => exact ⟨[], .nil, .nil⟩
  | @cons a b l1 l2 hab _ ih =>
    obtain ⟨c, h1, h2⟩ := ih
    have ha := words_splitWs a
    have hb := words_splitWs b
    rw [← hab] at hb
    cases hw : splitWs a with
    | nil => rw [hw] at ha hb; exact ⟨c, .blank ha h1, .blank hb h2⟩
    | cons w ws =>
      rw [hw] at ha hb
      by_cases hc : w.head? = some '#'
      · obtain ⟨w', rfl⟩ : ∃ w', w = '#' :: w' := by
          cases w with
          | nil => simp at hc
          | cons x xs => simp only [List.head?_cons, Option.some.injEq] at hc; exact ⟨xs, by rw [hc]⟩
        exact ⟨c, .comment ha h1, .comment hb h2⟩
      · exact ⟨_, .line ha hc h1, .line hb hc h2⟩

theorem splitOn_ne_nil (sep : Char) (s : Str) : splitOn sep s ≠ [] := by
  cases s with
  | nil => simp [splitOn]
  | cons c cs =>
    simp only [splitOn]
    split
    · simp
    · split <;> simp

/-- Prepending a character that is not the separator changes the first piece only. -/
theorem splitOn_cons_other {sep c : Char} (h : c ≠ sep) (cs : Str) :
    ∃ w ws, splitOn sep cs = w :: ws ∧ splitOn sep (c :: cs) = (c :: w) :: ws := by
  cases hs : splitOn sep cs with
  | nil => exact absurd hs (splitOn_ne_nil sep cs)
  | cons w ws => exact ⟨w, ws, rfl, by simp only [splitOn, if_neg h, hs]⟩

theorem splitOn_cons_eq (sep : Char) (cs : Str) : splitOn sep (sep :: cs) = [] :: splitOn sep cs := by
  simp [splitOn]

/-- Pieces that differ by white space at the end. -/
def SameButGap (a b : Str) : Prop := ∃ g, a = b ++ g ∧ ∀ c ∈ g, isSpace c = true

theorem sameButGap_words {a b : Str} (h : SameButGap a b) : splitWs a = splitWs b := by
  obtain ⟨g, rfl, hg⟩ := h
  exact splitWs_of_words (words_append_gap (words_splitWs b) hg)

theorem crlf_tail {c : Char} {cs : Str} (h : CrLfOnly (c :: cs)) : CrLfOnly cs := by
  intro pre post he
  exact h (c :: pre) post (by rw [he]; rfl)

theorem universal_lines (text : Str) (h : CrLfOnly text) :
    List.Forall₂ SameButGap (splitOn '\n' text) (splitOn '\n' (universalNewlines text)) := by
  induction text using universalNewlines.induct with
  | case1 => exact .cons ⟨[], rfl, by simp⟩ .nil
  | case2 cs ih =>
    have ih := ih (crlf_tail (crlf_tail h))
    simp only [universalNewlines]
    obtain ⟨w, ws, h1, h2⟩ := splitOn_cons_other (sep := '\n') (c := '\r') (by decide) ('\n' :: cs)
    rw [h2]
    rw [splitOn_cons_eq] at h1 ⊢
    cases h1
    exact .cons ⟨['\r'], rfl, by decide⟩ ih
  | case3 cs hne ih =>
    exfalso
    have := h [] cs rfl
    cases cs with
    | nil => simp at this
    | cons x xs =>
      simp only [List.head?_cons, Option.some.injEq] at this
      exact hne xs (by rw [this])
  | case4 c cs h1 h2 ih =>
    have ih := ih (crlf_tail h)
    have hu : universalNewlines (c :: cs) = c :: universalNewlines cs := by
      rw [universalNewlines]
      · exact h1
      · exact h2
    rw [hu]
    by_cases hn : c = '\n'
    · subst hn
      rw [splitOn_cons_eq, splitOn_cons_eq]
      exact .cons ⟨[], rfl, by simp⟩ ih
    · obtain ⟨w, ws, e1, e2⟩ := splitOn_cons_other hn cs
      obtain ⟨v, vs, e3, e4⟩ := splitOn_cons_other hn (universalNewlines cs)
      rw [e2, e4]
      rw [e1, e3] at ih
      cases ih with
      | cons hab hr =>
        obtain ⟨g, rfl, hg⟩ := hab
        exact .cons ⟨g, rfl, hg⟩ hr

/-- A text read through `io.StringIO` and through a file. -/
theorem crlf_same {text : Str} (h : CrLfOnly text) (p : Path) :
    SameOpened (stringIOLines text, p) (fileLines text, p) :=
  ⟨rfl, content_of_words ((universal_lines text h).imp fun _ _ => sameButGap_words)⟩

/-! ### Loading again after a change -/

/-- It loads without an exception. -/
def Loads (x : Except Err (List Rule)) : Prop := ∃ rules, x = .ok rules

theorem loads_collect {α : Type} {f : α → Except Err (List Rule)} {l : List α} :
    Loads (collectRules f l) ↔ ∀ x ∈ l, Loads (f x) := by
  constructor
  · rintro ⟨rules, h⟩ x hx
    cases hf : f x with
    | ok r => exact ⟨r, rfl⟩
    | error e =>
      obtain ⟨e', he⟩ := collectRules_error_of hx hf
      rw [he] at h
      simp at h
  · intro h
    cases hc : collectRules f l with
    | ok r => exact ⟨r, rfl⟩
    | error e =>
      obtain ⟨x, hx, hf⟩ := collectRules_error hc
      obtain ⟨r, hr⟩ := h x hx
      rw [hf] at hr
      simp at hr

theorem loads_bind {α : Type} {x : Except Err α} {f : α → Except Err (List Rule)} :
    Loads (x >>= f) ↔ ∃ a, x = .ok a ∧ Loads (f a) := by
  cases x with
  | error e => simp [Loads, bind, Except.bind]
  | ok a => simp [Loads, bind, Except.bind]

/-- Whatever opens in the first loader opens, with the same content, in the second. -/
def OpensToo (op1 op2 : Str → Except Err Opened) : Prop :=
  ∀ i f, op1 i = .ok f → ∃ g, op2 i = .ok g ∧ SameOpened f g

theorem sameRes_refl (x : Except Err Opened) : SameRes SameOpened x x := by
  cases x with
  | error e => exact Or.inl ⟨e, rfl, rfl⟩
  | ok a => exact Or.inr ⟨a, a, rfl, rfl, sameOpened_refl a⟩

theorem includeService_loads {op1 op2 : Str → Except Err Opened} (hop : OpensToo op1 op2)
    {n : Nat} (ih : ∀ s a f, Loads (loadService op1 n s a f) → Loads (loadService op2 n s a f))
    {s a : Option Str} {i : Str}
    (h : Loads (includeService op1 (loadService op1 n) s a i)) :
    Loads (includeService op2 (loadService op2 n) s a i) := by
  unfold includeService at *
  obtain ⟨sa, hsa, h⟩ := loads_bind.1 h
  obtain ⟨f, hf, h⟩ := loads_bind.1 h
  obtain ⟨g, hg, hfg⟩ := hop i f hf
  refine loads_bind.2 ⟨sa, hsa, loads_bind.2 ⟨g, hg, ?_⟩⟩
  rw [← loadService_same (fun i => sameRes_refl (op2 i)) n _ _ f g hfg]
  exact ih _ _ _ h

theorem loadService_loads {op1 op2 : Str → Except Err Opened} (hop : OpensToo op1 op2) (n : Nat) :
    ∀ s a f, Loads (loadService op1 n s a f) → Loads (loadService op2 n s a f) := by
  induction n with
  | zero => intro s a f h; exact h
  | succ n ih =>
    intro s a f h
    simp only [loadService] at h ⊢
    rw [loads_collect] at h ⊢
    intro line hline
    have h := h line hline
    unfold serviceLine at h ⊢
    simp only at h ⊢
    split
    · exact ⟨[], rfl⟩
    · rename_i hc
      rw [if_neg hc] at h
      split
      · rename_i hb
        rw [if_pos hb] at h
        unfold serviceDirective at h ⊢
        split
        · rename_i d inc he
          rw [he] at h
          simp only at h
          split
          · rename_i hd
            rw [if_pos hd] at h
            exact includeService_loads hop ih h
          · rename_i hd
            rw [if_neg hd] at h
            exact h
        · rename_i hne
          split at h
          · rename_i he; exact absurd he (hne _ _)
          · exact h
      · rename_i hb
        rw [if_neg hb] at h
        exact h

/-- The second loader opens whatever the first does. -/
structure LoadsToo (e1 e2 : LoadEnv) : Prop where
  openFile : OpensToo e1.openFile e2.openFile
  openDir : ∀ i l, e1.openDir i = .ok l → (∀ x ∈ l, ∃ f, x = .ok f) →
    ∃ l', e2.openDir i = .ok l' ∧ ∀ y ∈ l', ∃ f ∈ l, ∃ o g, f = .ok o ∧ y = .ok g ∧ SameOpened o g
  compat : ∀ n, Loads (e1.compat n) → Loads (e2.compat n)

theorem sameEnv_refl (e : LoadEnv) : SameEnv e e where
  openFile i := sameRes_refl _
  openDir i := by
    cases e.openDir i with
    | error err => exact Or.inl ⟨err, rfl, rfl⟩
    | ok l =>
      refine Or.inr ⟨l, l, rfl, rfl, ?_⟩
      induction l with
      | nil => exact .nil
      | cons x xs ih => exact .cons (sameRes_refl x) ih
  compat _ := rfl

theorem fileDirective_loads {e1 e2 : LoadEnv} (he : LoadsToo e1 e2) {n : Nat}
    (ih : ∀ f, Loads (loadFile e1 n f) → Loads (loadFile e2 n f)) {ws : List Str}
    (h : Loads (fileDirective e1 n (loadFile e1 n) ws)) :
    Loads (fileDirective e2 n (loadFile e2 n) ws) := by
  cases ws with
  | nil => exact h
  | cons d ps =>
    simp only [fileDirective] at h ⊢
    by_cases h1 : (d == c!"!include") = true
    · rw [if_pos h1] at h ⊢
      split
      · obtain ⟨f, hf, h⟩ := loads_bind.1 h
        obtain ⟨g, hg, hfg⟩ := he.openFile _ f hf
        refine loads_bind.2 ⟨g, hg, ?_⟩
        rw [← loadFile_same (sameEnv_refl e2) n f g hfg]
        exact ih f h
      · rename_i hne
        split at h
        · exact absurd rfl (hne _)
        · exact h
    · rw [if_neg h1] at h ⊢
      by_cases h2 : (d == c!"!include-dir") = true
      · rw [if_pos h2] at h ⊢
        split
        · obtain ⟨l, hl, h⟩ := loads_bind.1 h
          rw [loads_collect] at h
          have hall : ∀ x ∈ l, ∃ f, x = .ok f ∧ Loads (loadFile e1 n f) := by
            intro x hx
            exact loads_bind.1 (h x hx)
          obtain ⟨l', hl', hy⟩ := he.openDir _ l hl
            (fun x hx => by obtain ⟨f, hf, _⟩ := hall x hx; exact ⟨f, hf⟩)
          refine loads_bind.2 ⟨l', hl', loads_collect.2 fun y hym => ?_⟩
          obtain ⟨x, hx, o, g, rfl, rfl, hog⟩ := hy y hym
          obtain ⟨f, hf, hload⟩ := hall _ hx
          cases hf
          refine loads_bind.2 ⟨g, rfl, ?_⟩
          rw [← loadFile_same (sameEnv_refl e2) n _ g hog]
          exact ih _ hload
        · rename_i hne
          split at h
          · exact absurd rfl (hne _)
          · exact h
      · rw [if_neg h2] at h ⊢
        by_cases h3 : (d == c!"!include-service") = true
        · rw [if_pos h3] at h ⊢
          split
          · exact includeService_loads he.openFile (loadService_loads he.openFile n) h
          · rename_i hne
            split at h
            · exact absurd rfl (hne _ _ _)
            · exact h
        · rw [if_neg h3] at h ⊢
          by_cases h4 : (d == c!"!compat-4.0") = true
          · rw [if_pos h4] at h ⊢
            split
            · exact he.compat n h
            · rename_i hne
              split at h
              · exact absurd rfl hne
              · exact h
          · rw [if_neg h4] at h ⊢
            exact h

theorem loadFile_loads {e1 e2 : LoadEnv} (he : LoadsToo e1 e2) (n : Nat) :
    ∀ f, Loads (loadFile e1 n f) → Loads (loadFile e2 n f) := by
  induction n with
  | zero => intro f h; exact h
  | succ n ih =>
    intro f h
    simp only [loadFile] at h ⊢
    rw [loads_collect] at h ⊢
    intro line hline
    have h := h line hline
    unfold fileLine at h ⊢
    simp only at h ⊢
    split
    · exact ⟨[], rfl⟩
    · rename_i hc
      rw [if_neg hc] at h
      split
      · rename_i hb
        rw [if_pos hb] at h
        exact fileDirective_loads he ih h
      · rename_i hb
        rw [if_neg hb] at h
        exact h

/-! ### `!compat-4.0` reads the legacy files only -/

theorem loadService_agree {f g : FS} {legacy : Path} (hres : f.resolve = g.resolve)
    (hfile : ∀ q, LegacyReads f legacy q → f.file q = g.file q) (n : Nat) :
    ∀ s a text p, LegacyReads f legacy p → f.file p = some (.ok text) →
      loadService (resolveFilepath f legacy) n s a (fileLines text, p) =
      loadService (resolveFilepath g legacy) n s a (fileLines text, p) := by
  induction n with
  | zero => intros; rfl
  | succ n ih =>
    intro s a text p hp htext
    simp only [loadService]
    have key : ∀ line ∈ fileLines text,
        serviceLine (resolveFilepath f legacy) (loadService (resolveFilepath f legacy) n) s a p line =
        serviceLine (resolveFilepath g legacy) (loadService (resolveFilepath g legacy) n) s a p line := by
      intro line hline
      unfold serviceLine
      simp only
      split
      · rfl
      · split
        · unfold serviceDirective
          split
          · rename_i d inc he
            split
            · rename_i hd
              have hd := beq_iff_eq.1 hd
              subst hd
              have hr : LegacyReads f legacy (f.resolve (joinPath legacy inc)) :=
                .incl hp htext hline (words_iff.2 he)
              have hop : resolveFilepath f legacy inc = resolveFilepath g legacy inc := by
                unfold resolveFilepath
                simp only
                rw [← hres, hfile _ hr]
              unfold includeService
              rw [← hop]
              cases hv : validateServiceAndArgument s a with
              | error e => rfl
              | ok sa =>
                simp only [ok_bind]
                cases hf : resolveFilepath f legacy inc with
                | error e => rfl
                | ok o =>
                  simp only [ok_bind]
                  unfold resolveFilepath at hf
                  simp only at hf
                  split at hf
                  · simp at hf
                  · rename_i r hr'
                    obtain ⟨text', ht', ho⟩ := bind_eq_ok.1 hf
                    simp only [pure_ok, Except.ok.injEq] at ho
                    rw [← ho]
                    exact ih _ _ _ _ hr (by rw [hr', ht'])
            · rfl
          · rfl
        · rfl
    have : ∀ ls : List Str, (∀ l ∈ ls, l ∈ fileLines text) →
        collectRules (serviceLine (resolveFilepath f legacy)
          (loadService (resolveFilepath f legacy) n) s a p) ls =
        collectRules (serviceLine (resolveFilepath g legacy)
          (loadService (resolveFilepath g legacy) n) s a p) ls := by
      intro ls
      induction ls with
      | nil => intro _; rfl
      | cons l ls ih2 =>
        intro hl
        simp only [collectRules]
        rw [key l (hl l (by simp)), ih2 (fun x hx => hl x (by simp [hx]))]
    exact this _ (fun _ h => h)

theorem compat40_agree {f g : FS} {legacy : Path} (hres : f.resolve = g.resolve)
    (hdir : f.dir legacy = g.dir legacy)
    (hfr : ∀ q, f.file (f.resolve q) = f.file q) (hgr : ∀ q, g.file (g.resolve q) = g.file q)
    (hfile : ∀ q, LegacyReads f legacy q → f.file q = g.file q) (n : Nat) :
    compat40 f legacy n = compat40 g legacy n := by
  have hleg : ∀ ns m, f.dir legacy = some ns → m ∈ ns →
      f.file (legacy ++ [m]) = g.file (legacy ++ [m]) := by
    intro ns m hns hm
    rw [← hfr, ← hgr, hfile _ (.file hns hm), hres]
  unfold compat40 walkCompat
  rw [← hdir]
  cases hd : f.dir legacy with
  | none => rfl
  | some ns =>
    simp only [ok_bind]
    have hfilter : ns.filter (isCompatFile f legacy) = ns.filter (isCompatFile g legacy) := by
      apply List.filter_congr
      intro m hm
      unfold isCompatFile
      rw [hleg ns m hd hm]
    rw [← hfilter]
    have hcongr : ∀ l : List (Str × Str × Str), (∀ t ∈ l, t.2.2 ∈ ns) →
        collectRules (compatBlock f legacy n) l = collectRules (compatBlock g legacy n) l := by
      intro l
      induction l with
      | nil => intro _; rfl
      | cons t ts ih =>
        intro ht
        simp only [collectRules]
        rw [ih (fun x hx => ht x (by simp [hx]))]
        have hb : compatBlock f legacy n t = compatBlock g legacy n t := by
          have hr : LegacyReads f legacy (f.resolve (legacy ++ [t.2.2])) := .file hd (ht t (by simp))
          unfold compatBlock
          simp only
          rw [← hres, ← hfile _ hr]
          cases validateServiceAndArgument (some t.1) (some t.2.1) with
          | error e => rfl
          | ok sa =>
            simp only [ok_bind]
            cases hx : f.file (f.resolve (legacy ++ [t.2.2])) with
            | none => rfl
            | some r =>
              cases r with
              | error e => rfl
              | ok text =>
                simp only [ok_bind, pure_ok]
                rw [loadService_agree hres hfile n _ _ _ _ hr hx]
        rw [hb]
    apply hcongr
    intro t ht
    rw [mem_sortBy] at ht
    obtain ⟨m, hm, rfl⟩ := List.mem_map.1 ht
    exact (List.mem_filter.1 hm).1

end Qrexec
