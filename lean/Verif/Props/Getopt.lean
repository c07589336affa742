import Verif.Spec.Getopt
import Verif.Lemmas.Exc
import Verif.Props.ServiceCmd
import Mathlib.Tactic.Tauto
import Mathlib.Tactic.SplitIfs

/-!
# C109: command lines
-/
namespace Qrexec

/-- Options are told apart by their names. -/
structure OptSpec.Ok (S : OptSpec) : Prop where
  shorts : (S.shorts.map Prod.fst).Nodup
  longs : (S.longs.map Prod.fst).Nodup
  dash : ∀ s ∈ S.shorts, s.1 ≠ '-'

theorem find_key {α β : Type} [DecidableEq α] (l : List (α × β)) (h : (l.map Prod.fst).Nodup) (a : α) (b : β) :
    (l.find? fun p => p.1 = a) = some (a, b) ↔ (a, b) ∈ l := by
  induction l with
  | nil => simp
  | cons p l ih =>
    obtain ⟨x, y⟩ := p
    rw [List.map_cons, List.nodup_cons] at h
    rw [List.find?_cons]
    by_cases hx : x = a
    · subst hx
      simp only [decide_true]
      constructor
      · intro e; cases e; simp
      · intro hm
        rcases List.mem_cons.1 hm with e | e
        · rw [e]
        · exact absurd (List.mem_map.2 ⟨(x, b), e, rfl⟩) h.1
    · simp only [hx, decide_false]
      rw [ih h.2, List.mem_cons]
      constructor
      · exact .inr
      · rintro (e | e)
        · cases e; exact absurd rfl hx
        · exact e

theorem find_key_fst {α β : Type} [DecidableEq α] {l : List (α × β)} {a : α} {p : α × β}
    (h : (l.find? fun p => p.1 = a) = some p) : p.1 = a ∧ p ∈ l := by
  exact ⟨by simpa using List.find?_some h, List.mem_of_find?_eq_some h⟩

theorem findLong_iff (S : OptSpec) (hS : S.Ok) (n : Str) (h : Bool) (v : Nat) :
    findLong S n = some (h, v) ↔ LongName S n h v := by
  unfold findLong LongName
  cases hf : S.longs.find? fun l => l.1 = n with
  | some l =>
    obtain ⟨h1, h2⟩ := find_key_fst hf
    obtain ⟨m, b⟩ := l
    subst h1
    constructor
    · intro e; cases e; exact .inl h2
    · rintro (e | ⟨e, -, -⟩)
      · rw [(find_key _ hS.longs _ _).2 e] at hf
        cases hf; rfl
      · exact absurd rfl (e _ h2)
  | none =>
    have hno : ∀ l ∈ S.longs, l.1 ≠ n := by
      intro l hl e
      have := List.find?_eq_none.1 hf l hl
      simp [e] at this
    have hnot : (n, h, v) ∉ S.longs := fun e => hno _ e rfl
    dsimp only
    cases hl : S.longs.filter fun l => n.isPrefixOf l.1 with
    | nil =>
      constructor
      · intro e; cases e
      · rintro (e | ⟨-, ⟨l, hl1, hl2⟩, -⟩)
        · exact absurd e hnot
        · have : l ∈ S.longs.filter fun l => n.isPrefixOf l.1 := List.mem_filter.2 ⟨hl1, List.isPrefixOf_iff_prefix.2 hl2⟩
          rw [hl] at this; cases this
    | cons l ls =>
      dsimp only
      have hmem : ∀ m, m ∈ l :: ls ↔ m ∈ S.longs ∧ n <+: m.1 := by
        intro m; rw [← hl, List.mem_filter, List.isPrefixOf_iff_prefix]
      constructor
      · intro e
        by_cases ha : (ls.all fun m => m.2 = l.2) = true
        · rw [if_pos ha] at e
          have e2 : l.2 = (h, v) := Option.some.inj e
          rw [← e2]
          refine .inr ⟨hno, ⟨l, (hmem l).1 (by simp)⟩, ?_⟩
          intro m hm hp
          rcases List.mem_cons.1 ((hmem m).2 ⟨hm, hp⟩) with e | e
          · rw [e]
          · exact of_decide_eq_true (List.all_eq_true.1 ha m e)
        · rw [if_neg ha] at e; cases e
      · rintro (e | ⟨-, -, e⟩)
        · exact absurd e hnot
        · have h1 := (hmem l).1 (by simp)
          have hl2 := e l h1.1 h1.2
          rw [if_pos]
          · rw [hl2]
          · apply List.all_eq_true.2
            intro m hm
            have h2 := (hmem m).1 (by simp [hm])
            simp [hl2, e m h2.1 h2.2]

theorem find_short (S : OptSpec) (hS : S.Ok) (c : Char) (b : Bool) :
    (S.shorts.find? fun s => s.1 = c).map Prod.snd = some b ↔ (c, b) ∈ S.shorts := by
  rw [← find_key _ hS.shorts c b]
  cases hf : S.shorts.find? fun s => s.1 = c with
  | none => simp
  | some p =>
    obtain ⟨x, y⟩ := p
    have := (find_key_fst hf).1
    dsimp only at this
    subst this
    simp

theorem cons_done {i : GoItem} {r : WordRes} {is : List GoItem} : r.cons i = .done is ↔ ∃ js, r = .done js ∧ is = i :: js := by
  cases r with
  | done l => simp [WordRes.cons, eq_comm]
  | needs l v => simp [WordRes.cons]

theorem cons_needs {i : GoItem} {r : WordRes} {is : List GoItem} {v : Nat} :
    r.cons i = .needs is v ↔ ∃ js, r = .needs js v ∧ is = i :: js := by
  cases r with
  | done l => simp [WordRes.cons]
  | needs l w =>
    simp only [WordRes.cons, WordRes.needs.injEq]
    constructor
    · rintro ⟨rfl, rfl⟩; exact ⟨l, ⟨rfl, rfl⟩, rfl⟩
    · rintro ⟨js, ⟨rfl, rfl⟩, rfl⟩; exact ⟨rfl, rfl⟩

theorem shortWord_fwd (S : OptSpec) (hS : S.Ok) (s : Str) : s ≠ [] →
    (∀ is, shortWord S s = .done is → .bad ∉ is → ShortText S s [] is) ∧
    (∀ is v, shortWord S s = .needs is v → .bad ∉ is ∧ ∀ a, ShortText S s [a] (is ++ [.opt v (some a)])) := by
  induction s with
  | nil => intro h; exact absurd rfl h
  | cons c cs ih =>
    intro _
    rw [shortWord]
    cases hf : (S.shorts.find? fun s => s.1 = c).map Prod.snd with
    | none =>
      refine ⟨?_, ?_⟩
      · intro is h hb; cases h; exact absurd (by simp) hb
      · intro is v h; cases h
    | some b =>
      have hm := (find_short S hS c b).1 hf
      cases b with
      | true =>
        dsimp only
        by_cases hc : cs = []
        · rw [if_pos hc, hc]
          refine ⟨?_, ?_⟩
          · intro is h; cases h
          · intro is v h; cases h; exact ⟨by simp, fun a => .next c a hm⟩
        · rw [if_neg hc]
          refine ⟨?_, ?_⟩
          · intro is h _; cases h; exact .joined c cs hm hc
          · intro is v h; cases h
      | false =>
        dsimp only
        by_cases hc : cs = []
        · subst hc
          refine ⟨?_, ?_⟩
          · intro is h _; cases h; exact .last c hm
          · intro is v h; cases h
        · obtain ⟨i1, i2⟩ := ih hc
          refine ⟨?_, ?_⟩
          · intro is h hb
            obtain ⟨js, h1, rfl⟩ := cons_done.1 h
            exact .more c cs _ js hm (i1 js h1 (fun e => hb (by simp [e])))
          · intro is v h
            obtain ⟨js, h1, rfl⟩ := cons_needs.1 h
            obtain ⟨j1, j2⟩ := i2 js v h1
            exact ⟨by simp [j1], fun a => .more c cs _ _ hm (j2 a)⟩

theorem shortWord_bwd (S : OptSpec) (hS : S.Ok) {s : Str} {ws : List Str} {is : List GoItem} (h : ShortText S s ws is) :
    (.bad ∉ is) ∧ s ≠ [] ∧ s.head? ≠ some '-' ∧ ((ws = [] ∧ shortWord S s = .done is) ∨
      ∃ a js v, ws = [a] ∧ is = js ++ [.opt v (some a)] ∧ shortWord S s = .needs js v) := by
  induction h with
  | last c h =>
    refine ⟨by simp, by simp, by simpa using hS.dash _ h, .inl ⟨rfl, ?_⟩⟩
    rw [shortWord, (find_short S hS c false).2 h]; rfl
  | joined c a h ha =>
    refine ⟨by simp, by simp, by simpa using hS.dash _ h, .inl ⟨rfl, ?_⟩⟩
    rw [shortWord, (find_short S hS c true).2 h]
    dsimp only
    rw [if_neg ha]
  | next c a h =>
    refine ⟨by simp, by simp, by simpa using hS.dash _ h, .inr ⟨a, [], c.toNat, rfl, rfl, ?_⟩⟩
    rw [shortWord, (find_short S hS c true).2 h]
    rfl
  | more c s ws is h hs ih =>
    obtain ⟨i1, i2, -, i3⟩ := ih
    refine ⟨by simp [i1], by simp, by simpa using hS.dash _ h, ?_⟩
    rcases i3 with ⟨h1, h2⟩ | ⟨a, js, v, h1, h2, h3⟩
    · refine .inl ⟨h1, ?_⟩
      rw [shortWord, (find_short S hS c false).2 h]
      dsimp only
      rw [h2]; rfl
    · refine .inr ⟨a, .opt c.toNat none :: js, v, h1, by rw [h2]; rfl, ?_⟩
      rw [shortWord, (find_short S hS c false).2 h]
      dsimp only
      rw [h3]; rfl

theorem isOptWord_iff (w : Str) : isOptWord w = true ↔ ¬ PlainWord w := by
  unfold isOptWord PlainWord
  simp only [Bool.and_eq_true, beq_iff_eq, bne_iff_ne]
  tauto

theorem optWord_fwd (S : OptSpec) (hS : S.Ok) (w : Str) (hw : isOptWord w = true) (hd : w ≠ c!"--") :
    (∀ is, optWord S w = .done is → .bad ∉ is → OptText S [w] is) ∧
    (∀ is v, optWord S w = .needs is v → .bad ∉ is ∧ ∀ a, OptText S [w, a] (is ++ [.opt v (some a)])) := by
  have hw' : w.head? = some '-' ∧ w ≠ c!"-" := by simpa [isOptWord] using hw
  cases w with
  | nil => cases hw'.1
  | cons x s =>
    have hx : x = '-' := by simpa using hw'.1
    subst hx
    have hs : s ≠ [] := by rintro rfl; exact hw'.2 rfl
    cases s with
    | nil => exact absurd rfl hs
    | cons y n =>
      by_cases hy : y = '-'
      · subst hy
        have hn : n ≠ [] := by rintro rfl; exact hd rfl
        have e : optWord S ('-' :: '-' :: n) = longWord S n := rfl
        rw [e]
        unfold longWord
        cases hsp : splitOnce '=' n with
        | some q =>
          obtain ⟨m, a⟩ := q
          obtain ⟨h1, h2⟩ := splitOnce_eq_some.1 hsp
          dsimp only
          cases hf : findLong S m with
          | none =>
            refine ⟨?_, ?_⟩
            · intro is h hb; cases h; exact absurd (by simp) hb
            · intro is v h; cases h
          | some q =>
            obtain ⟨b, v⟩ := q
            have hl := (findLong_iff S hS m b v).1 hf
            cases b with
            | false =>
              refine ⟨?_, ?_⟩
              · intro is h hb; cases h; exact absurd (by simp) hb
              · intro is v h; cases h
            | true =>
              refine ⟨?_, ?_⟩
              · intro is h _
                cases h
                have := OptText.longEq (S := S) m a v hl h2
                rw [h1]; exact this
              · intro is v h; cases h
        | none =>
          have he : '=' ∉ n := splitOnce_none.1 hsp
          dsimp only
          cases hf : findLong S n with
          | none =>
            refine ⟨?_, ?_⟩
            · intro is h hb; cases h; exact absurd (by simp) hb
            · intro is v h; cases h
          | some q =>
            obtain ⟨b, v⟩ := q
            have hl := (findLong_iff S hS n b v).1 hf
            cases b with
            | false =>
              refine ⟨?_, ?_⟩
              · intro is h _; cases h; exact .long n v hl hn he
              · intro is v h; cases h
            | true =>
              refine ⟨?_, ?_⟩
              · intro is h; cases h
              · intro is v h; cases h; exact ⟨by simp, fun a => .longNext n a v hl hn he⟩
      · have e : optWord S ('-' :: y :: n) = shortWord S (y :: n) := by
          unfold optWord
          split
          · next h => cases h; exact absurd rfl hy
          · next h => cases h; rfl
          · next h => cases h
        rw [e]
        obtain ⟨f1, f2⟩ := shortWord_fwd S hS (y :: n) (by simp)
        have hd' : (y :: n).head? ≠ some '-' := by simpa using hy
        exact ⟨fun is h hb => .short _ _ _ (f1 is h hb) hd', fun is v h => ⟨(f2 is v h).1, fun a => .short _ _ _ ((f2 is v h).2 a) hd'⟩⟩

theorem optWord_bwd (S : OptSpec) (hS : S.Ok) {ws : List Str} {is : List GoItem} (h : OptText S ws is) :
    .bad ∉ is ∧ ∃ w, isOptWord w = true ∧ w ≠ c!"--" ∧ ((ws = [w] ∧ optWord S w = .done is) ∨
      ∃ a js v, ws = [w, a] ∧ is = js ++ [.opt v (some a)] ∧ optWord S w = .needs js v) := by
  cases h with
  | @short s ws _ h hd =>
    obtain ⟨h1, h2, _, h3⟩ := shortWord_bwd S hS h
    refine ⟨h1, '-' :: s, ?_, ?_, ?_⟩
    · simp [isOptWord, h2]
    · intro e; cases e; exact hd rfl
    · have e : optWord S ('-' :: s) = shortWord S s := by
        unfold optWord
        split
        · next h => cases h; exact absurd rfl hd
        · next h => cases h; rfl
        · next h => cases h
      rcases h3 with ⟨rfl, h4⟩ | ⟨a, js, v, rfl, h5, h6⟩
      · exact .inl ⟨rfl, by rw [e, h4]⟩
      · exact .inr ⟨a, js, v, rfl, h5, by rw [e, h6]⟩
  | long n v h hn he =>
    refine ⟨by simp, c!"--" ++ n, by simp [isOptWord], by simpa using hn, .inl ⟨rfl, ?_⟩⟩
    show longWord S n = _
    unfold longWord
    rw [splitOnce_none.2 he]
    dsimp only
    rw [(findLong_iff S hS n false v).2 h]
  | longEq n a v h he =>
    refine ⟨by simp, c!"--" ++ n ++ '=' :: a, by simp [isOptWord], ?_, .inl ⟨rfl, ?_⟩⟩
    · intro e
      have := congrArg List.length e
      simp at this
    · show longWord S (n ++ '=' :: a) = _
      unfold longWord
      rw [splitOnce_eq_some.2 ⟨rfl, he⟩]
      dsimp only
      rw [(findLong_iff S hS n true v).2 h]
  | longNext n a v h hn he =>
    refine ⟨by simp, c!"--" ++ n, by simp [isOptWord], by simpa using hn, .inr ⟨a, [], v, rfl, rfl, ?_⟩⟩
    show longWord S n = _
    unfold longWord
    rw [splitOnce_none.2 he]
    dsimp only
    rw [(findLong_iff S hS n true v).2 h]

theorem getopt_done (S : OptSpec) (stop : Bool) (w : Str) (ws : List Str) (is : List GoItem) (hw : isOptWord w = true)
    (hd : w ≠ c!"--") (h : optWord S w = .done is) : getopt S stop (w :: ws) =
      if .bad ∈ is then (is, []) else (is ++ (getopt S stop ws).1, (getopt S stop ws).2) := by
  rw [getopt, if_neg hd, if_pos hw, h]

theorem getopt_needs (S : OptSpec) (stop : Bool) (w : Str) (ws : List Str) (is : List GoItem) (v : Nat) (hw : isOptWord w = true)
    (hd : w ≠ c!"--") (h : optWord S w = .needs is v) : getopt S stop (w :: ws) =
      match ws with
      | [] => (is ++ [.bad], [])
      | a :: ws => (is ++ .opt v (some a) :: (getopt S stop ws).1, (getopt S stop ws).2) := by
  rw [getopt, if_neg hd, if_pos hw, h]
  cases ws <;> rfl

/-- **C109.** What a program takes from its command line: it goes on exactly if the words are a command line - options by their
short names, alone or together, by their long ones or a beginning of these that belongs to one option only, with their arguments
in the same or the next word, `--`, and other words - and then it has exactly the options and arguments that are written there,
in this order. -/
theorem C109_words (S : OptSpec) (hS : S.Ok) (stop : Bool) (ws : List Str) (is : List GoItem) (args : List Str) :
    (getopt S stop ws = (is, args) ∧ .bad ∉ is) ↔ CmdLine S stop ws is args := by
  constructor
  · rintro ⟨h, hb⟩
    generalize hn : ws.length = n
    induction n using Nat.strongRecOn generalizing ws is args with
    | ind n ih =>
      cases ws with
      | nil => cases h; exact .nil
      | cons w ws =>
        by_cases hd : w = c!"--"
        · rw [getopt, if_pos hd] at h
          cases h
          rw [hd]; exact .dashes _
        · by_cases hw : isOptWord w = true
          · obtain ⟨f1, f2⟩ := optWord_fwd S hS w hw hd
            cases ho : optWord S w with
            | done js =>
              rw [getopt_done S stop w ws js hw hd ho] at h
              by_cases hj : .bad ∈ js
              · rw [if_pos hj] at h; cases h; exact absurd hj hb
              · rw [if_neg hj] at h
                cases h
                exact .opt [w] ws js _ _ (f1 js ho hj) (ih ws.length (by rw [← hn]; simp) ws _ _ rfl
                  (fun e => hb (by simp [e])) rfl)
            | needs js v =>
              rw [getopt_needs S stop w ws js v hw hd ho] at h
              cases ws with
              | nil => cases h; exact absurd (by simp) hb
              | cons a ws =>
                cases h
                have := CmdLine.opt [w, a] ws (js ++ [.opt v (some a)]) _ _ ((f2 js v ho).2 a)
                  (ih ws.length (by rw [← hn]; simp only [List.length_cons]; omega) ws _ _ rfl (fun e => hb (by simp [e])) rfl)
                simpa using this
          · have hp : PlainWord w := by
              by_contra hc
              exact hw ((isOptWord_iff w).2 hc)
            rw [getopt, if_neg hd, if_neg hw] at h
            cases stop with
            | true => rw [if_pos rfl] at h; cases h; exact .stop w ws rfl hp
            | false =>
              rw [if_neg (by simp)] at h
              cases h
              exact .plain w ws _ _ rfl hp (ih ws.length (by rw [← hn]; simp) ws _ _ rfl hb rfl)
  · intro h
    induction h with
    | nil => exact ⟨rfl, by simp⟩
    | dashes args => exact ⟨by rw [getopt, if_pos rfl], by simp⟩
    | stop w ws hs hw =>
      have h1 : ¬ isOptWord w = true := fun e => (isOptWord_iff w).1 e hw
      have h2 : w ≠ c!"--" := by rintro rfl; exact h1 rfl
      refine ⟨?_, by simp⟩
      rw [getopt, if_neg h2, if_neg h1, if_pos hs]
    | plain w ws is args hs hw _ ih =>
      have h1 : ¬ isOptWord w = true := fun e => (isOptWord_iff w).1 e hw
      have h2 : w ≠ c!"--" := by rintro rfl; exact h1 rfl
      refine ⟨?_, ih.2⟩
      rw [getopt, if_neg h2, if_neg h1, if_neg (by simp [hs]), ih.1]
    | opt ws rest is js args ho _ ih =>
      obtain ⟨hb, w, hw, hd, h1⟩ := optWord_bwd S hS ho
      refine ⟨?_, by simp [hb, ih.2]⟩
      rcases h1 with ⟨rfl, h2⟩ | ⟨a, ks, v, rfl, rfl, h2⟩
      · rw [List.singleton_append, getopt_done S stop w rest is hw hd h2, if_neg hb, ih.1]
      · rw [List.cons_append, List.singleton_append, getopt_needs S stop w _ ks v hw hd h2]
        dsimp only
        rw [ih.1]
        simp

theorem cv_ok : cvSpec.Ok := ⟨by decide, by decide, by decide⟩
theorem qc_ok : qcSpec.Ok := ⟨by decide, by decide, by decide⟩
theorem dm_ok : dmSpec.Ok := ⟨by decide, by decide, by decide⟩
theorem ag_ok : agSpec.Ok := ⟨by decide, by decide, by decide⟩


theorem getopt_of (S : OptSpec) (hS : S.Ok) {stop : Bool} {ws : List Str} {is : List GoItem} {args : List Str}
    (h : CmdLine S stop ws is args) : getopt S stop ws = (is, args) := ((C109_words S hS stop ws is args).2 h).1

/-- Options, then a word that is none, where that ends the options: this word and all that follow are the arguments. -/
theorem CmdLine.then_plain {S : OptSpec} {pre : List Str} {is : List GoItem} {t : Str} (ht : PlainWord t) (rest : List Str)
    {args : List Str} (h : CmdLine S true pre is args) (ha : args = []) : CmdLine S true (pre ++ t :: rest) is (t :: rest) := by
  induction h with
  | nil => exact .stop t rest rfl ht
  | dashes args => rw [ha]; exact .dashes _
  | stop w ws _ _ => cases ha
  | plain w ws is args hs => cases hs
  | opt ws rest' is js args ho _ ih => rw [List.append_assoc]; exact .opt _ _ _ _ _ ho (ih ha)

/-- **C109, qrexec-client-vm.** Options, then the target: the target is the first word that is no option, and nothing behind it is
ever taken as an option, whatever it is: not the service and not the local program and its arguments. -/
theorem C109_client_vm (y : CvSys) (pre : List Str) (is : List GoItem) (hpre : CmdLine cvSpec true pre is []) (target : Str)
    (ht : PlainWord target) (rest : List Str) :
    cvCommand y (pre ++ target :: rest) = cvMain y (is.map cvItem) (target :: rest) := by
  unfold cvCommand
  rw [getopt_of cvSpec cv_ok (hpre.then_plain ht rest rfl)]

/-- With `--` the target may be any text. -/
theorem C109_client_vm_any (y : CvSys) (target : Str) (rest : List Str) :
    cvCommand y (c!"--" :: target :: rest) = cvMain y [] (target :: rest) := rfl

/-- **C109, the names of the options of qrexec-client-vm.** Every argument is taken as it is, in the next word or in this one. -/
theorem C109_client_vm_options (a : Str) :
    let f := fun ws => (getopt cvSpec true ws).1.map cvItem
    f [c!"-t"] = [.filterOut] ∧ f [c!"--filter-escape-chars-stdout"] = [.filterOut] ∧
    f [c!"-T"] = [.filterErr] ∧ f [c!"--filter-escape-chars-stderr"] = [.filterErr] ∧
    f [c!"--no-filter-escape-chars-stdout"] = [.noFilterOut] ∧ f [c!"--no-filter-escape-chars-stderr"] = [.noFilterErr] ∧
    f [c!"--buffer-size", a] = [.bufferSize a] ∧ f [c!"--buffer-size=" ++ a] = [.bufferSize a] ∧
    f [c!"-a", a] = [.agentSocket a] ∧ f [c!"--agent-socket", a] = [.agentSocket a] ∧ f [c!"--agent-socket=" ++ a] = [.agentSocket a] ∧
    f [c!"-p", a] = [.prefixData a] ∧ f [c!"--prefix-data", a] = [.prefixData a] ∧ f [c!"--prefix-data=" ++ a] = [.prefixData a] ∧
    f [c!"-s", a] = [.source a] ∧ f [c!"--source-qube", a] = [.source a] ∧ f [c!"--source-qube=" ++ a] = [.source a] ∧
    f [c!"--use-stdin-socket"] = [.useStdinSocket] ∧ f [c!"-h"] = [.help] ∧ f [c!"--help"] = [.help] := by
  refine ⟨rfl, rfl, rfl, rfl, rfl, rfl, rfl, rfl, rfl, rfl, rfl, rfl, rfl, rfl, rfl, rfl, rfl, rfl, rfl, rfl⟩

/-- **C109, the names of the options of qrexec-client.** -/
theorem C109_client_options (posix : Bool) (a : Str) :
    let f := fun ws => (getopt qcSpec posix ws).1.map qcItem
    f [c!"-d", a] = [.domain a] ∧ f [c!"-l", a] = [.localProg a] ∧ f [c!"-e"] = [.justExec] ∧ f [c!"-E"] = [.noExitCode] ∧
    f [c!"--no-exit-code"] = [.noExitCode] ∧ f [c!"-c", a] = [.connect a] ∧ f [c!"-p", a] = [.prefixData a] ∧
    f [c!"--prefix-data", a] = [.prefixData a] ∧ f [c!"--prefix-data=" ++ a] = [.prefixData a] ∧ f [c!"-t"] = [.filterOut] ∧
    f [c!"-T"] = [.filterErr] ∧ f [c!"-w", a] = [.timeout a] ∧ f [c!"-W"] = [.waitEnd] ∧ f [c!"-k"] = [.kill] ∧
    f [c!"--socket-dir", a] = [.socketDir a] ∧ f [c!"--socket-dir=" ++ a] = [.socketDir a] ∧
    f [c!"--use-stdin-socket"] = [.useStdinSocket] ∧ f [c!"-h"] = [.help] ∧ f [c!"--help"] = [.help] := by
  refine ⟨rfl, rfl, rfl, rfl, rfl, rfl, rfl, rfl, rfl, rfl, rfl, rfl, rfl, rfl, rfl, rfl, rfl, rfl, rfl⟩

/-- **C109, the Python client.** A program that calls a service by `qrexec.client` gets exactly that: whatever the destination and
the service are, beginning with a dash too, neither is taken as an option by the program that is started. -/
theorem C109_python (dest rpc : Str) (arg : Option Str) (cmd : List Str) :
    (makeCommand (some false) dest rpc arg = .ok cmd → ∃ words, cmd = c!"/usr/bin/qrexec-client-vm" :: words ∧
      ∀ y, cvCommand y words = cvMain y [] [dest, fullService rpc arg]) ∧
    (makeCommand (some true) dest rpc arg = .ok cmd → ∃ words, cmd = c!"/usr/bin/qrexec-client" :: words ∧
      ∀ w posix, qcCommand w posix words = qcMain w [.domain dest] [c!"DEFAULT:QUBESRPC " ++ fullService rpc arg ++ c!" dom0"]) := by
  unfold makeCommand
  refine ⟨fun h => ?_, fun h => ?_⟩
  · split at h
    · cases h
    · cases h
      exact ⟨_, rfl, fun y => rfl⟩
  · split at h
    · cases h
    · cases h
      refine ⟨_, rfl, fun w posix => ?_⟩
      cases posix <;> rfl

/-- **C109, qrexec-policy-exec.** The words with which it starts qrexec-client: that takes from them exactly the options and the
command which `Verif.Model.PolicyExec` has it started with, whatever the texts are. -/
theorem C109_policy_exec (w : PeWorld) (evs : List Event) (acts : List PeAct) (disp : Bool) (target conn cmd : Str) :
    ∃ opts, (peClient w evs acts disp target conn cmd).acts = acts ++ [.client opts [cmd]] ∧
      ∀ q posix, qcCommand q posix (peWords disp target conn cmd) = qcMain q opts [cmd] := by
  refine ⟨_, rfl, fun q posix => ?_⟩
  cases posix <;> cases disp <;> rfl

/-! ## The other programs -/

theorem last_tail {is : List GoItem} {v w : Nat} {b : Option Str} {a : Str} (h : w ≠ v) :
    LastArg (.opt w b :: is) v a ↔ LastArg is v a := by
  constructor
  · rintro ⟨pre, post, e, hp⟩
    cases pre with
    | nil => cases e; exact absurd rfl h
    | cons x pre => cases e; exact ⟨pre, post, rfl, hp⟩
  · rintro ⟨pre, post, rfl, hp⟩
    exact ⟨.opt w b :: pre, post, rfl, hp⟩

theorem given_tail {is : List GoItem} {v w : Nat} {b : Option Str} : Given (.opt w b :: is) v ↔ w = v ∨ Given is v := by
  unfold Given
  constructor
  · rintro ⟨a, h⟩
    rcases List.mem_cons.1 h with e | e
    · cases e; exact .inl rfl
    · exact .inr ⟨a, e⟩
  · rintro (rfl | ⟨a, e⟩)
    · exact ⟨b, by simp⟩
    · exact ⟨a, by simp [e]⟩

theorem argOr_tail {is : List GoItem} {v w : Nat} {b : Option Str} {d a : Str} (h : w ≠ v) :
    ArgOr (.opt w b :: is) v d a ↔ ArgOr is v d a := by
  unfold ArgOr
  rw [last_tail h, given_tail]
  simp [h]

theorem argOr_here {is : List GoItem} {v : Nat} {b d a : Str} :
    ArgOr (.opt v (some b) :: is) v d a ↔ ArgOr is v b a := by
  unfold ArgOr
  rw [given_tail]
  constructor
  · rintro (⟨pre, post, e, hp⟩ | ⟨h, _⟩)
    · cases pre with
      | nil => cases e; exact .inr ⟨hp, rfl⟩
      | cons x pre => cases e; exact .inl ⟨pre, post, rfl, hp⟩
    · exact absurd (.inl rfl) h
  · rintro (⟨pre, post, rfl, hp⟩ | ⟨h, rfl⟩)
    · exact .inl ⟨_ :: pre, post, rfl, hp⟩
    · exact .inl ⟨[], is, rfl, h⟩

theorem optOr_tail {is : List GoItem} {v w : Nat} {b : Option Str} {d a : Option Str} (h : w ≠ v) :
    OptOr (.opt w b :: is) v d a ↔ OptOr is v d a := by
  unfold OptOr
  simp only [last_tail h, given_tail]
  simp [h]

theorem optOr_here {is : List GoItem} {v : Nat} {b : Str} {d a : Option Str} :
    OptOr (.opt v (some b) :: is) v d a ↔ OptOr is v (some b) a := by
  unfold OptOr
  rw [given_tail]
  constructor
  · rintro (⟨x, rfl, pre, post, e, hp⟩ | ⟨h, _⟩)
    · cases pre with
      | nil => cases e; exact .inr ⟨hp, rfl⟩
      | cons x pre => cases e; exact .inl ⟨_, rfl, pre, post, rfl, hp⟩
    · exact absurd (.inl rfl) h
  · rintro (⟨x, rfl, pre, post, rfl, hp⟩ | ⟨h, rfl⟩)
    · exact .inl ⟨_, rfl, _ :: pre, post, rfl, hp⟩
    · exact .inl ⟨_, rfl, [], is, rfl, h⟩

theorem LongName.entry {S : OptSpec} {n : Str} {h : Bool} {v : Nat} (hl : LongName S n h v) : ∃ m, (m, h, v) ∈ S.longs := by
  rcases hl with e | ⟨-, ⟨l, h1, h2⟩, h3⟩
  · exact ⟨n, e⟩
  · have := h3 l h1 h2
    exact ⟨l.1, by rw [← this]; exact h1⟩

/-- What holds for the options of the table, with their arguments, holds for those of a command line. -/
theorem CmdLine.items {S : OptSpec} {stop : Bool} {ws : List Str} {is : List GoItem} {args : List Str} (h : CmdLine S stop ws is args)
    (P : GoItem → Prop) (h1 : ∀ s ∈ S.shorts, s.2 = false → P (.opt s.1.toNat none))
    (h2 : ∀ s ∈ S.shorts, s.2 = true → ∀ a, P (.opt s.1.toNat (some a))) (h3 : ∀ l ∈ S.longs, l.2.1 = false → P (.opt l.2.2 none))
    (h4 : ∀ l ∈ S.longs, l.2.1 = true → ∀ a, P (.opt l.2.2 (some a))) : ∀ i ∈ is, P i := by
  have hshort : ∀ {s ws is}, ShortText S s ws is → ∀ i ∈ is, P i := by
    intro s ws is hs
    induction hs with
    | last c h => intro i hi; cases List.mem_singleton.1 hi; exact h1 _ h rfl
    | joined c a h => intro i hi; cases List.mem_singleton.1 hi; exact h2 _ h rfl a
    | next c a h => intro i hi; cases List.mem_singleton.1 hi; exact h2 _ h rfl a
    | more c s ws is h _ ih =>
      intro i hi
      rcases List.mem_cons.1 hi with rfl | e
      · exact h1 _ h rfl
      · exact ih i e
  have hopt : ∀ {ws is}, OptText S ws is → ∀ i ∈ is, P i := by
    intro ws is ho
    cases ho with
    | @short s ws _ h hd => exact hshort h
    | long n v h => obtain ⟨m, hm⟩ := h.entry; intro i hi; cases List.mem_singleton.1 hi; exact h3 _ hm rfl
    | longEq n a v h => obtain ⟨m, hm⟩ := h.entry; intro i hi; cases List.mem_singleton.1 hi; exact h4 _ hm rfl a
    | longNext n a v h => obtain ⟨m, hm⟩ := h.entry; intro i hi; cases List.mem_singleton.1 hi; exact h4 _ hm rfl a
  induction h with
  | nil => intro i hi; cases hi
  | dashes => intro i hi; cases hi
  | stop => intro i hi; cases hi
  | plain w ws is args _ _ _ ih => exact ih
  | opt ws rest is js args ho _ ih =>
    intro i hi
    rcases List.mem_append.1 hi with e | e
    · exact hopt ho i e
    · exact ih i e

/-- Options of the daemon. -/
def DmItem (i : GoItem) : Prop :=
  i = .opt 104 none ∨ i = .opt 113 none ∨ i = .opt 68 none ∨ (∃ a, i = .opt 228 (some a)) ∨ (∃ a, i = .opt 112 (some a)) ∨
    ∃ a, i = .opt 117 (some a)

theorem not_given_nil (v : Nat) : ¬ Given [] v := by rintro ⟨a, h⟩; cases h
theorem not_last_nil (v : Nat) (a : Str) : ¬ LastArg [] v a := by
  rintro ⟨pre, post, e, -⟩
  cases pre <;> cases e

theorem dmOptions_iff (is : List GoItem) : ∀ (v0 v : DmVars), (∀ i ∈ is, DmItem i) → (dmOptions v0 is = some v ↔
    ¬ Given is 104 ∧ (v.quiet = true ↔ v0.quiet = true ∨ Given is 113) ∧ ArgOr is 228 v0.dir v.dir ∧
    ArgOr is 112 v0.policyProgram v.policyProgram ∧ (v.direct = true ↔ v0.direct = true ∨ Given is 68) ∧
    OptOr is 117 v0.uuid v.uuid) := by
  induction is with
  | nil =>
    intro v0 v _
    simp only [dmOptions, ArgOr, OptOr, not_given_nil, not_last_nil, false_or, or_false, not_false_eq_true, true_and, and_false,
      exists_false, Option.some.injEq]
    obtain ⟨q, d, p, dr, u⟩ := v
    obtain ⟨q0, d0, p0, dr0, u0⟩ := v0
    simp only [DmVars.mk.injEq]
    constructor
    · rintro ⟨rfl, rfl, rfl, rfl, rfl⟩; simp
    · rintro ⟨h1, rfl, rfl, h2, rfl⟩
      exact ⟨(Bool.eq_iff_iff.2 h1).symm, rfl, rfl, (Bool.eq_iff_iff.2 h2).symm, rfl⟩
  | cons i is ih =>
    intro v0 v hP
    have hi := hP i (by simp)
    have ht : ∀ i ∈ is, DmItem i := fun j hj => hP j (by simp [hj])
    rcases hi with rfl | rfl | rfl | ⟨a, rfl⟩ | ⟨a, rfl⟩ | ⟨a, rfl⟩
    · constructor
      · intro h; cases h
      · rintro ⟨h, -⟩; exact absurd ⟨none, by simp⟩ h
    · show dmOptions { v0 with quiet := true } is = some v ↔ _
      rw [ih _ _ ht]
      simp only [given_tail, argOr_tail (show (113 : Nat) ≠ 228 by decide), argOr_tail (show (113 : Nat) ≠ 112 by decide),
        optOr_tail (show (113 : Nat) ≠ 117 by decide)]
      simp
    · show dmOptions { v0 with direct := true } is = some v ↔ _
      rw [ih _ _ ht]
      simp only [given_tail, argOr_tail (show (68 : Nat) ≠ 228 by decide), argOr_tail (show (68 : Nat) ≠ 112 by decide),
        optOr_tail (show (68 : Nat) ≠ 117 by decide)]
      simp
    · show dmOptions { v0 with dir := a } is = some v ↔ _
      rw [ih _ _ ht]
      simp only [given_tail, argOr_here, argOr_tail (show (228 : Nat) ≠ 112 by decide),
        optOr_tail (show (228 : Nat) ≠ 117 by decide)]
      simp
    · show dmOptions { v0 with policyProgram := a } is = some v ↔ _
      rw [ih _ _ ht]
      simp only [given_tail, argOr_here, argOr_tail (show (112 : Nat) ≠ 228 by decide),
        optOr_tail (show (112 : Nat) ≠ 117 by decide)]
      simp
    · show dmOptions { v0 with uuid := some a } is = some v ↔ _
      rw [ih _ _ ht]
      simp only [given_tail, optOr_here, argOr_tail (show (117 : Nat) ≠ 228 by decide), argOr_tail (show (117 : Nat) ≠ 112 by decide)]
      simp

theorem dmOptions_bad (is : List GoItem) : ∀ v0, .bad ∈ is → dmOptions v0 is = none := by
  induction is with
  | nil => intro _ h; cases h
  | cons i is ih =>
    intro v0 h
    cases i with
    | bad => rfl
    | opt o a =>
      have h' : .bad ∈ is := by simpa using h
      rw [dmOptions.eq_def]
      dsimp only
      simp only [ih _ h']
      split_ifs <;> rfl

/-- **C109, qrexec-daemon.** It starts exactly for a command line of its options with a uuid, and the id and the name of a qube,
with or without a default user; everything else ends it with status 1.  The last use of an option counts. -/
theorem C109_daemon (posix : Bool) (words : List Str) (v : DmVars) (id : Nat) (name : Str) (user : Option Str) :
    dmCommand posix words = some (v, id, name, user) ↔
      ∃ is ids args, CmdLine dmSpec posix words is args ∧ args = ids :: name :: user.toList ∧ id = atoiNat ids ∧
        ¬ Given is 'h'.toNat ∧ (v.quiet = true ↔ Given is 'q'.toNat) ∧ (v.direct = true ↔ Given is 'D'.toNat) ∧
        ArgOr is ('d'.toNat + 128) c!"/var/run/qubes" v.dir ∧ ArgOr is 'p'.toNat c!"/usr/bin/qrexec-policy-exec" v.policyProgram ∧
        ∃ u, v.uuid = some u ∧ LastArg is 'u'.toNat u := by
  have hitems : ∀ {is args}, CmdLine dmSpec posix words is args → ∀ i ∈ is, DmItem i := by
    intro is args h
    refine h.items DmItem ?_ ?_ ?_ ?_
    · intro s hs he
      have : s ∈ dmSpec.shorts.filter fun s => s.2 = false := List.mem_filter.2 ⟨hs, by simpa using he⟩
      have e : (dmSpec.shorts.filter fun s => s.2 = false) = [('h', false), ('q', false), ('D', false)] := by decide
      rw [e] at this
      simp only [List.mem_cons, List.not_mem_nil, or_false] at this
      rcases this with rfl | rfl | rfl
      · exact .inl rfl
      · exact .inr (.inl rfl)
      · exact .inr (.inr (.inl rfl))
    · intro s hs he a
      have : s ∈ dmSpec.shorts.filter fun s => s.2 = true := List.mem_filter.2 ⟨hs, by simpa using he⟩
      have e : (dmSpec.shorts.filter fun s => s.2 = true) = [('p', true), ('u', true)] := by decide
      rw [e] at this
      simp only [List.mem_cons, List.not_mem_nil, or_false] at this
      rcases this with rfl | rfl
      · exact .inr (.inr (.inr (.inr (.inl ⟨a, rfl⟩))))
      · exact .inr (.inr (.inr (.inr (.inr ⟨a, rfl⟩))))
    · intro l hl he
      have : l ∈ dmSpec.longs.filter fun l => l.2.1 = false := List.mem_filter.2 ⟨hl, by simpa using he⟩
      have e : (dmSpec.longs.filter fun l => l.2.1 = false) = [(c!"help", false, 104), (c!"quiet", false, 113),
        (c!"direct", false, 68)] := by decide
      rw [e] at this
      simp only [List.mem_cons, List.not_mem_nil, or_false] at this
      rcases this with rfl | rfl | rfl
      · exact .inl rfl
      · exact .inr (.inl rfl)
      · exact .inr (.inr (.inl rfl))
    · intro l hl he a
      have : l ∈ dmSpec.longs.filter fun l => l.2.1 = true := List.mem_filter.2 ⟨hl, by simpa using he⟩
      have e : (dmSpec.longs.filter fun l => l.2.1 = true) = [(c!"socket-dir", true, 228), (c!"policy-program", true, 112),
        (c!"uuid", true, 117)] := by decide
      rw [e] at this
      simp only [List.mem_cons, List.not_mem_nil, or_false] at this
      rcases this with rfl | rfl | rfl
      · exact .inr (.inr (.inr (.inl ⟨a, rfl⟩)))
      · exact .inr (.inr (.inr (.inr (.inl ⟨a, rfl⟩))))
      · exact .inr (.inr (.inr (.inr (.inr ⟨a, rfl⟩))))
  have hopts : ∀ {is args}, CmdLine dmSpec posix words is args → (dmOptions {} is = some v ∧ v.uuid.isSome = true ↔
      ¬ Given is 'h'.toNat ∧ (v.quiet = true ↔ Given is 'q'.toNat) ∧ (v.direct = true ↔ Given is 'D'.toNat) ∧
        ArgOr is ('d'.toNat + 128) c!"/var/run/qubes" v.dir ∧ ArgOr is 'p'.toNat c!"/usr/bin/qrexec-policy-exec" v.policyProgram ∧
        ∃ u, v.uuid = some u ∧ LastArg is 'u'.toNat u) := by
    intro is args h
    rw [dmOptions_iff is {} v (hitems h)]
    show (¬ Given is 104 ∧ (v.quiet = true ↔ false = true ∨ Given is 113) ∧ ArgOr is 228 c!"/var/run/qubes" v.dir ∧
      ArgOr is 112 c!"/usr/bin/qrexec-policy-exec" v.policyProgram ∧ (v.direct = true ↔ false = true ∨ Given is 68) ∧
      OptOr is 117 none v.uuid) ∧ _ ↔ ¬ Given is 104 ∧ (v.quiet = true ↔ Given is 113) ∧ (v.direct = true ↔ Given is 68) ∧
      ArgOr is 228 c!"/var/run/qubes" v.dir ∧ ArgOr is 112 c!"/usr/bin/qrexec-policy-exec" v.policyProgram ∧
      ∃ u, v.uuid = some u ∧ LastArg is 117 u
    simp only [Bool.false_eq_true, false_or]
    constructor
    · rintro ⟨⟨h1, h2, h3, h4, h5, h6⟩, h7⟩
      refine ⟨h1, h2, h5, h3, h4, ?_⟩
      rcases h6 with ⟨b, h8, h9⟩ | ⟨-, h8⟩
      · exact ⟨b, h8, h9⟩
      · rw [h8] at h7; cases h7
    · rintro ⟨h1, h2, h5, h3, h4, u, h8, h9⟩
      exact ⟨⟨h1, h2, h3, h4, h5, .inl ⟨u, h8, h9⟩⟩, by rw [h8]; rfl⟩
  constructor
  · intro h
    unfold dmCommand at h
    obtain ⟨is, args, hg⟩ : ∃ is args, getopt dmSpec posix words = (is, args) := ⟨_, _, rfl⟩
    rw [hg] at h
    dsimp only at h
    have hb : .bad ∉ is := by
      intro hb
      rw [dmOptions_bad is {} hb] at h
      cases h
    have hc := (C109_words dmSpec dm_ok posix words is args).1 ⟨hg, hb⟩
    cases hd : dmOptions {} is with
    | none => rw [hd] at h; cases h
    | some v' =>
      rw [hd] at h
      dsimp only at h
      split at h
      · next ids name' =>
        split at h
        · next hu =>
          cases h
          exact ⟨is, ids, _, hc, rfl, rfl, (hopts hc).1 ⟨hd, hu⟩⟩
        · cases h
      · next ids name' user' =>
        split at h
        · next hu =>
          cases h
          exact ⟨is, ids, _, hc, rfl, rfl, (hopts hc).1 ⟨hd, hu⟩⟩
        · cases h
      · cases h
  · rintro ⟨is, ids, args, hc, rfl, rfl, h⟩
    obtain ⟨h1, h2⟩ := (hopts hc).2 h
    unfold dmCommand
    rw [getopt_of dmSpec dm_ok hc]
    dsimp only
    rw [h1]
    cases user with
    | none => simp [h2]
    | some u => simp [h2]

/-- Options of the agent. -/
def AgItem (i : GoItem) : Prop :=
  i = .opt 104 none ∨ i = .opt 83 none ∨ (∃ a, i = .opt 97 (some a)) ∨ ∃ a, i = .opt 115 (some a)

theorem forkOr_tail {is : List GoItem} {w : Nat} {b : Option Str} {d a : Option Str} (h : w ≠ 115) (h' : w ≠ 83) :
    ForkOr (.opt w b :: is) d a ↔ ForkOr is d a := by
  unfold ForkOr
  rw [given_tail, given_tail]
  constructor
  · rintro (⟨pre, post, x, e, h1⟩ | ⟨pre, post, e, h1⟩ | ⟨h1, h2, h3⟩)
    · cases pre with
      | nil => cases e; exact absurd rfl h
      | cons y pre => cases e; exact .inl ⟨pre, post, x, rfl, h1⟩
    · cases pre with
      | nil => cases e; exact absurd rfl h'
      | cons y pre => cases e; exact .inr (.inl ⟨pre, post, rfl, h1⟩)
    · exact .inr (.inr ⟨fun e => h1 (.inr e), fun e => h2 (.inr e), h3⟩)
  · rintro (⟨pre, post, x, rfl, h1⟩ | ⟨pre, post, rfl, h1⟩ | ⟨h1, h2, h3⟩)
    · exact .inl ⟨_ :: pre, post, x, rfl, h1⟩
    · exact .inr (.inl ⟨_ :: pre, post, rfl, h1⟩)
    · exact .inr (.inr ⟨by rintro (e | e); exacts [h e, h1 e], by rintro (e | e); exacts [h' e, h2 e], h3⟩)

theorem forkOr_s {is : List GoItem} {b : Str} {d a : Option Str} :
    ForkOr (.opt 115 (some b) :: is) d a ↔ ForkOr is (some b) a := by
  unfold ForkOr
  rw [given_tail, given_tail]
  constructor
  · rintro (⟨pre, post, x, e, h1⟩ | ⟨pre, post, e, h1⟩ | ⟨h1, h2, h3⟩)
    · cases pre with
      | nil => cases e; exact .inr (.inr ⟨h1.1, h1.2.1, h1.2.2⟩)
      | cons y pre => cases e; exact .inl ⟨pre, post, x, rfl, h1⟩
    · cases pre with
      | nil => cases e
      | cons y pre => cases e; exact .inr (.inl ⟨pre, post, rfl, h1⟩)
    · exact absurd (.inl rfl) h1
  · rintro (⟨pre, post, x, rfl, h1⟩ | ⟨pre, post, rfl, h1⟩ | ⟨h1, h2, h3⟩)
    · exact .inl ⟨_ :: pre, post, x, rfl, h1⟩
    · exact .inr (.inl ⟨_ :: pre, post, rfl, h1⟩)
    · exact .inl ⟨[], is, b, rfl, h1, h2, h3⟩

theorem forkOr_S {is : List GoItem} {d a : Option Str} :
    ForkOr (.opt 83 none :: is) d a ↔ ForkOr is none a := by
  unfold ForkOr
  rw [given_tail, given_tail]
  constructor
  · rintro (⟨pre, post, x, e, h1⟩ | ⟨pre, post, e, h1⟩ | ⟨h1, h2, h3⟩)
    · cases pre with
      | nil => cases e
      | cons y pre => cases e; exact .inl ⟨pre, post, x, rfl, h1⟩
    · cases pre with
      | nil => cases e; exact .inr (.inr ⟨h1.1, h1.2.1, h1.2.2⟩)
      | cons y pre => cases e; exact .inr (.inl ⟨pre, post, rfl, h1⟩)
    · exact absurd (.inl rfl) h2
  · rintro (⟨pre, post, x, rfl, h1⟩ | ⟨pre, post, rfl, h1⟩ | ⟨h1, h2, h3⟩)
    · exact .inl ⟨_ :: pre, post, x, rfl, h1⟩
    · exact .inr (.inl ⟨_ :: pre, post, rfl, h1⟩)
    · exact .inr (.inl ⟨[], is, rfl, h1, h2, h3⟩)

theorem forkOr_nil {d a : Option Str} : ForkOr [] d a ↔ a = d := by
  unfold ForkOr
  simp [not_given_nil]

theorem agOptions_iff (is : List GoItem) : ∀ (v0 v : AgVars), (∀ i ∈ is, AgItem i) → (agOptions v0 is = some v ↔
    ¬ Given is 104 ∧ ArgOr is 97 v0.trigger v.trigger ∧ ForkOr is v0.fork v.fork) := by
  induction is with
  | nil =>
    intro v0 v _
    simp only [agOptions, ArgOr, not_given_nil, not_last_nil, false_or, not_false_eq_true, true_and, forkOr_nil, Option.some.injEq]
    obtain ⟨t, f⟩ := v
    obtain ⟨t0, f0⟩ := v0
    simp only [AgVars.mk.injEq]
    constructor
    · rintro ⟨rfl, rfl⟩; exact ⟨rfl, rfl⟩
    · rintro ⟨rfl, rfl⟩; exact ⟨rfl, rfl⟩
  | cons i is ih =>
    intro v0 v hP
    have hi := hP i (by simp)
    have ht : ∀ i ∈ is, AgItem i := fun j hj => hP j (by simp [hj])
    rcases hi with rfl | rfl | ⟨a, rfl⟩ | ⟨a, rfl⟩
    · constructor
      · intro h; cases h
      · rintro ⟨h, -⟩; exact absurd ⟨none, by simp⟩ h
    · show agOptions { v0 with fork := none } is = some v ↔ _
      rw [ih _ _ ht, given_tail, argOr_tail (show (83 : Nat) ≠ 97 by decide), forkOr_S]
      simp
    · show agOptions { v0 with trigger := a } is = some v ↔ _
      rw [ih _ _ ht, given_tail, argOr_here, forkOr_tail (show (97 : Nat) ≠ 115 by decide) (show (97 : Nat) ≠ 83 by decide)]
      simp
    · show agOptions { v0 with fork := some a } is = some v ↔ _
      rw [ih _ _ ht, given_tail, argOr_tail (show (115 : Nat) ≠ 97 by decide), forkOr_s]
      simp

theorem agOptions_bad (is : List GoItem) : ∀ v0, .bad ∈ is → agOptions v0 is = none := by
  induction is with
  | nil => intro _ h; cases h
  | cons i is ih =>
    intro v0 h
    cases i with
    | bad => rfl
    | opt o a =>
      have h' : .bad ∈ is := by simpa using h
      rw [agOptions.eq_def]
      dsimp only
      simp only [ih _ h']
      split_ifs <;> rfl

/-- **C109, qrexec-agent.** -/
theorem C109_agent (posix : Bool) (words : List Str) (v : AgVars) :
    agCommand posix words = some v ↔ ∃ is args, CmdLine agSpec posix words is args ∧ ¬ Given is 'h'.toNat ∧
      ArgOr is 'a'.toNat c!"/var/run/qubes/qrexec-agent" v.trigger ∧
      ForkOr is (some c!"/var/run/qubes/qrexec-server.%s.sock") v.fork := by
  have hitems : ∀ {is args}, CmdLine agSpec posix words is args → ∀ i ∈ is, AgItem i := by
    intro is args h
    refine h.items AgItem ?_ ?_ ?_ ?_
    · intro s hs he
      have : s ∈ agSpec.shorts.filter fun s => s.2 = false := List.mem_filter.2 ⟨hs, by simpa using he⟩
      have e : (agSpec.shorts.filter fun s => s.2 = false) = [('h', false), ('S', false)] := by decide
      rw [e] at this
      simp only [List.mem_cons, List.not_mem_nil, or_false] at this
      rcases this with rfl | rfl
      · exact .inl rfl
      · exact .inr (.inl rfl)
    · intro s hs he a
      have : s ∈ agSpec.shorts.filter fun s => s.2 = true := List.mem_filter.2 ⟨hs, by simpa using he⟩
      have e : (agSpec.shorts.filter fun s => s.2 = true) = [('a', true), ('s', true)] := by decide
      rw [e] at this
      simp only [List.mem_cons, List.not_mem_nil, or_false] at this
      rcases this with rfl | rfl
      · exact .inr (.inr (.inl ⟨a, rfl⟩))
      · exact .inr (.inr (.inr ⟨a, rfl⟩))
    · intro l hl he
      have : l ∈ agSpec.longs.filter fun l => l.2.1 = false := List.mem_filter.2 ⟨hl, by simpa using he⟩
      have e : (agSpec.longs.filter fun l => l.2.1 = false) = [(c!"help", false, 104), (c!"no-fork-server", false, 83)] := by decide
      rw [e] at this
      simp only [List.mem_cons, List.not_mem_nil, or_false] at this
      rcases this with rfl | rfl
      · exact .inl rfl
      · exact .inr (.inl rfl)
    · intro l hl he a
      have : l ∈ agSpec.longs.filter fun l => l.2.1 = true := List.mem_filter.2 ⟨hl, by simpa using he⟩
      have e : (agSpec.longs.filter fun l => l.2.1 = true) = [(c!"agent-socket", true, 97), (c!"fork-server-socket", true, 115)] := by
        decide
      rw [e] at this
      simp only [List.mem_cons, List.not_mem_nil, or_false] at this
      rcases this with rfl | rfl
      · exact .inr (.inr (.inl ⟨a, rfl⟩))
      · exact .inr (.inr (.inr ⟨a, rfl⟩))
  unfold agCommand
  constructor
  · intro h
    obtain ⟨is, args, hg⟩ : ∃ is args, getopt agSpec posix words = (is, args) := ⟨_, _, rfl⟩
    rw [hg] at h
    have hb : .bad ∉ is := by
      intro hb
      rw [agOptions_bad is {} hb] at h
      cases h
    have hc := (C109_words agSpec ag_ok posix words is args).1 ⟨hg, hb⟩
    exact ⟨is, args, hc, (agOptions_iff is {} v (hitems hc)).1 h⟩
  · rintro ⟨is, args, hc, h⟩
    rw [getopt_of agSpec ag_ok hc]
    exact (agOptions_iff is {} v (hitems hc)).2 h

theorem cvOptions_bad (y : CvSys) (is : List GoItem) (hb : .bad ∈ is) : ∀ v0, ∃ st, cvOptions y v0 (is.map cvItem) = .error st := by
  induction is with
  | nil => cases hb
  | cons i is ih =>
    intro v0
    rw [List.map_cons, cvOptions]
    rcases List.mem_cons.1 hb with e | e
    · rw [← e]; exact ⟨2, rfl⟩
    · cases h : cvOption y v0 (cvItem i) with
      | error st => exact ⟨st, rfl⟩
      | ok v => exact ih e v

theorem qcOptions_bad (b : Bool) (is : List GoItem) (hb : .bad ∈ is) : ∀ v0, ∃ st, qcOptions b v0 (is.map qcItem) = .error st := by
  induction is with
  | nil => cases hb
  | cons i is ih =>
    intro v0
    rw [List.map_cons, qcOptions]
    rcases List.mem_cons.1 hb with e | e
    · rw [← e]; exact ⟨_, rfl⟩
    · cases h : qcOption b v0 (qcItem i) with
      | error st => exact ⟨st, rfl⟩
      | ok v => exact ih e v

/-- **C109, words that are no command line** end every program before it does anything. -/
theorem C109_refused (posix : Bool) (words : List Str) :
    ((∀ is args, ¬ CmdLine cvSpec true words is args) → ∀ y, ∃ st, cvCommand y words = (none, .exit st)) ∧
    ((∀ is args, ¬ CmdLine qcSpec posix words is args) → ∀ w, ∃ st, qcCommand w posix words = ([], .exit st, [])) ∧
    ((∀ is args, ¬ CmdLine dmSpec posix words is args) → dmCommand posix words = none) ∧
    ((∀ is args, ¬ CmdLine agSpec posix words is args) → agCommand posix words = none) := by
  have key : ∀ (S : OptSpec) (hS : S.Ok) (stop : Bool), (∀ is args, ¬ CmdLine S stop words is args) →
      .bad ∈ (getopt S stop words).1 := by
    intro S hS stop h
    by_contra hb
    exact h _ _ ((C109_words S hS stop words _ _).1 ⟨rfl, hb⟩)
  refine ⟨fun h y => ?_, fun h w => ?_, fun h => ?_, fun h => ?_⟩
  · obtain ⟨st, e⟩ := cvOptions_bad y _ (key cvSpec cv_ok true h) {}
    exact ⟨st, by unfold cvCommand cvMain; rw [e]⟩
  · obtain ⟨st, e⟩ := qcOptions_bad w.stdinStream _ (key qcSpec qc_ok posix h) {}
    exact ⟨st, by unfold qcCommand qcMain; rw [e]⟩
  · unfold dmCommand; rw [dmOptions_bad _ _ (key dmSpec dm_ok posix h)]
  · unfold agCommand; rw [agOptions_bad _ _ (key agSpec ag_ok posix h)]

/-! ## Examples -/

/-- Options, a target, a service, and a local program whose arguments look like options. -/
example (y : CvSys) : cvCommand y [c!"-tT", c!"--buffer=100", c!"-sdom-a", c!"work", c!"qubes.Filecopy", c!"/bin/cat", c!"-t", c!"--help"] =
    cvMain y [.filterOut, .filterErr, .bufferSize c!"100", .source c!"dom-a"]
      [c!"work", c!"qubes.Filecopy", c!"/bin/cat", c!"-t", c!"--help"] := by
  refine C109_client_vm y [c!"-tT", c!"--buffer=100", c!"-sdom-a"]
    [.opt 116 none, .opt 84 none, .opt 98 (some c!"100"), .opt 115 (some c!"dom-a")] ?_ c!"work" (.inr (by decide))
    [c!"qubes.Filecopy", c!"/bin/cat", c!"-t", c!"--help"]
  exact ((C109_words cvSpec cv_ok true _ _ _).1 ⟨rfl, by decide⟩)

/-- `--no-filter` could be two options. -/
example (y : CvSys) : ∃ st, cvCommand y [c!"--no-filter", c!"work", c!"x"] = (none, .exit st) :=
  ⟨2, rfl⟩

/-- Without the two dashes a target that begins with a dash is taken as an option. -/
example (y : CvSys) : cvCommand y [c!"-t", c!"work", c!"x"] = cvMain y [.filterOut] [c!"work", c!"x"] := rfl

/-- qrexec-client moves words that are no options behind the options, unless POSIXLY_CORRECT is set. -/
example (w : QcWorld) : qcCommand w false [c!"user:ls", c!"-d", c!"work"] = qcMain w [.domain c!"work"] [c!"user:ls"] ∧
    qcCommand w true [c!"user:ls", c!"-d", c!"work"] = qcMain w [] [c!"user:ls", c!"-d", c!"work"] := ⟨rfl, rfl⟩

example : dmCommand false [c!"-q", c!"--uuid=0b0f", c!"--", c!"12", c!"work", c!"user"] =
    some ({ quiet := true, uuid := some c!"0b0f" }, 12, c!"work", some c!"user") := by decide

/-- An id that is no number is taken as that of dom0. -/
example : dmCommand false [c!"--uuid=0b0f", c!"work", c!"user"] = some ({ uuid := some c!"0b0f" }, 0, c!"user", none) := by decide

example : dmCommand false [c!"12", c!"work"] = none := by decide

example : agCommand false [c!"-S", c!"-a", c!"/tmp/x"] = some { trigger := c!"/tmp/x", fork := none } := by decide

/-- An empty text for the fork servers is no `-S`. -/
example : agCommand false [c!"--fork-server-socket="] = some { fork := some [] } := by decide

end Qrexec
