import Verif.Spec.DataPath
import Mathlib.Tactic.Tauto
import Mathlib.Tactic.SplitIfs

/-!
# Lemmas on the incoming direction of the data connection
-/
namespace Qrexec

theorem flush_spec (ks : List Sys) (b : Str) :
    (flushClientData ks b).2.2.1 ++ (flushClientData ks b).2.1 = b ∧
    ((flushClientData ks b).1 = .ok → (flushClientData ks b).2.1 = []) ∧
    (flushClientData ks b).1 ≠ .aborted ∧
    ((∀ k ∈ ks, k = .eagain ∨ ∃ n, k = .part n) → (flushClientData ks b).1 ≠ .error) ∧
    (∀ k ∈ (flushClientData ks b).2.2.2, k ∈ ks) := by
  induction ks generalizing b with
  | nil => cases b <;> simp [flushClientData]
  | cons k ks ih =>
    cases b with
    | nil => simp [flushClientData]
    | cons b bs =>
      cases k with
      | part n =>
        rw [flushClientData]
        obtain ⟨h1, h2, h3, h4, h5⟩ := ih ((b :: bs).drop (n + 1))
        refine ⟨?_, h2, h3, fun h => h4 (fun k hk => h k (List.mem_cons_of_mem _ hk)),
          fun k hk => List.mem_cons_of_mem _ (h5 k hk)⟩
        simp only [List.append_assoc]
        rw [h1, List.take_append_drop]
      | zero =>
        rw [flushClientData]
        obtain ⟨h1, h2, h3, h4, h5⟩ := ih (b :: bs)
        exact ⟨h1, h2, h3, fun h => h4 (fun k hk => h k (List.mem_cons_of_mem _ hk)),
          fun k hk => List.mem_cons_of_mem _ (h5 k hk)⟩
      | eagain => simp [flushClientData]; tauto
      | eintr => simp [flushClientData]; tauto
      | error => simp [flushClientData]; tauto

theorem writeLoop_spec (ks : List Sys) (d : Str) :
    (∃ lost, (writeStdinLoop ks d).2.2.1 ++ (writeStdinLoop ks d).2.1 ++ lost = d ∧
      ((writeStdinLoop ks d).1 = .ok ∨ (writeStdinLoop ks d).1 = .buffered → lost = [])) ∧
    ((writeStdinLoop ks d).1 = .ok → (writeStdinLoop ks d).2.1 = []) ∧
    ((∀ k ∈ ks, k = .eagain ∨ ∃ n, k = .part n) → (writeStdinLoop ks d).1 ≠ .error) ∧
    (∀ k ∈ (writeStdinLoop ks d).2.2.2, k ∈ ks) := by
  induction ks generalizing d with
  | nil => cases d <;> simp [writeStdinLoop]
  | cons k ks ih =>
    cases d with
    | nil => simp [writeStdinLoop]
    | cons b bs =>
      cases k with
      | part n =>
        rw [writeStdinLoop]
        obtain ⟨⟨lost, h1, h1'⟩, h2, h4, h5⟩ := ih ((b :: bs).drop (n + 1))
        refine ⟨⟨lost, ?_, h1'⟩, h2, fun h => h4 (fun k hk => h k (List.mem_cons_of_mem _ hk)),
          fun k hk => List.mem_cons_of_mem _ (h5 k hk)⟩
        simp only [List.append_assoc] at h1 ⊢
        rw [h1, List.take_append_drop]
      | zero =>
        refine ⟨⟨b :: bs, by simp [writeStdinLoop]⟩, by simp [writeStdinLoop], by simp [writeStdinLoop], ?_⟩
        simp [writeStdinLoop]; tauto
      | eagain =>
        refine ⟨⟨[], by simp [writeStdinLoop]⟩, by simp [writeStdinLoop], by simp [writeStdinLoop], ?_⟩
        simp [writeStdinLoop]; tauto
      | eintr =>
        refine ⟨⟨b :: bs, by simp [writeStdinLoop]⟩, by simp [writeStdinLoop], ?_, ?_⟩
        · intro h; have := h .eintr (by simp); simp at this
        · simp [writeStdinLoop]; tauto
      | error =>
        refine ⟨⟨b :: bs, by simp [writeStdinLoop]⟩, by simp [writeStdinLoop], ?_, ?_⟩
        · intro h; have := h .error (by simp); simp at this
        · simp [writeStdinLoop]; tauto

theorem writeStdin_nil (ks : List Sys) (d : Str) : writeStdin ks d [] = writeStdinLoop ks d := by
  simp [writeStdin]

/-! ## Data in lists of items -/

theorem dataBefore_cons (mx : Nat) (i : InItem) (q : List InItem) : dataBefore mx (i :: q) =
    if endsData mx i then []
    else match i with
      | .broken => []
      | .msg t d => if isDataType t then d ++ dataBefore mx q else dataBefore mx q := rfl

theorem dataBefore_prefix (mx : Nat) (l m : List InItem) : dataBefore mx l <+: dataBefore mx (l ++ m) := by
  induction l with
  | nil => exact List.nil_prefix
  | cons i l ih =>
    rw [List.cons_append, dataBefore_cons, dataBefore_cons]
    by_cases h : endsData mx i = true
    · rw [if_pos h, if_pos h]; exact List.prefix_rfl
    · rw [if_neg h, if_neg h]
      cases i with
      | broken => exact List.prefix_rfl
      | msg t d =>
        simp only
        by_cases ht : isDataType t = true
        · rw [if_pos ht, if_pos ht]
          exact (List.prefix_append_right_inj d).2 ih
        · rw [if_neg ht, if_neg ht]; exact ih

theorem dataBefore_ended (mx : Nat) (l m : List InItem) (h : ∃ i ∈ l, endsData mx i = true) :
    dataBefore mx (l ++ m) = dataBefore mx l := by
  induction l with
  | nil => simp at h
  | cons i l ih =>
    rw [List.cons_append, dataBefore_cons, dataBefore_cons]
    by_cases hi : endsData mx i = true
    · rw [if_pos hi, if_pos hi]
    · rw [if_neg hi, if_neg hi]
      have h' : ∃ i ∈ l, endsData mx i = true := by
        obtain ⟨j, hj, he⟩ := h
        rcases List.mem_cons.1 hj with rfl | hj
        · exact absurd he hi
        · exact ⟨j, hj, he⟩
      cases i with
      | broken => rfl
      | msg t d => simp only; rw [ih h']

theorem dataBefore_open (mx : Nat) (l m : List InItem) (h : ∀ i ∈ l, endsData mx i = false) :
    dataBefore mx (l ++ m) = dataBefore mx l ++ dataBefore mx m := by
  induction l with
  | nil => rfl
  | cons i l ih =>
    rw [List.cons_append, dataBefore_cons, dataBefore_cons]
    have hi := h i (List.mem_cons_self ..)
    rw [hi, if_neg (by simp), if_neg (by simp)]
    have := ih (fun j hj => h j (List.mem_cons_of_mem _ hj))
    cases i with
    | broken => simp [endsData] at hi
    | msg t d =>
      simp only
      rw [this]
      split_ifs <;> simp

theorem conv_append (r : Bool) (a b : Str) : conv r (a ++ b) = conv r a ++ conv r b := by
  unfold conv; split_ifs <;> simp

theorem conv_prefix (r : Bool) {a b : Str} (h : a <+: b) : conv r a <+: conv r b := by
  obtain ⟨t, rfl⟩ := h
  exact ⟨conv r t, (conv_append r a t).symm⟩

/-! ## The invariant -/

/-- What is written to the local process is a prefix of the data for it. -/
def Prefixed (c : IoCfg) (init : Str) (s : IoSt) : Prop :=
  s.written <+: init ++ conv c.replaceOut (dataBefore c.maxChunk s.seen)

/-- While it can be written to, the rest is in the buffer. -/
def Kept (c : IoCfg) (init : Str) (s : IoSt) : Prop :=
  s.stdin = true → s.written ++ s.buf = init ++ conv c.replaceOut (dataBefore c.maxChunk s.seen) ∧
    ∀ i ∈ s.seen, endsData c.maxChunk i = false

theorem Prefixed.of_kept {c init s} (h : Kept c init s) (hs : s.stdin = true) : Prefixed c init s :=
  ⟨s.buf, (h hs).1⟩

theorem Prefixed.more {c : IoCfg} {init : Str} {s : IoSt} (h : Prefixed c init s) (l : List InItem) :
    s.written <+: init ++ conv c.replaceOut (dataBefore c.maxChunk (s.seen ++ l)) :=
  h.trans ((List.prefix_append_right_inj init).2 (conv_prefix _ (dataBefore_prefix _ _ _)))

/-- What the reception of items does to the local process. -/
structure RecvOk (c : IoCfg) (init : Str) (q : List InItem) (ks : List Sys) (s : IoSt) (r : Rc) (s' : IoSt) : Prop where
  items : s'.seen ++ s'.inbox = s.seen ++ q
  stdin : s'.stdin = s.stdin
  pref : Prefixed c init s'
  kept : r = .ok ∨ r = .exited → Kept c init s'
  eofSeen : r = .eof → (∀ k ∈ ks, k = .eagain ∨ ∃ n, k = .part n) →
    (∃ i ∈ s'.seen, endsData c.maxChunk i = true) ∧ hasEof s'.seen ∧
    s'.written = init ++ conv c.replaceOut (dataBefore c.maxChunk s'.seen)
  bound : s'.buf.length ≤ max s.buf.length c.maxChunk
  closed : s.stdin = false → r ≠ .eof
  grows : s.seen <+: s'.seen
  quiet : s.stdin = false → s'.written = s.written

theorem remoteLoop_spec (c : IoCfg) (init : Str) (q : List InItem) (ks : List Sys) (s : IoSt)
    (hp : Prefixed c init s) (hk : Kept c init s) (hb : s.stdin = true → s.buf = []) :
    RecvOk c init q ks s (remoteLoop c q ks s).1 (remoteLoop c q ks s).2 := by
  induction q generalizing ks s with
  | nil =>
    exact ⟨by simp [remoteLoop], rfl, hp, fun _ => hk, by simp [remoteLoop], by simp [remoteLoop]; omega,
      by simp [remoteLoop], by simp [remoteLoop], by simp [remoteLoop]⟩
  | cons i q ih =>
    cases i with
    | broken =>
      exact ⟨by simp [remoteLoop], rfl, hp.more _, by simp [remoteLoop], by simp [remoteLoop],
        by simp [remoteLoop]; omega, by simp [remoteLoop], by simp [remoteLoop], by simp [remoteLoop]⟩
    | msg t d =>
      -- continuing after an item
      have cont : ∀ (ks' : List Sys) (s1 : IoSt), s1.seen = s.seen ++ [.msg t d] → s1.stdin = s.stdin →
          s1.buf.length ≤ max s.buf.length c.maxChunk → Prefixed c init s1 → Kept c init s1 →
          (s1.stdin = true → s1.buf = []) → (∀ k ∈ ks', k ∈ ks) → (s.stdin = false → s1.written = s.written) →
          RecvOk c init (.msg t d :: q) ks s (remoteLoop c q ks' s1).1 (remoteLoop c q ks' s1).2 := by
        intro ks' s1 h1 h2 h3 h4 h5 h6 h7 h8
        have := ih ks' s1 h4 h5 h6
        refine ⟨?_, ?_, this.pref, this.kept, fun hr hx => this.eofSeen hr (fun k hk => hx k (h7 k hk)), ?_,
          fun h => this.closed (h2.trans h), ?_, fun h => (this.quiet (h2.trans h)).trans (h8 h)⟩
        · rw [this.items, h1]; simp
        · rw [this.stdin, h2]
        · have := this.bound; omega
        · refine List.IsPrefix.trans ?_ this.grows
          rw [h1]; exact List.prefix_append _ _
      rw [remoteLoop]
      dsimp only
      by_cases hlen : d.length > c.maxChunk
      · rw [if_pos hlen]
        exact ⟨by simp, rfl, hp.more _, by simp, by simp, by simp; omega, by simp, by simp, by simp⟩
      · rw [if_neg hlen]
        have hends : endsData c.maxChunk (.msg t d) = (isDataType t && d.isEmpty) := by
          simp only [endsData]; rw [decide_eq_false hlen, Bool.false_or]
        by_cases ht : (t == msgStdin || t == msgStdout) = true
        · rw [if_pos ht]
          have ht' : isDataType t = true := ht
          by_cases hs : s.stdin = true
          · rw [if_neg (by rw [hs]; simp)]
            have hbuf := hb hs
            obtain ⟨hk1, hk2⟩ := hk hs
            by_cases hd : d.length = 0
            · have hd' : d = [] := List.eq_nil_of_length_eq_zero hd
              subst hd'
              rw [if_pos (by simp)]
              have he : endsData c.maxChunk (.msg t []) = true := by rw [hends, ht']; rfl
              refine ⟨by simp, rfl, hp.more _, by simp, ?_, by simp; omega, by simp [hs], by simp, by simp [hs]⟩
              intro _ _
              refine ⟨⟨.msg t [], by simp, he⟩, ⟨t, ht', by simp⟩, ?_⟩
              simp only
              rw [dataBefore_open _ _ _ hk2]
              have : dataBefore c.maxChunk [.msg t []] = [] := by
                rw [dataBefore_cons, if_pos he]
              rw [this, List.append_nil, ← hk1, hbuf, List.append_nil]
            · rw [if_neg (by simpa using hd)]
              have he : endsData c.maxChunk (.msg t d) = false := by
                rw [hends, ht']
                cases d with
                | nil => simp at hd
                | cons a d => rfl
              have hdat : dataBefore c.maxChunk (s.seen ++ [.msg t d]) = dataBefore c.maxChunk s.seen ++ d := by
                rw [dataBefore_open _ _ _ hk2]
                congr 1
                rw [dataBefore_cons, he, if_neg (by simp)]; dsimp only
                rw [if_pos ht']; simp only [dataBefore, List.append_nil]
              have hall : ∀ i ∈ s.seen ++ [.msg t d], endsData c.maxChunk i = false := by
                intro i hi
                rcases List.mem_append.1 hi with h | h
                · exact hk2 i h
                · rw [List.mem_singleton.1 h]; exact he
              have hconv : (if c.replaceOut = true then doReplaceChars d else d) = conv c.replaceOut d := by
                unfold conv doReplaceChars; rfl
              rw [hconv]
              rw [hbuf, List.append_nil] at hk1
              rw [hbuf, writeStdin_nil]
              obtain ⟨⟨lost, w1, w2⟩, w3, w4, w5⟩ := writeLoop_spec ks (conv c.replaceOut d)
              have hconvlen : (conv c.replaceOut d).length = d.length := by unfold conv; split_ifs <;> simp
              generalize writeStdinLoop ks (conv c.replaceOut d) = wr at w1 w2 w3 w4 w5
              obtain ⟨r, b, w, ks'⟩ := wr
              simp only at w1 w2 w3 w4 w5
              have hpre : s.written ++ w <+: init ++ conv c.replaceOut
                  (dataBefore c.maxChunk (s.seen ++ [.msg t d])) := by
                rw [hdat, conv_append, ← w1, hk1]
                refine ⟨b ++ lost, ?_⟩
                simp
              have hbl : b.length ≤ c.maxChunk := by
                have := congrArg List.length w1
                rw [hconvlen] at this
                simp only [List.length_append] at this
                omega
              cases r with
              | ok =>
                have hb0 := w3 rfl
                have hl := w2 (Or.inl rfl)
                subst hb0 hl
                simp only [List.append_nil] at w1
                refine cont ks' _ rfl rfl (by simp) hpre ?_ (fun _ => rfl) w5 (fun h => absurd h (by simp [hs]))
                intro _
                refine ⟨?_, hall⟩
                simp only
                rw [hdat, conv_append, hk1, w1]
                simp
              | buffered =>
                have hl := w2 (Or.inr rfl)
                subst hl
                rw [List.append_nil] at w1
                refine ⟨by simp, rfl, hpre, fun _ _ => ⟨?_, hall⟩, by simp, by simp only; omega, by simp, by simp,
                  by simp [hs]⟩
                simp only
                rw [hdat, conv_append, hk1, ← w1]
                simp
              | error =>
                refine ⟨by simp, rfl, hpre, by simp, fun _ hx => absurd rfl (w4 hx), by simp only; omega,
                  by simp [hs], by simp, by simp [hs]⟩
              | aborted =>
                exact ⟨by simp, rfl, hpre, by simp, by simp, by simp only; omega, by simp, by simp, by simp [hs]⟩
          · have hs' : s.stdin = false := by simpa using hs
            rw [if_pos (by rw [hs']; rfl)]
            exact cont ks _ rfl rfl (by simp only; omega) (hp.more _) (fun h => absurd h hs) (fun h => absurd h hs)
              (fun k hk => hk) (fun _ => rfl)
        · rw [if_neg ht]
          have ht' : isDataType t = false := by simpa [isDataType, msgStdin, msgStdout] using ht
          have he : endsData c.maxChunk (.msg t d) = false := by rw [hends, ht']; rfl
          have hdat : ∀ l, (∀ i ∈ l, endsData c.maxChunk i = false) →
              dataBefore c.maxChunk (l ++ [.msg t d]) = dataBefore c.maxChunk l := by
            intro l hl
            rw [dataBefore_open _ _ _ hl]
            have : dataBefore c.maxChunk [.msg t d] = [] := by
              rw [dataBefore_cons, he, if_neg (by simp)]; dsimp only
              rw [ht', if_neg (by simp)]; rfl
            rw [this, List.append_nil]
          have kept' : ∀ (x : IoSt), x.stdin = s.stdin → x.written = s.written → x.buf = s.buf →
              x.seen = s.seen ++ [.msg t d] → Kept c init x := by
            intro x h1 h2 h3 h4 hx
            obtain ⟨a, b⟩ := hk (h1 ▸ hx)
            refine ⟨?_, ?_⟩
            · rw [h2, h3, h4, hdat _ b, a]
            · rw [h4]
              intro i hi
              rcases List.mem_append.1 hi with h | h
              · exact b i h
              · rw [List.mem_singleton.1 h]; exact he
          by_cases h2 : (t == msgStderr) = true
          · rw [if_pos h2]
            by_cases h3 : c.isService = true
            · rw [if_pos h3]
              exact cont ks _ rfl rfl (by simp only; omega) (hp.more _) (kept' _ rfl rfl rfl rfl) hb (fun k hk => hk)
                  (fun _ => rfl)
            · rw [if_neg h3]
              exact cont ks _ rfl rfl (by simp only; omega) (hp.more _) (kept' _ rfl rfl rfl rfl) hb (fun k hk => hk)
                  (fun _ => rfl)
          · rw [if_neg h2]
            by_cases h3 : (t == msgExitCode) = true
            · rw [if_pos h3]
              by_cases h4 : c.isService = true
              · rw [if_pos h4]
                exact cont ks _ rfl rfl (by simp only; omega) (hp.more _) (kept' _ rfl rfl rfl rfl) hb (fun k hk => hk)
                  (fun _ => rfl)
              · rw [if_neg h4]
                exact ⟨by simp, rfl, hp.more _, fun _ => kept' _ rfl rfl rfl rfl, by simp, by simp only; omega,
                  by simp, by simp, by simp⟩
            · rw [if_neg h3]
              exact ⟨by simp, rfl, hp.more _, by simp, by simp, by simp only; omega, by simp, by simp, by simp⟩

theorem handleRemote_spec (c : IoCfg) (init : Str) (ks : List Sys) (s : IoSt)
    (hp : Prefixed c init s) (hk : Kept c init s) :
    RecvOk c init s.inbox ks s (handleRemoteData c ks s).1 (handleRemoteData c ks s).2 ∨
    (handleRemoteData c ks s).1 = .eof ∧ (handleRemoteData c ks s).2.seen = s.seen ∧
      (handleRemoteData c ks s).2.inbox = s.inbox ∧ Prefixed c init (handleRemoteData c ks s).2 ∧
      (handleRemoteData c ks s).2.buf.length ≤ s.buf.length ∧
      ¬ (∀ k ∈ ks, k = .eagain ∨ ∃ n, k = .part n) := by
  unfold handleRemoteData
  by_cases hs : s.stdin = true
  · rw [if_neg (by rw [hs]; simp)]
    obtain ⟨h1, h2, h3, h4, h5⟩ := flush_spec ks s.buf
    generalize flushClientData ks s.buf = fr at h1 h2 h3 h4 h5 ⊢
    obtain ⟨r, b, w, ks'⟩ := fr
    simp only at h1 h2 h3 h4 h5
    obtain ⟨hk1, hk2⟩ := hk hs
    have hkept : Kept c init { s with buf := b, written := s.written ++ w } := by
      intro _
      refine ⟨?_, hk2⟩
      simp only
      rw [List.append_assoc, h1, hk1]
    have hpre : Prefixed c init { s with buf := b, written := s.written ++ w } := .of_kept hkept hs
    have hbl : b.length ≤ s.buf.length := by
      have := congrArg List.length h1
      rw [List.length_append] at this; omega
    cases r with
    | ok =>
      left
      have hb := h2 rfl
      subst hb
      have := remoteLoop_spec c init s.inbox ks' { s with buf := [], written := s.written ++ w } hpre hkept
        (fun _ => rfl)
      refine ⟨this.items, this.stdin, this.pref, this.kept, fun hr hx => this.eofSeen hr (fun k hk => hx k (h5 k hk)),
        ?_, this.closed, this.grows, fun h => absurd h (by simp [hs])⟩
      have := this.bound
      simp only [List.length_nil] at this ⊢
      omega
    | buffered =>
      left
      exact ⟨rfl, rfl, hpre, fun _ => hkept, by simp, by simp only; omega, by simp [hs], by simp, by simp [hs]⟩
    | error =>
      right
      exact ⟨rfl, rfl, rfl, hpre, hbl, fun hx => h4 hx rfl⟩
    | aborted => exact absurd rfl h3
  · have hs' : s.stdin = false := by simpa using hs
    rw [if_pos (by rw [hs']; rfl)]
    left
    exact remoteLoop_spec c init s.inbox ks s hp hk (fun h => absurd h hs)

end Qrexec

namespace Qrexec

/-! ## The loop -/

/-- The incoming direction is not touched, except that stdin may be closed. -/
structure LessIn (s s' : IoSt) : Prop where
  buf : s'.buf = s.buf
  written : s'.written = s.written
  seen : s'.seen = s.seen
  inbox : s'.inbox = s.inbox
  stdin : s'.stdin = s.stdin ∨ s'.stdin = false

theorem LessIn.refl (s : IoSt) : LessIn s s := ⟨rfl, rfl, rfl, rfl, .inl rfl⟩

theorem LessIn.trans {a b c : IoSt} (h : LessIn a b) (k : LessIn b c) : LessIn a c :=
  ⟨k.buf.trans h.buf, k.written.trans h.written, k.seen.trans h.seen, k.inbox.trans h.inbox, by
    rcases k.stdin with e | e
    · rcases h.stdin with f | f
      · exact .inl (e.trans f)
      · exact .inr (e.trans f)
    · exact .inr e⟩

theorem LessIn.pref {c init} {s s' : IoSt} (h : LessIn s s') (p : Prefixed c init s) : Prefixed c init s' := by
  unfold Prefixed at *; rw [h.written, h.seen]; exact p

theorem LessIn.kept {c init} {s s' : IoSt} (h : LessIn s s') (p : Kept c init s) : Kept c init s' := by
  intro hs
  rcases h.stdin with e | e
  · rw [h.written, h.buf, h.seen]; exact p (e ▸ hs)
  · rw [e] at hs; cases hs

theorem sendChunk_less (t d o s) : LessIn s (sendChunk t d o s).2 ∧ (sendChunk t d o s).2.stdin = s.stdin := by
  unfold sendChunk; split_ifs <;> exact ⟨⟨rfl, rfl, rfl, rfl, .inl rfl⟩, rfl⟩

theorem inputOut_less (c : IoCfg) (t : Nat) (os : List OutStep) (s : IoSt) :
    LessIn s (inputOut c t os s).2 ∧ (inputOut c t os s).2.stdin = s.stdin := by
  induction os generalizing s with
  | nil => exact ⟨.refl s, rfl⟩
  | cons o os ih =>
    have fin : ∀ d (s1 : IoSt), LessIn s s1 → s1.stdin = s.stdin →
        LessIn s (match sendChunk t d o s1 with
          | (none, s) => inputOut c t os s
          | (some r, s) => (r, s)).2 ∧ (match sendChunk t d o s1 with
          | (none, s) => inputOut c t os s
          | (some r, s) => (r, s)).2.stdin = s.stdin := by
      intro d s1 h1 h2
      obtain ⟨h3, h4⟩ := sendChunk_less t d o s1
      generalize sendChunk t d o s1 = r at h3 h4 ⊢
      obtain ⟨r, s2⟩ := r
      cases r with
      | none =>
        obtain ⟨h5, h6⟩ := ih s2
        exact ⟨h1.trans (h3.trans h5), h6.trans (h4.trans h2)⟩
      | some r => exact ⟨h1.trans h3, h4.trans h2⟩
    rw [inputOut]
    dsimp only
    by_cases h1 : o.space ≤ 8
    · rw [if_pos h1]; exact ⟨.refl s, rfl⟩
    rw [if_neg h1]
    by_cases h2 : (s.pfx.length != 0) = true
    · rw [if_pos h2]
      exact fin _ _ ⟨rfl, rfl, rfl, rfl, .inl rfl⟩ rfl
    rw [if_neg h2]
    by_cases h3 : (s.stdout == false) = true
    · rw [if_pos h3]; exact ⟨.refl s, rfl⟩
    rw [if_neg h3]
    cases o.read with
    | again => exact ⟨.refl s, rfl⟩
    | error => exact ⟨.refl s, rfl⟩
    | connReset => exact sendChunk_less t [] o s
    | got d => exact fin _ _ ⟨rfl, rfl, rfl, rfl, .inl rfl⟩ rfl

theorem inputErr_less (c : IoCfg) (os : List OutStep) (s : IoSt) :
    LessIn s (inputErr c os s).2 ∧ (inputErr c os s).2.stdin = s.stdin := by
  induction os generalizing s with
  | nil => exact ⟨.refl s, rfl⟩
  | cons o os ih =>
    rw [inputErr]
    dsimp only
    by_cases h1 : o.space ≤ 8
    · rw [if_pos h1]; exact ⟨.refl s, rfl⟩
    rw [if_neg h1]
    cases o.read with
    | again => exact ⟨.refl s, rfl⟩
    | error => exact ⟨.refl s, rfl⟩
    | connReset => exact sendChunk_less msgStderr [] o s
    | got d =>
      dsimp only
      generalize hs1 : (s.gotErr c o (d.take (min (o.space - 8).toNat c.maxChunk))) = s1
      have h2 : LessIn s s1 := by rw [← hs1]; exact ⟨rfl, rfl, rfl, rfl, .inl rfl⟩
      have h2' : s1.stdin = s.stdin := by rw [← hs1]; rfl
      obtain ⟨h3, h4⟩ := sendChunk_less msgStderr (d.take (min (o.space - 8).toNat c.maxChunk)) o s1
      generalize sendChunk msgStderr (d.take (min (o.space - 8).toNat c.maxChunk)) o s1 = r at h3 h4 ⊢
      obtain ⟨r, s2⟩ := r
      cases r with
      | none =>
        obtain ⟨h5, h6⟩ := ih s2
        exact ⟨h2.trans (h3.trans h5), h6.trans (h4.trans h2')⟩
      | some r => exact ⟨h2.trans h3, h4.trans h2'⟩

theorem sendEof_less (c ok s) : LessIn s (sendEof c ok s) ∧ (sendEof c ok s).stdin = s.stdin := by
  unfold sendEof; split_ifs <;> exact ⟨⟨rfl, rfl, rfl, rfl, .inl rfl⟩, rfl⟩

theorem closeStdin_less (c ok s) : LessIn s (closeStdin c ok s) ∧ (closeStdin c ok s).stdin = false := by
  unfold closeStdin
  split_ifs
  · have := (sendEof_less c ok s).1
    exact ⟨⟨this.buf, this.written, this.seen, this.inbox, .inr rfl⟩, rfl⟩
  · exact ⟨⟨rfl, rfl, rfl, rfl, .inr rfl⟩, rfl⟩
  · exact ⟨⟨rfl, rfl, rfl, rfl, .inr rfl⟩, rfl⟩

theorem closeStdout_less (c s) : LessIn s (closeStdout c s) ∧
    (c.exitOnStdoutEof = false → (closeStdout c s).stdin = s.stdin) := by
  unfold closeStdout
  split_ifs with h
  · exact ⟨⟨rfl, rfl, rfl, rfl, .inr rfl⟩, fun h' => by rw [h] at h'; cases h'⟩
  · exact ⟨⟨rfl, rfl, rfl, rfl, .inl rfl⟩, fun _ => rfl⟩

theorem ioOut_less (c t ready s) : LessIn s (ioOut c t ready s).st ∧
    (c.exitOnStdoutEof = false → (ioOut c t ready s).st.stdin = s.stdin) := by
  unfold ioOut
  split_ifs
  · obtain ⟨h1, h2⟩ := inputOut_less c c.outType t.out s
    generalize inputOut c c.outType t.out s = r at h1 h2 ⊢
    obtain ⟨r, s1⟩ := r
    have hc := closeStdout_less c s1
    cases r with
    | error =>
      dsimp only
      split_ifs
      · exact ⟨h1.trans hc.1, fun h => (hc.2 h).trans h2⟩
      · exact ⟨h1, fun _ => h2⟩
    | eof => exact ⟨h1.trans hc.1, fun h => (hc.2 h).trans h2⟩
    | ok => exact ⟨h1, fun _ => h2⟩
    | exited => exact ⟨h1, fun _ => h2⟩
    | aborted => exact ⟨h1, fun _ => h2⟩
  · exact ⟨.refl s, fun _ => rfl⟩

theorem ioErr_less (c t ready s) : LessIn s (ioErr c t ready s).st ∧ (ioErr c t ready s).st.stdin = s.stdin := by
  unfold ioErr
  split_ifs
  · obtain ⟨h1, h2⟩ := inputErr_less c t.err s
    generalize inputErr c t.err s = r at h1 h2 ⊢
    obtain ⟨r, s1⟩ := r
    cases r with
    | eof => exact ⟨h1.trans ⟨rfl, rfl, rfl, rfl, .inl rfl⟩, h2⟩
    | error => exact ⟨h1, h2⟩
    | ok => exact ⟨h1, h2⟩
    | exited => exact ⟨h1, h2⟩
    | aborted => exact ⟨h1, h2⟩
  · exact ⟨.refl s, rfl⟩

theorem ioUsr1_less (c t s) : LessIn s (ioUsr1 c t s) ∧
    (c.exitOnStdoutEof = false → (ioUsr1 c t s).stdin = s.stdin) := by
  unfold ioUsr1
  split_ifs
  · obtain ⟨h1, h2⟩ := closeStdout_less c s
    exact ⟨⟨h1.buf, h1.written, h1.seen, h1.inbox, h1.stdin⟩, h2⟩
  · exact ⟨.refl s, fun _ => rfl⟩

theorem ioReap_less (c t s) : LessIn s (ioReap c t s) ∧ (t.reaped = none → (ioReap c t s).stdin = s.stdin) := by
  unfold ioReap
  cases h : t.reaped with
  | none => exact ⟨.refl s, fun _ => rfl⟩
  | some st =>
    dsimp only
    split_ifs
    · have := (closeStdin_less c t.eofOk { s with localStatus := some st }).1
      exact ⟨⟨this.buf, this.written, this.seen, this.inbox, this.stdin⟩, by simp⟩
    · exact ⟨.refl s, fun _ => rfl⟩

theorem ioAllDone_less (c t s r) (h : ioAllDone c t s = some r) : LessIn s r.st ∧ r.st.stdin = s.stdin := by
  unfold ioAllDone at h
  split_ifs at h <;> cases h <;> exact ⟨⟨rfl, rfl, rfl, rfl, .inl rfl⟩, rfl⟩

/-- Nothing but an end of file has closed stdin. -/
def DoneIn (c : IoCfg) (init : Str) (s : IoSt) : Prop :=
  s.stdin = false → (∃ i ∈ s.seen, endsData c.maxChunk i = true) ∧ hasEof s.seen ∧
    s.written = init ++ conv c.replaceOut (dataBefore c.maxChunk s.seen)

theorem DoneIn.less {c init} {s s' : IoSt} (h : LessIn s s') (e : s'.stdin = s.stdin) (p : DoneIn c init s) :
    DoneIn c init s' := by
  intro hs
  rw [h.seen, h.written]
  exact p (e ▸ hs)

/-- An iteration without the exit of the local process, a hangup or a failing write. -/
def CleanTick (t : Tick) : Prop :=
  t.reaped = none ∧ t.stdinHup = false ∧ ∀ k ∈ t.writes, k = .eagain ∨ ∃ n, k = .part n

/-- What an iteration does to the incoming direction. -/
structure TickIn (c : IoCfg) (init : Str) (t : Tick) (s : IoSt) (r : IoStep) : Prop where
  items : r.st.seen ++ r.st.inbox = s.seen ++ s.inbox ++ t.arrive
  pref : Prefixed c init r.st
  kept : r.alive → Kept c init r.st
  bound : r.st.buf.length ≤ max s.buf.length c.maxChunk
  done : r.alive → CleanTick t → c.exitOnStdoutEof = false → DoneIn c init s → DoneIn c init r.st
  grows : s.seen <+: r.st.seen

theorem hasEof.mono {l m : List InItem} (h : hasEof l) (hp : l <+: m) : hasEof m := by
  obtain ⟨t, h1, h2⟩ := h
  exact ⟨t, h1, hp.subset h2⟩

theorem ioRemote_in (c : IoCfg) (init : Str) (t : Tick) (s : IoSt) (hp : Prefixed c init s) (hk : Kept c init s) :
    (ioRemote c t s).st.seen ++ (ioRemote c t s).st.inbox = s.seen ++ s.inbox ∧
    Prefixed c init (ioRemote c t s).st ∧
    ((ioRemote c t s).alive → Kept c init (ioRemote c t s).st) ∧
    (ioRemote c t s).st.buf.length ≤ max s.buf.length c.maxChunk ∧
    ((ioRemote c t s).alive → CleanTick t → c.exitOnStdoutEof = false → DoneIn c init s →
      DoneIn c init (ioRemote c t s).st) ∧
    s.seen <+: (ioRemote c t s).st.seen := by
  have hh := handleRemote_spec c init t.writes s hp hk
  unfold ioRemote
  generalize handleRemoteData c t.writes s = r at hh ⊢
  obtain ⟨r, s1⟩ := r
  simp only at hh
  have hci := closeStdin_less c t.eofOk s1
  rcases hh with hh | ⟨h1, h2, h3, h4, h5, h6⟩
  · have doneMore : s.stdin = false → DoneIn c init s → (∃ i ∈ s1.seen, endsData c.maxChunk i = true) ∧
        hasEof s1.seen ∧ s1.written = init ++ conv c.replaceOut (dataBefore c.maxChunk s1.seen) := by
      intro h hd
      obtain ⟨a, b, d⟩ := hd h
      have hw := hh.quiet h
      obtain ⟨l, hl⟩ := hh.grows
      refine ⟨?_, b.mono hh.grows, ?_⟩
      · obtain ⟨i, hi, he⟩ := a
        exact ⟨i, hh.grows.subset hi, he⟩
      · rw [← hl, dataBefore_ended _ _ _ a, hw, d]
    cases r with
    | error =>
      exact ⟨hh.items, hh.pref, fun h => absurd h id, hh.bound, fun h => absurd h id, hh.grows⟩
    | aborted =>
      exact ⟨hh.items, hh.pref, fun h => absurd h id, hh.bound, fun h => absurd h id, hh.grows⟩
    | eof =>
      refine ⟨?_, hci.1.pref hh.pref, fun _ h => ?_, ?_, fun _ hc _ _ h => ?_, ?_⟩
      · show (closeStdin c t.eofOk s1).seen ++ (closeStdin c t.eofOk s1).inbox = _
        rw [hci.1.seen, hci.1.inbox]; exact hh.items
      · have : (closeStdin c t.eofOk s1).stdin = true := h
        rw [hci.2] at this; cases this
      · show (closeStdin c t.eofOk s1).buf.length ≤ _
        rw [hci.1.buf]; exact hh.bound
      · obtain ⟨a, b, d⟩ := hh.eofSeen rfl hc.2.2
        show (∃ i ∈ (closeStdin c t.eofOk s1).seen, _) ∧ hasEof (closeStdin c t.eofOk s1).seen ∧
          (closeStdin c t.eofOk s1).written = init ++ conv c.replaceOut
            (dataBefore c.maxChunk (closeStdin c t.eofOk s1).seen)
        rw [hci.1.seen, hci.1.written]
        exact ⟨a, b, d⟩
      · show s.seen <+: (closeStdin c t.eofOk s1).seen
        rw [hci.1.seen]; exact hh.grows
    | ok =>
      refine ⟨hh.items, hh.pref, fun _ => hh.kept (.inl rfl), hh.bound, fun _ _ _ hd h => ?_, hh.grows⟩
      exact doneMore (hh.stdin.symm.trans h) hd
    | exited =>
      obtain ⟨k1, k2⟩ := sendEof_less c t.eofOk s1
      dsimp only
      generalize hs2 : (if s1.stdout = true then sendEof c t.eofOk s1 else s1) = s2
      have k3 : LessIn s1 s2 := by rw [← hs2]; split_ifs; exact k1; exact .refl _
      have k4 : s2.stdin = s1.stdin := by rw [← hs2]; split_ifs; exact k2; rfl
      obtain ⟨k5, k6⟩ := closeStdout_less c s2
      have k7 := k3.trans k5
      show (closeStdout c s2).seen ++ (closeStdout c s2).inbox = _ ∧ Prefixed c init (closeStdout c s2) ∧
        (_ → Kept c init (closeStdout c s2)) ∧ (closeStdout c s2).buf.length ≤ _ ∧
        (_ → CleanTick t → c.exitOnStdoutEof = false → DoneIn c init s → DoneIn c init (closeStdout c s2)) ∧
        s.seen <+: (closeStdout c s2).seen
      refine ⟨?_, k7.pref hh.pref, fun _ => k7.kept (hh.kept (.inr rfl)), ?_, fun _ _ he hd => ?_, ?_⟩
      · rw [k7.seen, k7.inbox]; exact hh.items
      · rw [k7.buf]; exact hh.bound
      · refine DoneIn.less k7 ((k6 he).trans k4) (fun h => ?_)
        exact doneMore (hh.stdin.symm.trans h) hd
      · rw [k7.seen]; exact hh.grows
  · subst h1
    refine ⟨?_, hci.1.pref h4, fun _ h => ?_, ?_, fun _ hc => absurd hc.2.2 h6, ?_⟩
    · show (closeStdin c t.eofOk s1).seen ++ (closeStdin c t.eofOk s1).inbox = _
      rw [hci.1.seen, hci.1.inbox, h2, h3]
    · have : (closeStdin c t.eofOk s1).stdin = true := h
      rw [hci.2] at this; cases this
    · show (closeStdin c t.eofOk s1).buf.length ≤ _
      rw [hci.1.buf]; omega
    · show s.seen <+: (closeStdin c t.eofOk s1).seen
      rw [hci.1.seen, h2]; exact List.prefix_rfl

end Qrexec
