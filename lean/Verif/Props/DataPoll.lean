import Verif.Spec.DataPoll
import Verif.Lemmas.DataOut

/-!
# C96: the data connection sleeps exactly when it has nothing to do
-/
namespace Qrexec
open Spec

/-- Nothing is taken back. -/
structure Onward (s s' : IoSt) : Prop where
  seen : s.seen.length ≤ s'.seen.length
  written : s.written.length ≤ s'.written.length
  readOut : s.readOut.length ≤ s'.readOut.length
  readErr : s.readErr.length ≤ s'.readErr.length
  stdin : s'.stdin = true → s.stdin = true
  stdout : s'.stdout = true → s.stdout = true
  stderr : s'.stderr = true → s.stderr = true

theorem Onward.refl (s : IoSt) : Onward s s := ⟨(Nat.le_refl _), (Nat.le_refl _), (Nat.le_refl _), (Nat.le_refl _), id, id, id⟩

theorem Onward.trans {a b c : IoSt} (h : Onward a b) (k : Onward b c) : Onward a c :=
  ⟨Nat.le_trans h.seen k.seen, Nat.le_trans h.written k.written, Nat.le_trans h.readOut k.readOut, Nat.le_trans h.readErr k.readErr,
    h.stdin ∘ k.stdin, h.stdout ∘ k.stdout, h.stderr ∘ k.stderr⟩

/-- Something has happened. -/
def Moved (s s' : IoSt) : Prop :=
  s.seen.length < s'.seen.length ∨ s.written.length < s'.written.length ∨ s.readOut.length < s'.readOut.length ∨
  s.readErr.length < s'.readErr.length ∨ s.stdin = true ∧ s'.stdin = false ∨ s.stdout = true ∧ s'.stdout = false ∨
  s.stderr = true ∧ s'.stderr = false

theorem Moved.ne {s s' : IoSt} (h : Moved s s') : s' ≠ s := by
  rintro rfl
  rcases h with h | h | h | h | ⟨h, k⟩ | ⟨h, k⟩ | ⟨h, k⟩
  iterate 4 exact absurd h (Nat.lt_irrefl _)
  all_goals rw [h] at k; cases k

theorem bool_down {a b : Bool} (h : b = true → a = true) (ha : a = false) : b = false := by
  cases b
  · rfl
  · rw [h rfl] at ha; cases ha

theorem Moved.then {a b c : IoSt} (h : Moved a b) (k : Onward b c) : Moved a c := by
  unfold Moved at *
  have := k.seen; have := k.written; have := k.readOut; have := k.readErr
  rcases h with h | h | h | h | ⟨h, e⟩ | ⟨h, e⟩ | ⟨h, e⟩
  · exact .inl (by omega)
  · exact .inr (.inl (by omega))
  · exact .inr (.inr (.inl (by omega)))
  · exact .inr (.inr (.inr (.inl (by omega))))
  · exact .inr (.inr (.inr (.inr (.inl ⟨h, bool_down k.stdin e⟩))))
  · exact .inr (.inr (.inr (.inr (.inr (.inl ⟨h, bool_down k.stdout e⟩)))))
  · exact .inr (.inr (.inr (.inr (.inr (.inr ⟨h, bool_down k.stderr e⟩)))))

theorem Onward.moved {a b c : IoSt} (h : Onward a b) (k : Moved b c) : Moved a c := by
  unfold Moved at *
  have := h.seen; have := h.written; have := h.readOut; have := h.readErr
  rcases k with k | k | k | k | ⟨e, k⟩ | ⟨e, k⟩ | ⟨e, k⟩
  · exact .inl (by omega)
  · exact .inr (.inl (by omega))
  · exact .inr (.inr (.inl (by omega)))
  · exact .inr (.inr (.inr (.inl (by omega))))
  · exact .inr (.inr (.inr (.inr (.inl ⟨h.stdin e, k⟩))))
  · exact .inr (.inr (.inr (.inr (.inr (.inl ⟨h.stdout e, k⟩)))))
  · exact .inr (.inr (.inr (.inr (.inr (.inr ⟨h.stderr e, k⟩)))))

theorem sendEof_onward (c ok) (s : IoSt) : Onward s (sendEof c ok s) ∧ (sendEof c ok s).stdout = s.stdout := by
  unfold sendEof
  split_ifs <;> exact ⟨⟨(Nat.le_refl _), (Nat.le_refl _), (Nat.le_refl _), (Nat.le_refl _), id, id, id⟩, rfl⟩

theorem closeStdin_onward (c ok) (s : IoSt) : Onward s (closeStdin c ok s) ∧ (closeStdin c ok s).stdin = false := by
  unfold closeStdin
  split_ifs
  · have h := (sendEof_onward c ok s).1
    exact ⟨⟨h.seen, h.written, h.readOut, h.readErr, (fun h => by cases h), (fun h => by cases h), h.stderr⟩, rfl⟩
  · exact ⟨⟨(Nat.le_refl _), (Nat.le_refl _), (Nat.le_refl _), (Nat.le_refl _), (fun h => by cases h), (fun h => by cases h), id⟩, rfl⟩
  · exact ⟨⟨(Nat.le_refl _), (Nat.le_refl _), (Nat.le_refl _), (Nat.le_refl _), (fun h => by cases h), id, id⟩, rfl⟩

theorem closeStdout_onward (c) (s : IoSt) : Onward s (closeStdout c s) ∧ (closeStdout c s).stdout = false := by
  unfold closeStdout
  split_ifs
  · exact ⟨⟨(Nat.le_refl _), (Nat.le_refl _), (Nat.le_refl _), (Nat.le_refl _), (fun h => by cases h), (fun h => by cases h), id⟩, rfl⟩
  · exact ⟨⟨(Nat.le_refl _), (Nat.le_refl _), (Nat.le_refl _), (Nat.le_refl _), id, (fun h => by cases h), id⟩, rfl⟩

theorem sendChunk_onward (t d o) (s : IoSt) : Onward s (sendChunk t d o s).2 := by
  unfold sendChunk
  split_ifs <;> exact ⟨(Nat.le_refl _), (Nat.le_refl _), (Nat.le_refl _), (Nat.le_refl _), id, id, id⟩

theorem inputOut_onward (c : IoCfg) (t : Nat) (os : List OutStep) (s : IoSt) : Onward s (inputOut c t os s).2 := by
  induction os generalizing s with
  | nil => exact .refl s
  | cons o os ih =>
    rw [inputOut]
    dsimp only
    have go : ∀ (d : Str) (s1 : IoSt), Onward s s1 →
        Onward s (match sendChunk t d o s1 with
          | (none, s) => inputOut c t os s
          | (some r, s) => (r, s)).2 := by
      intro d s1 h1
      have h2 := sendChunk_onward t d o s1
      generalize sendChunk t d o s1 = r at h2 ⊢
      obtain ⟨r, s2⟩ := r
      cases r with
      | none => exact h1.trans (h2.trans (ih s2))
      | some r => exact h1.trans h2
    split_ifs
    · exact .refl s
    · exact go _ _ ⟨(Nat.le_refl _), (Nat.le_refl _), (Nat.le_refl _), (Nat.le_refl _), id, id, id⟩
    · exact .refl s
    · split
      · exact .refl s
      · exact .refl s
      · exact sendChunk_onward t [] o s
      · exact go _ _ ⟨(Nat.le_refl _), (Nat.le_refl _), by simp, (Nat.le_refl _), id, id, id⟩

theorem inputErr_onward (c : IoCfg) (os : List OutStep) (s : IoSt) : Onward s (inputErr c os s).2 := by
  induction os generalizing s with
  | nil => exact .refl s
  | cons o os ih =>
    rw [inputErr]
    dsimp only
    split_ifs
    · exact .refl s
    · split
      · exact .refl s
      · exact .refl s
      · exact sendChunk_onward msgStderr [] o s
      · rename_i d _
        have h1 : Onward s (s.gotErr c o (d.take (min (o.space - 8).toNat c.maxChunk))) :=
          ⟨(Nat.le_refl _), (Nat.le_refl _), (Nat.le_refl _), by simp [IoSt.gotErr], id, id, id⟩
        have h2 := sendChunk_onward msgStderr (d.take (min (o.space - 8).toNat c.maxChunk)) o
          (s.gotErr c o (d.take (min (o.space - 8).toNat c.maxChunk)))
        generalize sendChunk msgStderr (d.take (min (o.space - 8).toNat c.maxChunk)) o
          (s.gotErr c o (d.take (min (o.space - 8).toNat c.maxChunk))) = r at h2 ⊢
        obtain ⟨r, s2⟩ := r
        cases r with
        | none => exact h1.trans (h2.trans (ih s2))
        | some r => exact h1.trans h2

theorem ioOut_onward (c t ready) (s : IoSt) : Onward s (ioOut c t ready s).st := by
  unfold ioOut
  split_ifs
  · have h1 := inputOut_onward c c.outType t.out s
    generalize inputOut c c.outType t.out s = r at h1 ⊢
    obtain ⟨r, s1⟩ := r
    have h2 := (closeStdout_onward c s1).1
    cases r with
    | error =>
      dsimp only
      split_ifs
      · exact h1.trans h2
      · exact h1
    | eof => exact h1.trans h2
    | ok => exact h1
    | exited => exact h1
    | aborted => exact h1
  · exact .refl s

theorem ioErr_onward (c t ready) (s : IoSt) : Onward s (ioErr c t ready s).st := by
  unfold ioErr
  split_ifs
  · have h1 := inputErr_onward c t.err s
    generalize inputErr c t.err s = r at h1 ⊢
    obtain ⟨r, s1⟩ := r
    cases r with
    | eof => exact h1.trans ⟨(Nat.le_refl _), (Nat.le_refl _), (Nat.le_refl _), (Nat.le_refl _), id, id, (fun h => by cases h)⟩
    | error => exact h1
    | ok => exact h1
    | exited => exact h1
    | aborted => exact h1
  · exact .refl s

/-- An item was received and something written. -/
def took (s : IoSt) (q : List InItem) (i : InItem) (b w : Str) : IoSt :=
  { s with inbox := q, seen := s.seen ++ [i], buf := b, written := s.written ++ w }

theorem remoteLoop_onward (c : IoCfg) (q : List InItem) (ks : List Sys) (s : IoSt) :
    Onward s (remoteLoop c q ks s).2 ∧ (q ≠ [] → s.seen.length < (remoteLoop c q ks s).2.seen.length) := by
  induction q generalizing ks s with
  | nil => exact ⟨⟨(Nat.le_refl _), (Nat.le_refl _), (Nat.le_refl _), (Nat.le_refl _), id, id, id⟩, fun h => absurd rfl h⟩
  | cons i q ih =>
    suffices h : ∀ s1 : IoSt, Onward s s1 → s.seen.length < s1.seen.length →
        remoteLoop c (i :: q) ks s = (.ok, s1) ∨ (∃ r, remoteLoop c (i :: q) ks s = (r, s1)) ∨
          (∃ ks', remoteLoop c (i :: q) ks s = remoteLoop c q ks' s1) →
        Onward s (remoteLoop c (i :: q) ks s).2 ∧ s.seen.length < (remoteLoop c (i :: q) ks s).2.seen.length by
      cases i with
      | broken =>
        obtain ⟨h1, h2⟩ := h { s with inbox := q, seen := s.seen ++ [.broken] }
          ⟨by simp, (Nat.le_refl _), (Nat.le_refl _), (Nat.le_refl _), id, id, id⟩ (by simp) (.inr (.inl ⟨.error, rfl⟩))
        exact ⟨h1, fun _ => h2⟩
      | msg t d =>
        have fin : ∀ (s1 : IoSt), Onward s s1 → s.seen.length < s1.seen.length →
            ((∃ r, remoteLoop c (.msg t d :: q) ks s = (r, s1)) ∨
              (∃ ks', remoteLoop c (.msg t d :: q) ks s = remoteLoop c q ks' s1)) → _ := fun s1 a b e => h s1 a b (.inr e)
        have base : Onward s { s with inbox := q, seen := s.seen ++ [.msg t d] } :=
          ⟨by simp, (Nat.le_refl _), (Nat.le_refl _), (Nat.le_refl _), id, id, id⟩
        have wr : ∀ (b w : Str), Onward s (took s q (.msg t d) b w) := fun b w => ⟨by simp [took], by simp [took], (Nat.le_refl _), (Nat.le_refl _), id, id, id⟩
        suffices hh : Onward s (remoteLoop c (.msg t d :: q) ks s).2 ∧
            s.seen.length < (remoteLoop c (.msg t d :: q) ks s).2.seen.length from ⟨hh.1, fun _ => hh.2⟩
        by_cases h1 : d.length > c.maxChunk
        · exact fin { s with inbox := q, seen := s.seen ++ [.msg t d] } base (by simp)
            (.inl ⟨.error, by rw [remoteLoop]; dsimp only; rw [if_pos h1]⟩)
        by_cases h2 : (t == msgStdin || t == msgStdout) = true
        · by_cases h3 : (s.stdin == false) = true
          · exact fin { s with inbox := q, seen := s.seen ++ [.msg t d] } base (by simp)
              (.inr ⟨ks, by rw [remoteLoop]; dsimp only; rw [if_neg h1, if_pos h2, if_pos h3]⟩)
          by_cases h4 : (d.length == 0) = true
          · exact fin { s with inbox := q, seen := s.seen ++ [.msg t d] } base (by simp)
              (.inl ⟨.eof, by rw [remoteLoop]; dsimp only; rw [if_neg h1, if_pos h2, if_neg h3, if_pos h4]⟩)
          have e : remoteLoop c (.msg t d :: q) ks s =
              match writeStdin ks (if c.replaceOut then doReplaceChars d else d) s.buf with
              | (.ok, b, w, ks) => remoteLoop c q ks (took s q (.msg t d) b w)
              | (.buffered, b, w, _) => (.ok, (took s q (.msg t d) b w))
              | (.error, b, w, _) => (.eof, (took s q (.msg t d) b w))
              | (.aborted, b, w, _) => (.aborted, (took s q (.msg t d) b w)) := by
            rw [remoteLoop]; dsimp only; rw [if_neg h1, if_pos h2, if_neg h3, if_neg h4]; rfl
          generalize writeStdin ks (if c.replaceOut then doReplaceChars d else d) s.buf = r at e
          obtain ⟨r, b, w, ks'⟩ := r
          cases r with
          | ok => exact fin _ (wr b w) (by simp [took]) (.inr ⟨ks', e⟩)
          | buffered => exact fin _ (wr b w) (by simp [took]) (.inl ⟨_, e⟩)
          | error => exact fin _ (wr b w) (by simp [took]) (.inl ⟨_, e⟩)
          | aborted => exact fin _ (wr b w) (by simp [took]) (.inl ⟨_, e⟩)
        by_cases h3 : (t == msgStderr) = true
        · by_cases h4 : c.isService = true
          · exact fin { s with inbox := q, seen := s.seen ++ [.msg t d] } base (by simp)
              (.inr ⟨ks, by rw [remoteLoop]; dsimp only; rw [if_neg h1, if_neg h2, if_pos h3, if_pos h4]⟩)
          · exact fin { s with inbox := q, seen := s.seen ++ [.msg t d], logged := s.logged ++ (if c.replaceErr then doReplaceChars d else d) }
              ⟨by simp, (Nat.le_refl _), (Nat.le_refl _), (Nat.le_refl _), id, id, id⟩ (by simp)
              (.inr ⟨ks, by rw [remoteLoop]; dsimp only; rw [if_neg h1, if_neg h2, if_pos h3, if_neg h4]⟩)
        by_cases h4 : (t == msgExitCode) = true
        · by_cases h5 : c.isService = true
          · exact fin { s with inbox := q, seen := s.seen ++ [.msg t d] } base (by simp)
              (.inr ⟨ks, by rw [remoteLoop]; dsimp only; rw [if_neg h1, if_neg h2, if_neg h3, if_pos h4, if_pos h5]⟩)
          · exact fin { s with inbox := q, seen := s.seen ++ [.msg t d], remoteStatus := if d.length < 4 then 255 else i32of d }
              ⟨by simp, (Nat.le_refl _), (Nat.le_refl _), (Nat.le_refl _), id, id, id⟩ (by simp)
              (.inl ⟨.exited, by rw [remoteLoop]; dsimp only; rw [if_neg h1, if_neg h2, if_neg h3, if_pos h4, if_neg h5]⟩)
        · exact fin { s with inbox := q, seen := s.seen ++ [.msg t d] } base (by simp)
              (.inl ⟨.error, by rw [remoteLoop]; dsimp only; rw [if_neg h1, if_neg h2, if_neg h3, if_neg h4]⟩)
    intro s1 a b e
    rcases e with e | ⟨r, e⟩ | ⟨ks', e⟩
    · rw [e]; exact ⟨a, b⟩
    · rw [e]; exact ⟨a, b⟩
    · rw [e]
      have := (ih ks' s1).1
      exact ⟨a.trans this, Nat.lt_of_lt_of_le b this.seen⟩


theorem flush_onward (ks : List Sys) (s : IoSt) (b w : Str) :
    Onward s { s with buf := b, written := s.written ++ w } := ⟨(Nat.le_refl _), by simp, (Nat.le_refl _), (Nat.le_refl _), id, id, id⟩

theorem handleRemote_onward (c : IoCfg) (ks : List Sys) (s : IoSt) : Onward s (handleRemoteData c ks s).2 := by
  unfold handleRemoteData
  split_ifs
  · exact (remoteLoop_onward c _ _ _).1
  · generalize flushClientData ks s.buf = r
    obtain ⟨r, b, w, ks'⟩ := r
    have h := flush_onward ks s b w
    cases r with
    | ok => exact h.trans (remoteLoop_onward c _ _ _).1
    | buffered => exact h
    | error => exact h
    | aborted => exact h

theorem ioRemote_onward (c : IoCfg) (t : Tick) (s : IoSt) : Onward s (ioRemote c t s).st := by
  have h := handleRemote_onward c t.writes s
  unfold ioRemote
  generalize handleRemoteData c t.writes s = r at h ⊢
  obtain ⟨r, s1⟩ := r
  cases r with
  | error => exact h
  | aborted => exact h
  | ok => exact h
  | eof => exact h.trans (closeStdin_onward c t.eofOk s1).1
  | exited =>
    refine h.trans ?_
    show Onward s1 (closeStdout c (if s1.stdout then sendEof c t.eofOk s1 else s1))
    split_ifs
    · exact (sendEof_onward c t.eofOk s1).1.trans (closeStdout_onward c _).1
    · exact (closeStdout_onward c _).1

/-- There is a message and nothing in the way: it is received. -/
theorem ioRemote_moves (c : IoCfg) (t : Tick) (s : IoSt)
    (h : s.buf = [] ∧ s.inbox ≠ [] ∨ s.stdin = true ∧ s.buf ≠ [] ∧ ∃ n ks, t.writes = .part n :: ks) :
    Moved s (ioRemote c t s).st := by
  have key : Moved s (handleRemoteData c t.writes s).2 := by
    unfold handleRemoteData
    rcases h with ⟨hb, hi⟩ | ⟨hs, hb, n, ks, hw⟩
    · split_ifs
      · exact .inl ((remoteLoop_onward c _ _ _).2 hi)
      · have e : ∀ ks, flushClientData ks s.buf = (.ok, [], [], ks) := by intro ks; rw [hb]; cases ks <;> rfl
        rw [e]
        exact .inl ((remoteLoop_onward c _ _ { s with buf := [], written := s.written ++ [] }).2 hi)
    · rw [if_neg (by rw [hs]; simp), hw]
      obtain ⟨x, xs, hx⟩ := List.exists_cons_of_ne_nil hb
      rw [hx, flushClientData]
      generalize flushClientData ks ((x :: xs).drop (n + 1)) = r
      obtain ⟨r, b, w, ks'⟩ := r
      have h : Moved s { s with buf := b, written := s.written ++ ((x :: xs).take (n + 1) ++ w) } := by
        refine .inr (.inl ?_)
        simp only [List.length_append, List.length_take, List.length_cons]
        omega
      cases r with
      | ok => exact h.then (remoteLoop_onward c _ _ _).1
      | buffered => exact h
      | error => exact h
      | aborted => exact h
  unfold ioRemote
  generalize handleRemoteData c t.writes s = r at key ⊢
  obtain ⟨r, s1⟩ := r
  cases r with
  | error => exact key
  | aborted => exact key
  | ok => exact key
  | eof => exact key.then (closeStdin_onward c t.eofOk s1).1
  | exited =>
    refine key.then ?_
    show Onward s1 (closeStdout c (if s1.stdout then sendEof c t.eofOk s1 else s1))
    split_ifs
    · exact (sendEof_onward c t.eofOk s1).1.trans (closeStdout_onward c _).1
    · exact (closeStdout_onward c _).1

theorem sendChunk_end (t o) (s : IoSt) : (sendChunk t [] o s).1 = some .eof := by
  unfold sendChunk
  split_ifs <;> first | rfl | simp_all

/-- There is something to read and space for it: it is read, or the descriptor is closed. -/
theorem ioOut_moves (c : IoCfg) (t : Tick) (s : IoSt) (hc : 0 < c.maxChunk) (hp : s.pfx = []) (hs : s.stdout = true)
    (o : OutStep) (os : List OutStep) (ho : t.out = o :: os) (h8 : o.space > 8) (hr : o.read ≠ .again) (s' : IoSt)
    (h : ioOut c t true s = .next s') : Moved s s' := by
  unfold ioOut at h
  rw [if_pos (by rw [hs]; simp)] at h
  have closed : ∀ s1, Onward s s1 → Moved s (closeStdout c s1) := by
    intro s1 h1
    refine .inr (.inr (.inr (.inr (.inr (.inl ⟨hs, (closeStdout_onward c s1).2⟩)))))
  have hlen : 0 < min (o.space - 8).toNat c.maxChunk := by omega
  rw [ho] at h
  cases hq : o.read with
  | again => exact absurd hq hr
  | error =>
    have e : inputOut c c.outType (o :: os) s = (.error, s) := by
      rw [inputOut]
      dsimp only
      rw [if_neg (by omega), if_neg (by rw [hp]; simp), if_neg (by rw [hs]; simp), hq]
    rw [e] at h
    dsimp only at h
    by_cases hx : (!c.isService && s.remoteStatus == -1) = true
    · rw [if_pos hx] at h; cases h; exact closed _ (.refl s)
    · rw [if_neg hx] at h; cases h
  | connReset =>
    have e : inputOut c c.outType (o :: os) s =
        ((sendChunk c.outType [] o s).1.getD .ok, (sendChunk c.outType [] o s).2) := by
      rw [inputOut]
      dsimp only
      rw [if_neg (by omega), if_neg (by rw [hp]; simp), if_neg (by rw [hs]; simp), hq]
    rw [e, sendChunk_end] at h
    have e2 := sendChunk_onward c.outType [] o s
    cases h
    exact closed _ e2
  | got d =>
    have e : inputOut c c.outType (o :: os) s =
        match sendChunk c.outType (d.take (min (o.space - 8).toNat c.maxChunk)) o
          { s with readOut := s.readOut ++ d.take (min (o.space - 8).toNat c.maxChunk) } with
        | (none, s) => inputOut c c.outType os s
        | (some r, s) => (r, s) := by
      rw [inputOut]
      dsimp only
      rw [if_neg (by omega), if_neg (by rw [hp]; simp), if_neg (by rw [hs]; simp), hq]
      rfl
    rw [e] at h
    have e2 := sendChunk_onward c.outType (d.take (min (o.space - 8).toNat c.maxChunk)) o
      { s with readOut := s.readOut ++ d.take (min (o.space - 8).toNat c.maxChunk) }
    have e3 : d = [] → (sendChunk c.outType (d.take (min (o.space - 8).toNat c.maxChunk)) o
      { s with readOut := s.readOut ++ d.take (min (o.space - 8).toNat c.maxChunk) }).1 = some .eof := by
      rintro rfl
      rw [List.take_nil]
      exact sendChunk_end _ _ _
    have e4 : d ≠ [] → Moved s { s with readOut := s.readOut ++ d.take (min (o.space - 8).toNat c.maxChunk) } := by
      intro hd
      refine .inr (.inr (.inl ?_))
      have := List.length_pos_iff.2 hd
      simp only [List.length_append, List.length_take]
      omega
    have e5 : Onward s { s with readOut := s.readOut ++ d.take (min (o.space - 8).toNat c.maxChunk) } :=
      ⟨(Nat.le_refl _), (Nat.le_refl _), by simp, (Nat.le_refl _), id, id, id⟩
    generalize ({ s with readOut := s.readOut ++ d.take (min (o.space - 8).toNat c.maxChunk) } : IoSt) = s0 at e2 e3 e4 e5 h
    generalize sendChunk c.outType (d.take (min (o.space - 8).toNat c.maxChunk)) o s0 = r at e2 e3 h
    obtain ⟨r, s1⟩ := r
    have e6 : ∀ (r : Rc) (s2 : IoSt), Onward s0 s2 → (d = [] → r = .eof) →
        (match (r, s2) with
          | (.error, s) => if !c.isService && s.remoteStatus == -1 then IoStep.next (closeStdout c s) else .exit1 s
          | (.eof, s) => .next (closeStdout c s)
          | (_, s) => .next s) = .next s' → Moved s s' := by
      intro r s2 h1 h2 h3
      cases r with
      | error =>
        dsimp only at h3
        split_ifs at h3
        cases h3
        exact closed _ (e5.trans h1)
      | eof => cases h3; exact closed _ (e5.trans h1)
      | ok => cases h3; exact (e4 (fun hd => by cases h2 hd)).then h1
      | exited => cases h3; exact (e4 (fun hd => by cases h2 hd)).then h1
      | aborted => cases h3; exact (e4 (fun hd => by cases h2 hd)).then h1
    cases r with
    | some r => exact e6 r s1 e2 (fun hd => Option.some.inj (e3 hd)) h
    | none =>
      have h7 := inputOut_onward c c.outType os s1
      dsimp only at h
      generalize inputOut c c.outType os s1 = r at h h7
      obtain ⟨r, s2⟩ := r
      exact e6 r s2 (e2.trans h7) (fun hd => by cases e3 hd) h

theorem ioErr_moves (c : IoCfg) (t : Tick) (s : IoSt) (hc : 0 < c.maxChunk) (hs : s.stderr = true)
    (o : OutStep) (os : List OutStep) (ho : t.err = o :: os) (h8 : o.space > 8) (hr : o.read ≠ .again) (s' : IoSt)
    (h : ioErr c t true s = .next s') : Moved s s' := by
  unfold ioErr at h
  rw [if_pos (by rw [hs]; simp)] at h
  have closed : ∀ s1 : IoSt, Moved s { s1 with stderr := false } :=
    fun s1 => .inr (.inr (.inr (.inr (.inr (.inr ⟨hs, rfl⟩)))))
  have hlen : 0 < min (o.space - 8).toNat c.maxChunk := by omega
  rw [ho] at h
  cases hq : o.read with
  | again => exact absurd hq hr
  | error =>
    have e : inputErr c (o :: os) s = (.error, s) := by
      rw [inputErr]
      dsimp only
      rw [if_neg (by omega), hq]
    rw [e] at h
    cases h
  | connReset =>
    have e : inputErr c (o :: os) s = ((sendChunk msgStderr [] o s).1.getD .ok, (sendChunk msgStderr [] o s).2) := by
      rw [inputErr]
      dsimp only
      rw [if_neg (by omega), hq]
    rw [e, sendChunk_end] at h
    cases h
    exact closed _
  | got d =>
    have e : inputErr c (o :: os) s =
        match sendChunk msgStderr (d.take (min (o.space - 8).toNat c.maxChunk)) o
          (s.gotErr c o (d.take (min (o.space - 8).toNat c.maxChunk))) with
        | (none, s) => inputErr c os s
        | (some r, s) => (r, s) := by
      rw [inputErr]
      dsimp only
      rw [if_neg (by omega), hq]
      rfl
    rw [e] at h
    have e2 := sendChunk_onward msgStderr (d.take (min (o.space - 8).toNat c.maxChunk)) o
      (s.gotErr c o (d.take (min (o.space - 8).toNat c.maxChunk)))
    have e3 : d = [] → (sendChunk msgStderr (d.take (min (o.space - 8).toNat c.maxChunk)) o
      (s.gotErr c o (d.take (min (o.space - 8).toNat c.maxChunk)))).1 = some .eof := by
      rintro rfl
      rw [List.take_nil]
      exact sendChunk_end _ _ _
    have e4 : d ≠ [] → Moved s (s.gotErr c o (d.take (min (o.space - 8).toNat c.maxChunk))) := by
      intro hd
      refine .inr (.inr (.inr (.inl ?_)))
      have := List.length_pos_iff.2 hd
      simp only [IoSt.gotErr, List.length_append, List.length_take]
      omega
    generalize (s.gotErr c o (d.take (min (o.space - 8).toNat c.maxChunk))) = s0 at e2 e3 e4 h
    generalize sendChunk msgStderr (d.take (min (o.space - 8).toNat c.maxChunk)) o s0 = r at e2 e3 h
    obtain ⟨r, s1⟩ := r
    have e6 : ∀ (r : Rc) (s2 : IoSt), Onward s0 s2 → (d = [] → r = .eof) →
        (match (r, s2) with
          | (.error, s) => IoStep.exit1 s
          | (.eof, s) => .next { s with stderr := false }
          | (_, s) => .next s) = .next s' → Moved s s' := by
      intro r s2 h1 h2 h3
      cases r with
      | error => cases h3
      | eof => cases h3; exact closed _
      | ok => cases h3; exact (e4 (fun hd => by cases h2 hd)).then h1
      | exited => cases h3; exact (e4 (fun hd => by cases h2 hd)).then h1
      | aborted => cases h3; exact (e4 (fun hd => by cases h2 hd)).then h1
    cases r with
    | some r => exact e6 r s1 e2 (fun hd => Option.some.inj (e3 hd)) h
    | none =>
      have h7 := inputErr_onward c os s1
      dsimp only at h
      generalize inputErr c os s1 = r at h h7
      obtain ⟨r, s2⟩ := r
      exact e6 r s2 (e2.trans h7) (fun hd => by cases e3 hd) h

/-! ## The two directions -/

/-- What the loop could do in the world `e`. -/
theorem awake_moves (c : IoCfg) (hc : 0 < c.maxChunk) (s s' : IoSt) (e : IoReady) (t : Tick) (h : Sees e t)
    (he : e.event = false ∧ e.signal = false) (ha : ioSleeps s e = false) (hn : ioPoll c t s = .next s') : Moved s s' := by
  unfold ioPoll at hn
  rw [h.poll] at hn
  dsimp only at hn
  rw [h.wait, if_neg (by decide)] at hn
  -- the hangup
  have hup : ∃ s0, (if t.stdinHup && s.stdin then closeStdin c t.eofOk s else s) = s0 ∧ Onward s s0 ∧
      (Moved s s0 ∨ s0 = s ∧ (e.stdinHup = false ∨ s.stdin = false)) := by
    refine ⟨_, rfl, ?_⟩
    rw [h.hup]
    by_cases hx : (e.stdinHup && s.stdin) = true
    · rw [if_pos hx]
      obtain ⟨h1, h2⟩ := closeStdin_onward c t.eofOk s
      rw [Bool.and_eq_true] at hx
      exact ⟨h1, .inl (.inr (.inr (.inr (.inr (.inl ⟨hx.2, h2⟩)))))⟩
    · rw [if_neg hx]
      refine ⟨.refl s, .inr ⟨rfl, ?_⟩⟩
      cases h1 : e.stdinHup
      · exact .inl rfl
      · cases h2 : s.stdin
        · exact .inr rfl
        · rw [h1, h2] at hx; exact absurd rfl hx
  obtain ⟨s0, e0, on0, m0⟩ := hup
  rw [e0] at hn
  -- the remote side
  have on1 := ioRemote_onward c t s0
  have mv1 := ioRemote_moves c t s0
  cases h1 : ioRemote c t s0 with
  | leave _ => rw [h1] at hn; cases hn
  | exit1 _ => rw [h1] at hn; cases hn
  | abort _ => rw [h1] at hn; cases hn
  | next s1 =>
    rw [h1] at hn on1 mv1
    dsimp only [IoStep.st] at hn on1 mv1
    -- stdout
    generalize hor : (t.outReady && s.pfx.length == 0 && s.stdout) = outReady at hn
    generalize her : (t.errReady && s.stderr) = errReady at hn
    have on2 := ioOut_onward c t outReady s1
    cases h2 : ioOut c t outReady s1 with
    | leave _ => rw [h2] at hn; cases hn
    | exit1 _ => rw [h2] at hn; cases hn
    | abort _ => rw [h2] at hn; cases hn
    | next s2 =>
      rw [h2] at hn on2
      dsimp only [IoStep.st] at hn on2
      have on3 := ioErr_onward c t errReady s2
      rw [hn] at on3
      dsimp only [IoStep.st] at on3
      rcases m0 with m0 | ⟨rfl, m0⟩
      · exact m0.then (on1.trans (on2.trans on3))
      by_cases c1 : s0.buf = [] ∧ s0.inbox ≠ []
      · exact (mv1 (.inl c1)).then (on2.trans on3)
      by_cases c2 : s0.stdin = true ∧ s0.buf ≠ [] ∧ e.writable = true
      · have := h.writes
        rw [c2.2.2, if_pos rfl] at this
        exact (mv1 (.inr ⟨c2.1, c2.2.1, this⟩)).then (on2.trans on3)
      by_cases c3 : e.space > 8 ∧ s0.pfx = [] ∧ s0.stdout = true ∧ e.outData = true
      · obtain ⟨d1, d2, d3, d4⟩ := c3
        have hready : outReady = true := by
          rw [← hor, h.out, d2, d3, d4]; simpa using d1
        have hs1 : s1.stdout = true ∨ s1.stdout = false := by cases s1.stdout <;> simp
        rcases hs1 with hs1 | hs1
        · have hp1 : s1.pfx = [] := by
            have := (handleRemote_out c t.writes s0).1
            unfold ioRemote at h1
            generalize handleRemoteData c t.writes s0 = r at this h1
            obtain ⟨r, s9⟩ := r
            have hp9 : s9.pfx = [] := this.pfx.trans d2
            cases r with
            | error => cases h1
            | aborted => cases h1
            | ok => cases h1; exact hp9
            | eof => cases h1; exact (closeStdin_fields c t.eofOk s9).1.trans hp9
            | exited =>
              cases h1
              rw [(closeStdout_fields c _).1]
              split_ifs
              · unfold sendEof; split_ifs <;> exact hp9
              · exact hp9
          obtain ⟨o, os, r1, r2, r3⟩ := h.reads
          rw [hready] at h2
          exact (on1.moved (ioOut_moves c t s1 hc hp1 hs1 o os r1 (by rw [r2]; exact d1)
            (fun hh => by rw [r3.1 hh] at d4; cases d4) s2 h2)).then on3
        · exact .inr (.inr (.inr (.inr (.inr (.inl ⟨d3, bool_down (fun h => (on2.trans on3).stdout h) hs1⟩)))))
      by_cases c4 : e.space > 8 ∧ s0.stderr = true ∧ e.errData = true
      · obtain ⟨d1, d3, d4⟩ := c4
        have hready : errReady = true := by
          rw [← her, h.err, d3, d4]; simpa using d1
        have hs2 : s2.stderr = true ∨ s2.stderr = false := by cases s2.stderr <;> simp
        rcases hs2 with hs2 | hs2
        · obtain ⟨o, os, r1, r2, r3⟩ := h.readErr
          rw [hready] at hn
          exact (on1.trans on2).moved (ioErr_moves c t s2 hc hs2 o os r1 (by rw [r2]; exact d1)
            (fun hh => by rw [r3.1 hh] at d4; cases d4) s' hn)
        · exact .inr (.inr (.inr (.inr (.inr (.inr ⟨d3, bool_down on3.stderr hs2⟩)))))
      -- otherwise it sleeps
      exfalso
      unfold ioSleeps at ha
      rw [he.1, he.2] at ha
      simp only [Bool.not_eq_false', Bool.or_eq_true, Bool.and_eq_true, decide_eq_true_eq, beq_iff_eq, Bool.or_false,
        List.length_eq_zero_iff, Bool.not_eq_true', List.isEmpty_eq_false_iff, gt_iff_lt, List.length_pos_iff] at ha
      rcases ha with ((⟨a1, a2 | a2⟩ | ⟨⟨⟨a1, a2⟩, a3⟩, a4⟩) | ⟨⟨a1, a2⟩, a3⟩) | a
      · rcases m0 with m0 | m0
        · rw [m0] at a2; cases a2
        · rw [m0] at a1; cases a1
      · exact c2 ⟨a1, a2.1, a2.2⟩
      · exact c3 ⟨a1, a2, a3, a4⟩
      · exact c4 ⟨a1, a2, a3⟩
      · exact c1 a

/-- **C96, partial.** Whatever state a connection is in and whatever it can see: if it sleeps there is nothing to do - looking
again changes nothing - and if it does not sleep and goes on, it has received, written or read something, or closed a descriptor.
Missing: two states in which it sleeps (for at most ten seconds) although it could do something, see `C96_violated_prefix` and
`C96_violated_closed`. -/
theorem C96_sleep_partial (c : IoCfg) (hc : 0 < c.maxChunk) (s : IoSt) (e : IoReady) (t : Tick) (h : Sees e t)
    (he : e.event = false ∧ e.signal = false) :
    (ioSleeps s e = true → (s.pfx = [] ∨ e.space ≤ 8) → (s.stdin = true ∨ s.buf = [] ∨ s.inbox = []) →
      ioPoll c t s = .next s) ∧
    (ioSleeps s e = false → ∀ s', ioPoll c t s = .next s' → s' ≠ s) := by
  refine ⟨fun hs hp hb => ?_, fun ha s' hn => (awake_moves c hc s s' e t h he ha hn).ne⟩
  unfold ioSleeps at hs
  simp only [Bool.not_eq_true', Bool.or_eq_false_iff, Bool.and_eq_false_iff, decide_eq_false_iff_not, beq_eq_false_iff_ne,
    gt_iff_lt, List.length_pos_iff, ne_eq, Bool.not_eq_false', Bool.not_eq_false, List.length_eq_zero_iff,
    List.isEmpty_iff, not_not] at hs
  obtain ⟨⟨⟨⟨⟨h1, h2⟩, h3⟩, _⟩, _⟩, h4⟩ := hs
  unfold ioPoll
  rw [h.poll]
  dsimp only
  rw [h.wait, if_neg (by decide), h.hup, h.out, h.err]
  have a1 : (e.stdinHup && s.stdin) = false := by
    rcases h1 with h1 | h1
    · rw [h1]; simp
    · rw [h1.1]; rfl
  rw [a1, if_neg (by decide)]
  have a2 : ioRemote c t s = .next s := by
    have a3 : handleRemoteData c t.writes s = (.ok, s) := by
      have loop : ∀ ks, s.inbox = [] → remoteLoop c s.inbox ks s = (.ok, s) := by
        intro ks hi
        rw [hi, remoteLoop, ← hi]
      unfold handleRemoteData
      by_cases hsi : s.stdin = true
      · rw [if_neg (by rw [hsi]; simp)]
        by_cases hbe : s.buf = []
        · have hfl : flushClientData t.writes s.buf = (.ok, [], [], t.writes) := by rw [hbe]; cases t.writes <;> rfl
          rw [hfl]
          dsimp only
          have e0 : ({ s with buf := [], written := s.written ++ [] } : IoSt) = s := by
            rw [List.append_nil, ← hbe]
          rw [e0]
          exact loop _ (h4.resolve_left (fun hh => hh hbe))
        · have hw : e.writable = false := by
            rcases h1 with h1 | ⟨_, h1 | h1⟩
            · rw [h1] at hsi; cases hsi
            · exact absurd h1 hbe
            · exact h1
          have := h.writes
          rw [hw, if_neg (by decide)] at this
          obtain ⟨ks, hks⟩ := this
          obtain ⟨x, xs, hx⟩ := List.exists_cons_of_ne_nil hbe
          have hfl : flushClientData t.writes s.buf = (.buffered, s.buf, [], ks) := by rw [hks, hx]; rfl
          rw [hfl]
          dsimp only
          rw [List.append_nil]
      · rw [if_pos (by simpa using hsi)]
        apply loop
        rcases hb with hb | hb | hb
        · exact absurd hb hsi
        · exact h4.resolve_left (fun hh => hh hb)
        · exact hb
    unfold ioRemote
    rw [a3]
  rw [a2]
  dsimp only
  have a4 : ioOut c t (decide (e.space > 8) && e.outData && s.pfx.length == 0 && s.stdout) s = .next s := by
    unfold ioOut
    by_cases hpf : s.pfx = []
    · have : (decide (e.space > 8) && e.outData && s.pfx.length == 0 && s.stdout) = false := by
        rcases h2 with ((h2 | h2) | h2) | h2
        · simp [h2]
        · exact absurd hpf h2
        · simp [h2]
        · simp [h2]
      rw [this, hpf]
      simp
    · obtain ⟨o, os, r1, r2, _⟩ := h.reads
      have hsp := hp.resolve_left hpf
      rw [if_pos (by simp [hpf]), r1, inputOut, if_pos (by rw [r2]; exact hsp)]
  rw [a4]
  dsimp only
  unfold ioErr
  have : (s.stderr && (decide (e.space > 8) && e.errData && s.stderr)) = false := by
    rcases h3 with (h3 | h3) | h3
    · simp [h3]
    · simp [h3]
    · simp [h3]
  rw [this, if_neg (by decide)]

/-! ## Where it sleeps too long, and examples -/

/-- A world in which the vchan has space and nothing else happens. -/
def exQuiet : IoReady := { space := 1000 }

/-- A look at that world. -/
def exLook : Tick := { writes := [.eagain], out := [⟨1000, .again, true, true, none⟩], err := [⟨1000, .again, true, true, none⟩] }

theorem exLook_sees : Sees exQuiet exLook where
  poll := rfl
  wait := rfl
  hup := rfl
  out := rfl
  err := rfl
  writes := ⟨[], rfl⟩
  reads := ⟨_, [], rfl, rfl, by decide⟩
  readErr := ⟨_, [], rfl, rfl, by decide⟩

/-- A client. -/
def exClient : IoCfg := { isService := false, hasPid := true }

/-- The first part: a slow local process, and nothing else to do. -/
example : ∃ s, ioRun exClient [{ arrive := [.msg 0x191 c!"abc"], writes := [.part 0, .eagain] }]
      (ioStart exClient false false [] []) = .next s ∧ ioSleeps s exQuiet = true ∧ s.pfx = [] ∧ s.stdin = true :=
  ⟨_, rfl, by decide, rfl, rfl⟩

/-- The second part: it does not sleep when a message is there. -/
example : ∃ s, ioRun exClient [{ arrive := [.msg 0x191 c!"abc", .msg 0x193 (i32le 3)], writes := [.part 9], poll := .eintr }]
      (ioStart exClient false false [] []) = .next s ∧ ioSleeps s exQuiet = false := ⟨_, rfl, by decide⟩

/-- **C96 is violated**: prefix data (`--prefix-data`) are not sent before something else wakes the process up, or ten seconds
are over: it sleeps at the start, although the vchan has space and looking again sends them. -/
theorem C96_violated_prefix : ioSleeps (ioStart exClient false false [] c!"data") exQuiet = true ∧ Sees exQuiet exLook ∧
    ∃ s, ioPoll exClient exLook (ioStart exClient false false [] c!"data") = .next s ∧ s.sent = [(0x190, c!"data")] :=
  ⟨by decide, exLook_sees, _, rfl, by decide⟩

/-- **C96 is violated**: a local process that exits without reading all its input leaves data in the buffer; with these the
process sleeps although the exit status of the service has arrived and looking again would receive it. -/
theorem C96_violated_closed : ∃ s, ioRun exClient
      [{ arrive := [.msg 0x191 c!"abc", .msg 0x193 (i32le 3)], writes := [.part 0, .eagain], outReady := true,
         out := [⟨1000, .got [], true, true, none⟩] },
       { reaped := some 0, poll := .eintr }] (ioStart exClient false false [] []) = .next s ∧
    ioSleeps s exQuiet = true ∧ ∃ s', ioPoll exClient exLook s = .next s' ∧ s.remoteStatus = -1 ∧ s'.remoteStatus = 3 :=
  ⟨_, rfl, by decide, _, rfl, by decide, by decide⟩

end Qrexec
