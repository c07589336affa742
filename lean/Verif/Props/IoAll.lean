import Verif.Model.IoAll
import Mathlib.Tactic.Tauto
import Mathlib.Tactic.SplitIfs

/-!
# C62: complete reads and writes transfer exactly the data, whatever the kernel splits
-/
namespace Qrexec

/-! ## Writing -/

theorem writeAll_spec (ks : List Sys) (d : Str) :
    ∃ rest, d = (writeAll ks d).2 ++ rest ∧ ((writeAll ks d).1 = .done ↔ rest = []) ∧
      (writeAll ks d).1 ≠ .fault := by
  induction ks generalizing d with
  | nil => cases d with
    | nil => exact ⟨[], by simp [writeAll]⟩
    | cons a d => exact ⟨a :: d, by simp [writeAll]⟩
  | cons k ks ih =>
    cases d with
    | nil => exact ⟨[], by simp [writeAll]⟩
    | cons a d =>
      cases k with
      | part n =>
        obtain ⟨rest, h1, h2, h3⟩ := ih ((a :: d).drop (n + 1))
        refine ⟨rest, ?_, ?_, ?_⟩
        · rw [writeAll]
          simp only [List.append_assoc]
          rw [← h1, List.take_append_drop]
          exact List.cons_ne_nil _ _
        · rw [writeAll]
          · exact h2
          · exact List.cons_ne_nil _ _
        · rw [writeAll]
          · exact h3
          · exact List.cons_ne_nil _ _
      | eintr => simpa [writeAll] using ih (a :: d)
      | zero => exact ⟨a :: d, by simp [writeAll]⟩
      | eagain => exact ⟨a :: d, by simp [writeAll]⟩
      | error => exact ⟨a :: d, by simp [writeAll]⟩

theorem writeVchanAll_spec (ks : List Sys) (d : Str) :
    ∃ rest, d = (writeVchanAll ks d).2 ++ rest ∧ ((writeVchanAll ks d).1 = .done ↔ rest = []) ∧
      (writeVchanAll ks d).1 ≠ .fault := by
  induction ks generalizing d with
  | nil => cases d with
    | nil => exact ⟨[], by simp [writeVchanAll]⟩
    | cons a d => exact ⟨a :: d, by simp [writeVchanAll]⟩
  | cons k ks ih =>
    cases d with
    | nil => exact ⟨[], by simp [writeVchanAll]⟩
    | cons a d =>
      cases k with
      | part n =>
        obtain ⟨rest, h1, h2, h3⟩ := ih ((a :: d).drop (n + 1))
        refine ⟨rest, ?_, ?_, ?_⟩
        · rw [writeVchanAll]
          simp only [List.append_assoc]
          rw [← h1, List.take_append_drop]
          exact List.cons_ne_nil _ _
        · rw [writeVchanAll]
          · exact h2
          · exact List.cons_ne_nil _ _
        · rw [writeVchanAll]
          · exact h3
          · exact List.cons_ne_nil _ _
      | zero => simpa [writeVchanAll] using ih (a :: d)
      | eintr => exact ⟨a :: d, by simp [writeVchanAll]⟩
      | eagain => exact ⟨a :: d, by simp [writeVchanAll]⟩
      | error => exact ⟨a :: d, by simp [writeVchanAll]⟩

/-- **C62, writing.** `write_all` and `write_vchan_all` have at any time written a prefix of the data, each byte
once and in order; they report success exactly when it is all of the data. -/
theorem C62_write (ks : List Sys) (d : Str) :
    ((writeAll ks d).2 <+: d ∧ ((writeAll ks d).1 = .done ↔ (writeAll ks d).2 = d)) ∧
    ((writeVchanAll ks d).2 <+: d ∧ ((writeVchanAll ks d).1 = .done ↔ (writeVchanAll ks d).2 = d)) := by
  constructor
  · obtain ⟨rest, h1, h2, _⟩ := writeAll_spec ks d
    refine ⟨⟨rest, h1.symm⟩, h2.trans ⟨fun h => ?_, fun h => ?_⟩⟩
    · rw [h, List.append_nil] at h1; exact h1.symm
    · rw [h] at h1
      have := congrArg List.length h1
      rw [List.length_append] at this
      exact List.eq_nil_of_length_eq_zero (by omega)
  · obtain ⟨rest, h1, h2, _⟩ := writeVchanAll_spec ks d
    refine ⟨⟨rest, h1.symm⟩, h2.trans ⟨fun h => ?_, fun h => ?_⟩⟩
    · rw [h, List.append_nil] at h1; exact h1.symm
    · rw [h] at h1
      have := congrArg List.length h1
      rw [List.length_append] at this
      exact List.eq_nil_of_length_eq_zero (by omega)

/-- **C62, interruption.** Neither signals nor split transfers make `write_all` fail: with as many successful
writes as there are bytes and no error it has returned with success. -/
theorem C62_write_returns (ks : List Sys) (d : Str)
    (hk : ∀ k ∈ ks, k = .eintr ∨ ∃ n, k = .part n)
    (hn : d.length ≤ (ks.filter fun k => k != .eintr).length) : writeAll ks d = (.done, d) := by
  induction ks generalizing d with
  | nil =>
    have : d = [] := List.eq_nil_of_length_eq_zero (by simpa using hn)
    subst this; rfl
  | cons k ks ih =>
    cases d with
    | nil => rfl
    | cons a d =>
      have hk' : ∀ k ∈ ks, k = .eintr ∨ ∃ n, k = .part n := fun x hx => hk x (List.mem_cons_of_mem _ hx)
      rcases hk k (List.mem_cons_self ..) with rfl | ⟨n, rfl⟩
      · rw [writeAll]
        · exact ih _ hk' (by simpa using hn)
        · exact List.cons_ne_nil _ _
      · rw [writeAll]
        · rw [ih _ hk' ?_]
          · simp
          · simp at hn ⊢; omega
        · exact List.cons_ne_nil _ _

/-! ## Reading a known number of bytes -/

theorem readAll_spec (ks : List Sys) (s : Str) (size : Nat) (buf : Str) (hb : buf.length ≤ size) :
    (readAll ks s size buf).2.1 ++ (readAll ks s size buf).2.2 = buf ++ s ∧
    (readAll ks s size buf).2.1.length ≤ size ∧
    ((readAll ks s size buf).1 = .done ↔ (readAll ks s size buf).2.1.length = size) ∧
    (readAll ks s size buf).1 ≠ .fault := by
  induction ks generalizing s buf with
  | nil =>
    rw [readAll.eq_def]; dsimp only
    by_cases h : buf.length < size
    · rw [if_pos h]; simp; omega
    · rw [if_neg h]; simp; omega
  | cons k ks ih =>
    rw [readAll.eq_def]; dsimp only
    by_cases h : buf.length < size
    · rw [if_pos h]
      cases k with
      | part n =>
        simp only
        cases s with
        | nil => simp; omega
        | cons a s =>
          simp only [List.isEmpty_cons, Bool.false_eq_true, if_false]
          have := ih ((a :: s).drop (min (n + 1) (size - buf.length)))
            (buf ++ (a :: s).take (min (n + 1) (size - buf.length)))
            (by rw [List.length_append, List.length_take]; omega)
          rw [List.append_assoc, List.take_append_drop] at this
          exact this
      | eintr => exact ih s buf hb
      | zero => exact ih s buf hb
      | eagain => simp; omega
      | error => simp; omega
    · rw [if_neg h]; simp; omega

theorem readVchanAll_spec (ks : List Sys) (s : Str) (size : Nat) (buf : Str) (hb : buf.length ≤ size) :
    (readVchanAll ks s size buf).2.1 ++ (readVchanAll ks s size buf).2.2 = buf ++ s ∧
    (readVchanAll ks s size buf).2.1.length ≤ size ∧
    ((readVchanAll ks s size buf).1 = .done ↔ (readVchanAll ks s size buf).2.1.length = size) ∧
    (readVchanAll ks s size buf).1 ≠ .fault := by
  induction ks generalizing s buf with
  | nil =>
    rw [readVchanAll.eq_def]; dsimp only
    by_cases h : buf.length < size
    · rw [if_pos h]; simp; omega
    · rw [if_neg h]; simp; omega
  | cons k ks ih =>
    rw [readVchanAll.eq_def]; dsimp only
    by_cases h : buf.length < size
    · rw [if_pos h]
      cases k with
      | part n =>
        simp only
        cases s with
        | nil => simp; omega
        | cons a s =>
          simp only [List.isEmpty_cons, Bool.false_eq_true, if_false]
          have := ih ((a :: s).drop (min (n + 1) (size - buf.length)))
            (buf ++ (a :: s).take (min (n + 1) (size - buf.length)))
            (by rw [List.length_append, List.length_take]; omega)
          rw [List.append_assoc, List.take_append_drop] at this
          exact this
      | zero => exact ih s buf hb
      | eintr => simp; omega
      | eagain => simp; omega
      | error => simp; omega
    · rw [if_neg h]; simp; omega

/-- **C62, reading.** `read_all` and `read_vchan_all` report success exactly when they have filled the buffer;
then it holds the next bytes of the stream, and exactly these were consumed. They never write behind the end of
the buffer. -/
theorem C62_read (ks : List Sys) (s : Str) (size : Nat) :
    (((readAll ks s size []).1 = .done → readAll ks s size [] = (.done, s.take size, s.drop size) ∧
        size ≤ s.length) ∧
      (readAll ks s size []).2.1.length ≤ size ∧
      (readAll ks s size []).2.1 ++ (readAll ks s size []).2.2 = s) ∧
    (((readVchanAll ks s size []).1 = .done →
        readVchanAll ks s size [] = (.done, s.take size, s.drop size) ∧ size ≤ s.length) ∧
      (readVchanAll ks s size []).2.1.length ≤ size ∧
      (readVchanAll ks s size []).2.1 ++ (readVchanAll ks s size []).2.2 = s) := by
  constructor
  · have h := readAll_spec ks s size [] (by simp)
    generalize readAll ks s size [] = r at h ⊢
    obtain ⟨r1, r2, r3⟩ := r
    obtain ⟨h1, h2, h3, _⟩ := h
    simp only [List.nil_append] at h1 h2 h3 ⊢
    refine ⟨fun hd => ?_, h2, h1⟩
    have hl := h3.1 hd
    subst hd
    rw [← h1, ← hl]
    simp
  · have h := readVchanAll_spec ks s size [] (by simp)
    generalize readVchanAll ks s size [] = r at h ⊢
    obtain ⟨r1, r2, r3⟩ := r
    obtain ⟨h1, h2, h3, _⟩ := h
    simp only [List.nil_append] at h1 h2 h3 ⊢
    refine ⟨fun hd => ?_, h2, h1⟩
    have hl := h3.1 hd
    subst hd
    rw [← h1, ← hl]
    simp

/-! ## Reading a whole stream -/

theorem readMallocLoop_spec (mx : Nat) (ks : List Sys) (s : Str) (bs : Nat) (buf : Str)
    (h0 : buf.length < bs) (h1 : bs ≤ mx) (h2 : 2 ≤ bs) :
    (readMallocLoop mx ks s bs buf).1 ≠ .fault ∧
    ((readMallocLoop mx ks s bs buf).1 = .done →
      (readMallocLoop mx ks s bs buf).2 = buf ++ s ∧ (buf ++ s).length < mx) ∧
    ((readMallocLoop mx ks s bs buf).1 = .failed → (buf ++ s).length < mx → .error ∈ ks) := by
  induction ks generalizing s bs buf with
  | nil =>
    rw [readMallocLoop.eq_def]; dsimp only
    rw [if_neg (by omega)]
    simp
  | cons k ks ih =>
    rw [readMallocLoop.eq_def]; dsimp only
    rw [if_neg (by omega)]
    cases k with
    | eintr =>
      obtain ⟨a, b, c⟩ := ih s bs buf h0 h1 h2
      exact ⟨a, b, fun x y => List.mem_cons_of_mem _ (c x y)⟩
    | eagain =>
      obtain ⟨a, b, c⟩ := ih s bs buf h0 h1 h2
      exact ⟨a, b, fun x y => List.mem_cons_of_mem _ (c x y)⟩
    | zero =>
      obtain ⟨a, b, c⟩ := ih s bs buf h0 h1 h2
      exact ⟨a, b, fun x y => List.mem_cons_of_mem _ (c x y)⟩
    | error => simp
    | part n =>
      simp only
      generalize hg : s.take (min (n + 1) (bs - buf.length)) = got
      have hgl : got.length = min (min (n + 1) (bs - buf.length)) s.length := by
        rw [← hg, List.length_take]
      have hgs : got ++ s.drop got.length = s := by
        rw [hgl, List.drop_eq_drop_min] 
        rw [← hg]
        have : min (min (min (n + 1) (bs - buf.length)) s.length) s.length
          = min (min (n + 1) (bs - buf.length)) s.length := by omega
        rw [this, ← List.drop_eq_drop_min, List.take_append_drop]
      by_cases hz : got.length = 0
      · have hs : s = [] := List.eq_nil_of_length_eq_zero (by omega)
        subst hs
        rw [if_pos (by simp [hz]), if_pos h0]
        simp; omega
      · rw [if_neg (by simpa using hz)]
        by_cases hf : got.length = bs - buf.length
        · rw [if_pos (by simp [hf])]
          by_cases hm : mx ≤ bs
          · rw [if_pos hm]
            refine ⟨by simp, by simp, fun _ hlt => ?_⟩
            rw [List.length_append] at hlt
            omega
          · rw [if_neg hm]
            have := ih (s.drop got.length)
              (if mx - bs > bs / 2 then bs + bs / 2 else mx) (buf ++ got)
              (by rw [List.length_append]; split_ifs <;> omega) (by split_ifs <;> omega)
              (by split_ifs <;> omega)
            rw [List.append_assoc, hgs] at this
            obtain ⟨a, b, c⟩ := this
            exact ⟨a, b, fun x y => List.mem_cons_of_mem _ (c x y)⟩
        · rw [if_neg (by simpa using hf)]
          have := ih (s.drop got.length) bs (buf ++ got)
            (by rw [List.length_append]; omega) h1 h2
          rw [List.append_assoc, hgs] at this
          obtain ⟨a, b, c⟩ := this
          exact ⟨a, b, fun x y => List.mem_cons_of_mem _ (c x y)⟩

/-- **C62, reading to the end.** `qubes_read_all_to_malloc`, called with sizes 2 ≤ initial ≤ limit ≤ INT_MAX,
never accesses memory outside of its buffer; what it returns is the whole stream, which is shorter than the
limit; and for such a stream it fails only if a read fails. -/
theorem C62_read_to_end (ks : List Sys) (s : Str) (initial limit : Nat)
    (h1 : 2 ≤ initial) (h2 : initial ≤ limit) (h3 : limit ≤ 2147483647) :
    (readAllToMalloc ks s initial limit).1 ≠ .fault ∧
    ((readAllToMalloc ks s initial limit).1 = .done →
      (readAllToMalloc ks s initial limit).2 = s ∧ s.length < limit) ∧
    ((readAllToMalloc ks s initial limit).1 = .failed → s.length < limit → .error ∈ ks) := by
  unfold readAllToMalloc
  rw [if_neg (by omega), if_neg (by simp; omega)]
  have := readMallocLoop_spec limit ks s initial [] (by simp; omega) h2 h1
  simpa using this

/-! ## Sending several pieces -/

theorem iovAdvance_spec (vs : List Str) (res : Nat) (hv : vs ≠ []) (hr : res ≤ vs.flatten.length) :
    ∃ ws, iovAdvance vs res = some ws ∧ ws.flatten = vs.flatten.drop res := by
  induction vs generalizing res with
  | nil => exact absurd rfl hv
  | cons v vs ih =>
    rw [iovAdvance.eq_def]
    simp only
    by_cases h : res < v.length
    · rw [if_pos h]
      refine ⟨_, rfl, ?_⟩
      simp only [List.flatten_cons]
      rw [List.drop_append_of_le_length (by omega)]
    · rw [if_neg h]
      cases vs with
      | nil =>
        refine ⟨[], rfl, ?_⟩
        simp at hr ⊢; omega
      | cons w ws =>
        obtain ⟨us, h1, h2⟩ := ih (res - v.length) (List.cons_ne_nil _ _) (by
          rw [List.flatten_cons, List.length_append] at hr; omega)
        refine ⟨us, h1, ?_⟩
        rw [h2, List.flatten_cons (l := v), List.drop_append]
        have : v.drop res = [] := by simp; omega
        rw [this, List.nil_append]

theorem sendmsgAll_spec (ks : List Sys) (vs : List Str) :
    (sendmsgAll ks vs).1 ≠ .fault ∧ (sendmsgAll ks vs).2 <+: vs.flatten ∧
    ((sendmsgAll ks vs).1 = .done → (sendmsgAll ks vs).2 = vs.flatten) ∧
    ((sendmsgAll ks vs).1 = .failed → .error ∈ ks) := by
  induction ks generalizing vs with
  | nil => cases vs with
    | nil => simp [sendmsgAll]
    | cons v vs => simp [sendmsgAll]
  | cons k ks ih =>
    cases vs with
    | nil => simp [sendmsgAll]
    | cons v vs =>
      cases k with
      | part n =>
        rw [sendmsgAll]
        simp only
        generalize hall : (v :: vs).flatten = all
        obtain ⟨ws, h1, h2⟩ := iovAdvance_spec (v :: vs) (all.take (n + 1)).length
          (List.cons_ne_nil _ _) (by rw [hall, List.length_take]; omega)
        rw [h1]
        simp only
        rw [hall, List.length_take, ← List.drop_eq_drop_min] at h2
        obtain ⟨a, b, c, d⟩ := ih ws
        rw [h2] at b c
        refine ⟨a, ?_, fun h => ?_, fun h => List.mem_cons_of_mem _ (d h)⟩
        · obtain ⟨t, ht⟩ := b
          exact ⟨t, by rw [List.append_assoc, ht, List.take_append_drop]⟩
        · rw [c h, List.take_append_drop]
      | zero =>
        rw [sendmsgAll]
        obtain ⟨ws, h1, h2⟩ := iovAdvance_spec (v :: vs) 0 (List.cons_ne_nil _ _) (by omega)
        rw [h1]
        simp only
        rw [List.drop_zero] at h2
        obtain ⟨a, b, c, d⟩ := ih ws
        rw [h2] at b c
        exact ⟨a, b, c, fun h => List.mem_cons_of_mem _ (d h)⟩
      | eintr =>
        obtain ⟨a, b, c, d⟩ := ih (v :: vs)
        exact ⟨a, b, c, fun h => List.mem_cons_of_mem _ (d h)⟩
      | eagain =>
        obtain ⟨a, b, c, d⟩ := ih (v :: vs)
        exact ⟨a, b, c, fun h => List.mem_cons_of_mem _ (d h)⟩
      | error => simp [sendmsgAll]

/-- **C62, gathered sends.** `qubes_sendmsg_all` has at any time sent a prefix of the concatenated pieces and
reports success only when that is all; it never looks behind the last piece and fails only if the kernel reports
an error. -/
theorem C62_sendmsg (ks : List Sys) (vs : List Str) :
    (sendmsgAll ks vs).1 ≠ .fault ∧ (sendmsgAll ks vs).2 <+: vs.flatten ∧
    ((sendmsgAll ks vs).1 = .done → (sendmsgAll ks vs).2 = vs.flatten) ∧
    ((sendmsgAll ks vs).1 = .failed → .error ∈ ks) := sendmsgAll_spec ks vs

/-! ## Copying -/

/-- **C62, copying.** `copy_fd_all` has at any time written a prefix of the stream; if it reports success it
has written the whole stream. -/
theorem C62_copy (ks : List (Sys × List Sys)) (s : Str) :
    (copyFdAll ks s).2 <+: s ∧ ((copyFdAll ks s).1 = .done → (copyFdAll ks s).2 = s) := by
  induction ks generalizing s with
  | nil => simp [copyFdAll]
  | cons k ks ih =>
    obtain ⟨k, ws⟩ := k
    cases k with
    | part n =>
      rw [copyFdAll]
      generalize hd : s.take (min (n + 1) 4096) = d
      have hdl : d.length = min (min (n + 1) 4096) s.length := by rw [← hd, List.length_take]
      have hds : d ++ s.drop d.length = s := by
        rw [hdl, ← List.drop_eq_drop_min, ← hd, List.take_append_drop]
      simp only
      by_cases hz : d.length = 0
      · rw [if_pos (by simp [hz])]
        have : s = [] := List.eq_nil_of_length_eq_zero (by omega)
        subst this; simp
      · rw [if_neg (by simpa using hz)]
        obtain ⟨rest, h1, h2, _⟩ := writeAll_spec ws d
        generalize writeAll ws d = w at h1 h2 ⊢
        obtain ⟨w1, w2⟩ := w
        simp only at h1 h2
        cases w1 with
        | done =>
          have := h2.1 rfl
          subst this
          rw [List.append_nil] at h1
          subst h1
          obtain ⟨⟨t, ht⟩, b⟩ := ih (s.drop d.length)
          refine ⟨⟨t, ?_⟩, fun h => ?_⟩
          · simp only [List.append_assoc]
            rw [ht, hds]
          · simp only at h ⊢
            rw [b h, hds]
        | failed =>
          refine ⟨⟨rest ++ s.drop d.length, ?_⟩, by simp⟩
          simp only [← List.append_assoc]
          rw [← h1, hds]
        | blocked =>
          refine ⟨⟨rest ++ s.drop d.length, ?_⟩, by simp⟩
          simp only [← List.append_assoc]
          rw [← h1, hds]
        | fault =>
          refine ⟨⟨rest ++ s.drop d.length, ?_⟩, by simp⟩
          simp only [← List.append_assoc]
          rw [← h1, hds]
    | eintr => exact ih s
    | zero => exact ih s
    | eagain => simp [copyFdAll]
    | error => simp [copyFdAll]

/-! ## Examples -/

example : writeAll [.part 0, .eintr, .part 4] c!"data" = (.done, c!"data") := by decide
example : (writeAll [.part 1, .error] c!"data") = (.failed, c!"da") := by decide
example : readAll [.part 0, .eintr, .part 7] c!"data and more" 4 [] = (.done, c!"data", c!" and more") := by
  decide
example : readAllToMalloc [.part 9, .part 9, .eagain, .part 9, .part 9] c!"data" 2 10 = (.done, c!"data") := by
  decide
/-- A stream as long as the limit is refused. -/
example : readAllToMalloc [.part 9, .part 9, .part 9] c!"data" 2 4 = (.failed, []) := by
  decide
example : sendmsgAll [.part 3, .eagain, .part 1, .part 9] [c!"da", [], c!"ta", c!"!"] = (.done, c!"data!") := by
  decide
example : copyFdAll [(.part 1, [.part 0, .part 0]), (.eintr, []), (.part 5, [.part 5]), (.part 0, [])] c!"data"
    = (.done, c!"data") := by decide

/-- **C62.** `qubes_read_all_to_malloc` refuses to work with sizes for which it is not made, and reads nothing then. -/
theorem C62_bad_sizes (ks : List Sys) (s : Str) (initial limit : Nat)
    (h : initial < 2 ∨ limit < initial ∨ limit > 2147483647) : readAllToMalloc ks s initial limit = (.fault, []) := by
  unfold readAllToMalloc
  by_cases h3 : limit > 2147483647
  · rw [if_pos h3]
  · rw [if_neg h3, if_pos (by simp; omega)]

end Qrexec
