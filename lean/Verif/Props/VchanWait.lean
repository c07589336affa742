import Verif.Spec.VchanWait
import Mathlib.Tactic.SplitIfs

/-!
# C93: waiting for a connection ends at the deadline
-/
namespace Qrexec
open Spec

/-- The time given to `ppoll` is what is left to the deadline, and none exactly if the deadline is over. -/
theorem timeLeft_spec {e now : Tm} (he : Tm.Valid e) (hn : Tm.Valid now) :
    (∀ t, timeLeft e now = some t → Tm.ns now + Tm.ns t = Tm.ns e ∧ Tm.Valid t ∧ 0 ≤ t.sec) ∧
    (timeLeft e now = none ↔ Tm.ns e < Tm.ns now) := by
  obtain ⟨e1, e2⟩ := he
  obtain ⟨n1, n2⟩ := hn
  unfold timeLeft Tm.ns Tm.Valid
  constructor
  · intro t ht
    dsimp only at ht
    split_ifs at ht <;> cases ht <;> refine ⟨?_, ⟨?_, ?_⟩, ?_⟩ <;> dsimp only at * <;> omega
  · dsimp only
    split_ifs <;> simp_all <;> omega

theorem inTime_cases {timeout : Int} {e : Tm} {r : VwRound} (he : Tm.Valid e) (hr : ∀ t, r.now = some t → Tm.Valid t) :
    (∀ srv rs, InTime timeout (Tm.ns e) r → ∃ left, vwLoop srv timeout e (r :: rs) = vwPoll srv r left (vwLoop srv timeout e rs)) := by
  intro srv rs h
  rw [vwLoop]
  by_cases ht : timeout > 0
  · rw [if_pos ht]
    rcases h with h | ⟨t, h1, h2⟩
    · omega
    · rw [h1]
      dsimp only
      cases hl : timeLeft e t with
      | none => have := ((timeLeft_spec he (hr t h1)).2).1 hl; omega
      | some l => exact ⟨_, rfl⟩
  · rw [if_neg ht]; exact ⟨_, rfl⟩

theorem not_inTime {timeout : Int} {e : Tm} {r : VwRound} (he : Tm.Valid e) (hr : ∀ t, r.now = some t → Tm.Valid t)
    {srv : Bool} {rs : List VwRound} (h : ¬ InTime timeout (Tm.ns e) r) :
    vwLoop srv timeout e (r :: rs) = (if r.now = none then .failed else .timedOut, []) := by
  unfold InTime at h
  simp only [not_or, not_exists, not_and] at h
  rw [vwLoop, if_pos (by omega)]
  cases hn : r.now with
  | none => rfl
  | some t =>
    dsimp only
    have := (timeLeft_spec he (hr t hn)).2.2 (by have := h.2 t hn; omega)
    rw [this]
    rfl

/-- **C93.** Waiting succeeds exactly if, before the deadline, the connection is there after rounds in which nothing has
happened; it ends with a timeout exactly if after such rounds the clock is past the deadline or `ppoll` says that the time
given to it has passed.  -/
theorem C93_result (isServer : Bool) (timeout : Int) (start : Tm) (rs : List VwRound) (hs : Tm.Valid start)
    (hr : ∀ r ∈ rs, ∀ t, r.now = some t → Tm.Valid t) :
    let deadline := Tm.ns start + timeout * 1000000000
    ((waitVchan isServer timeout (some start) rs).1 = .connected ↔
      ∃ pre r post, rs = pre ++ r :: post ∧ (∀ q ∈ pre, InTime timeout deadline q ∧ GoesOn isServer q) ∧
        InTime timeout deadline r ∧ VwConnects isServer r) ∧
    ((waitVchan isServer timeout (some start) rs).1 = .timedOut ↔
      ∃ pre r post, rs = pre ++ r :: post ∧ (∀ q ∈ pre, InTime timeout deadline q ∧ GoesOn isServer q) ∧
        TimeOver timeout deadline r) ∧
    ((waitVchan isServer timeout (some start) rs).1 = .waiting ↔ ∀ q ∈ rs, InTime timeout deadline q ∧ GoesOn isServer q) := by
  intro deadline
  have hd : Tm.ns ⟨start.sec + timeout, start.nsec⟩ = deadline := by
    show (start.sec + timeout) * 1000000000 + start.nsec = start.sec * 1000000000 + start.nsec + timeout * 1000000000
    omega
  have he : Tm.Valid ⟨start.sec + timeout, start.nsec⟩ := hs
  unfold waitVchan
  dsimp only
  generalize (⟨start.sec + timeout, start.nsec⟩ : Tm) = e at hd he
  clear_value deadline
  subst hd
  induction rs with
  | nil => simp [vwLoop]
  | cons r rs ih =>
    have hr1 := hr r (by simp)
    obtain ⟨i1, i2, i3⟩ := ih (fun q hq => hr q (by simp [hq]))
    by_cases hi : InTime timeout (Tm.ns e) r
    · obtain ⟨left, hl⟩ := inTime_cases he hr1 isServer rs hi
      rw [hl]
      have hover : ¬ (0 < timeout ∧ ∃ t, r.now = some t ∧ Tm.ns e < Tm.ns t) := by
        rintro ⟨h1, t, h2, h3⟩
        rcases hi with h | ⟨t', h4, h5⟩
        · omega
        · rw [h2] at h4; cases h4; omega
      -- the first round goes on
      have goOn : GoesOn isServer r → (vwPoll isServer r left (vwLoop isServer timeout e rs)).1 = (vwLoop isServer timeout e rs).1 ∧
          ¬ VwConnects isServer r ∧ ¬ TimeOver timeout (Tm.ns e) r := by
        rintro (h | h | ⟨h, h', h''⟩)
        · refine ⟨by simp only [vwPoll, h], ?_, ?_⟩
          · rintro ⟨h1, -⟩; rw [h] at h1; cases h1
          · rintro (h1 | ⟨-, h1⟩)
            · exact hover h1
            · rw [h] at h1; cases h1
        · refine ⟨by simp only [vwPoll, h], ?_, ?_⟩
          · rintro ⟨h1, -⟩; rw [h] at h1; cases h1
          · rintro (h1 | ⟨-, h1⟩)
            · exact hover h1
            · rw [h] at h1; cases h1
        · refine ⟨?_, ?_, ?_⟩
          · simp only [vwPoll, h, h']
            rw [if_neg (by simp), if_neg (by omega), if_neg (by omega)]
          · rintro ⟨-, h1 | h1⟩
            · rw [h'] at h1; cases h1
            · omega
          · rintro (h1 | ⟨-, h1⟩)
            · exact hover h1
            · rw [h] at h1; cases h1
      by_cases hg : GoesOn isServer r
      · obtain ⟨g1, g2, g3⟩ := goOn hg
        rw [g1]
        refine ⟨i1.trans ⟨?_, ?_⟩, i2.trans ⟨?_, ?_⟩, i3.trans ⟨?_, ?_⟩⟩
        · rintro ⟨pre, q, post, h1, h2, h3⟩
          refine ⟨r :: pre, q, post, by rw [h1]; rfl, ?_, h3⟩
          intro x hx
          rcases List.mem_cons.1 hx with rfl | hx
          · exact ⟨hi, hg⟩
          · exact h2 x hx
        · rintro ⟨pre, q, post, h1, h2, h3⟩
          cases pre with
          | nil => simp only [List.nil_append, List.cons.injEq] at h1; rw [← h1.1] at h3; exact absurd h3.2 g2
          | cons x pre =>
            simp only [List.cons_append, List.cons.injEq] at h1
            exact ⟨pre, q, post, h1.2, fun y hy => h2 y (by simp [hy]), h3⟩
        · rintro ⟨pre, q, post, h1, h2, h3⟩
          refine ⟨r :: pre, q, post, by rw [h1]; rfl, ?_, h3⟩
          intro x hx
          rcases List.mem_cons.1 hx with rfl | hx
          · exact ⟨hi, hg⟩
          · exact h2 x hx
        · rintro ⟨pre, q, post, h1, h2, h3⟩
          cases pre with
          | nil => simp only [List.nil_append, List.cons.injEq] at h1; rw [← h1.1] at h3; exact absurd h3 g3
          | cons x pre =>
            simp only [List.cons_append, List.cons.injEq] at h1
            exact ⟨pre, q, post, h1.2, fun y hy => h2 y (by simp [hy]), h3⟩
        · intro h x hx
          rcases List.mem_cons.1 hx with rfl | hx
          · exact ⟨hi, hg⟩
          · exact h x hx
        · intro h x hx
          exact h x (by simp [hx])
      · have first : ∀ (Q : VwRound → Prop), (∃ pre q post, r :: rs = pre ++ q :: post ∧
            (∀ q ∈ pre, InTime timeout (Tm.ns e) q ∧ GoesOn isServer q) ∧ Q q) ↔ Q r := by
          intro Q
          constructor
          · rintro ⟨pre, q, post, h1, h2, h3⟩
            cases pre with
            | nil => simp only [List.nil_append, List.cons.injEq] at h1; rw [h1.1]; exact h3
            | cons x pre =>
              simp only [List.cons_append, List.cons.injEq] at h1
              exact absurd (h2 x (by simp)).2 (by rw [← h1.1]; exact hg)
          · intro h
            exact ⟨[], r, rs, rfl, by simp, h⟩
        rw [first (fun q => InTime timeout (Tm.ns e) q ∧ VwConnects isServer q), first (fun q => TimeOver timeout (Tm.ns e) q)]
        have hw : ¬ ∀ q ∈ r :: rs, InTime timeout (Tm.ns e) q ∧ GoesOn isServer q := fun h => hg (h r (by simp)).2
        unfold GoesOn at hg
        simp only [not_or, not_and] at hg
        obtain ⟨g1, g2, g3⟩ := hg
        have hTO : TimeOver timeout (Tm.ns e) r ↔ r.poll = .timeout :=
          ⟨fun h => h.elim (fun h => absurd h hover) (fun h => h.2), fun h => .inr ⟨hi, h⟩⟩
        rw [hTO]
        unfold VwConnects
        unfold vwPoll
        cases hp : r.poll with
        | eintr => exact absurd hp g1
        | error => simp_all
        | timeout => simp_all
        | ready b =>
          cases b with
          | false => exact absurd hp g2
          | true =>
            have g3 := g3 hp
            dsimp only
            cases isServer with
            | true => simp_all
            | false =>
              have g3 := g3 rfl
              by_cases h1 : r.finish < 0
              · have h2 : r.finish ≠ 0 := by omega
                simp_all
              · have h2 : r.finish = 0 := by omega
                simp_all
    · rw [not_inTime he hr1 hi]
      have hi' := hi
      unfold InTime at hi'
      simp only [not_or, not_exists, not_and] at hi'
      have nofirst : ∀ pre (q : VwRound) post, r :: rs = pre ++ q :: post →
          (∀ q ∈ pre, InTime timeout (Tm.ns e) q ∧ GoesOn isServer q) → r = q := by
        intro pre q post h1 h2
        cases pre with
        | nil => simp only [List.nil_append, List.cons.injEq] at h1; exact h1.1
        | cons x pre =>
          simp only [List.cons_append, List.cons.injEq] at h1
          exact absurd (h2 x (by simp)).1 (by rw [← h1.1]; exact hi)
      refine ⟨⟨?_, ?_⟩, ⟨?_, ?_⟩, ⟨?_, ?_⟩⟩
      · intro h; dsimp only at h; split_ifs at h
      · rintro ⟨pre, q, post, h1, h2, h3, -⟩
        rw [← nofirst pre q post h1 h2] at h3
        exact absurd h3 hi
      · intro h
        dsimp only at h
        refine ⟨[], r, rs, rfl, by simp, .inl ⟨by omega, ?_⟩⟩
        cases hn : r.now with
        | none => rw [if_pos hn] at h; cases h
        | some t => exact ⟨t, rfl, by have := hi'.2 t hn; omega⟩
      · rintro ⟨pre, q, post, h1, h2, h3⟩
        rw [← nofirst pre q post h1 h2] at h3
        rcases h3 with ⟨-, t, h4, -⟩ | ⟨h4, -⟩
        · dsimp only
          rw [if_neg (by rw [h4]; simp)]
        · exact absurd h4 hi
      · intro h; dsimp only at h; split_ifs at h
      · intro h
        exact absurd (h r (by simp)).1 hi

/-- **C93, the times.** With a limit every `ppoll` is given exactly the time from the clock to the deadline; without one
it waits without limit. -/
theorem C93_times (isServer : Bool) (timeout : Int) (start : Tm) (rs : List VwRound) (hs : Tm.Valid start)
    (hr : ∀ r ∈ rs, ∀ t, r.now = some t → Tm.Valid t) :
    ∀ (i : Nat) left, (waitVchan isServer timeout (some start) rs).2[i]? = some left →
      (timeout ≤ 0 → left = none) ∧
      (0 < timeout → ∃ (r : VwRound) (now t : Tm), rs[i]? = some r ∧ r.now = some now ∧ left = some t ∧ Tm.Valid t ∧ 0 ≤ t.sec ∧
        Tm.ns now + Tm.ns t = Tm.ns start + timeout * 1000000000) := by
  have hd : Tm.ns ⟨start.sec + timeout, start.nsec⟩ = Tm.ns start + timeout * 1000000000 := by
    show (start.sec + timeout) * 1000000000 + start.nsec = start.sec * 1000000000 + start.nsec + timeout * 1000000000
    omega
  have he : Tm.Valid ⟨start.sec + timeout, start.nsec⟩ := hs
  unfold waitVchan
  dsimp only
  rw [← hd]
  generalize (⟨start.sec + timeout, start.nsec⟩ : Tm) = e at he
  have poll : ∀ r left (rest : VwRes × List (Option Tm)), (vwPoll isServer r left rest).2 = left :: rest.2 ∨
      (vwPoll isServer r left rest).2 = [left] := by
    intro r left rest
    unfold vwPoll
    cases r.poll with
    | ready b =>
      cases b
      · exact .inl rfl
      · dsimp only
        split_ifs
        · exact .inr rfl
        · exact .inr rfl
        · exact .inr rfl
        · exact .inl rfl
    | eintr => exact .inl rfl
    | error => exact .inr rfl
    | timeout => exact .inr rfl
  induction rs with
  | nil => intro i left h; simp [vwLoop] at h
  | cons r rs ih =>
    have ih := ih (fun q hq => hr q (by simp [hq]))
    have hr1 := hr r (by simp)
    intro i left h
    rw [vwLoop] at h
    have tail : ∀ l0, (l0 = none ∨ l0 ≠ none) → (vwPoll isServer r l0 (vwLoop isServer timeout e rs)).2[i]? = some left →
        (i = 0 ∧ left = l0) ∨ ∃ j, i = j + 1 ∧ (vwLoop isServer timeout e rs).2[j]? = some left := by
      intro l0 _ h
      cases i with
      | zero =>
        left
        rcases poll r l0 (vwLoop isServer timeout e rs) with h1 | h1 <;> rw [h1] at h <;>
          simp only [List.getElem?_cons_zero, Option.some.injEq] at h <;> exact ⟨rfl, h.symm⟩
      | succ j =>
        right
        rcases poll r l0 (vwLoop isServer timeout e rs) with h1 | h1 <;> rw [h1] at h <;>
          simp only [List.getElem?_cons_succ] at h
        · exact ⟨j, rfl, h⟩
        · simp at h
    have lift : ∀ j, i = j + 1 → (vwLoop isServer timeout e rs).2[j]? = some left →
        (timeout ≤ 0 → left = none) ∧
        (0 < timeout → ∃ (r' : VwRound) (now t : Tm), (r :: rs)[i]? = some r' ∧ r'.now = some now ∧ left = some t ∧ Tm.Valid t ∧ 0 ≤ t.sec ∧
          Tm.ns now + Tm.ns t = Tm.ns e) := by
      intro j hj h1
      subst hj
      exact ih j left h1
    by_cases ht : timeout > 0
    · rw [if_pos ht] at h
      cases hn : r.now with
      | none => rw [hn] at h; simp at h
      | some now =>
        rw [hn] at h
        dsimp only at h
        cases hl : timeLeft e now with
        | none => rw [hl] at h; simp at h
        | some t =>
          rw [hl] at h
          dsimp only at h
          rcases tail _ (.inr (by simp)) h with ⟨rfl, rfl⟩ | ⟨j, h1, h2⟩
          · obtain ⟨a, b, c⟩ := (timeLeft_spec he (hr1 now hn)).1 t hl
            exact ⟨fun h => by omega, fun _ => ⟨r, now, t, rfl, hn, rfl, b, c, a⟩⟩
          · exact lift j h1 h2
    · rw [if_neg ht] at h
      rcases tail _ (.inl rfl) h with ⟨rfl, rfl⟩ | ⟨j, h1, h2⟩
      · exact ⟨fun _ => rfl, fun h => absurd h ht⟩
      · exact lift j h1 h2

/-- The hypotheses are met: five seconds, the clock at 0.9 s; a signal, then the connection at 5.1 s. -/
theorem C93_example :
    waitVchan false 5 (some ⟨0, 900000000⟩) [⟨some ⟨1, 0⟩, .eintr, 0⟩, ⟨some ⟨5, 100000000⟩, .ready true, 0⟩] =
      (.connected, [some ⟨4, 900000000⟩, some ⟨0, 800000000⟩]) ∧
    (waitVchan false 5 (some ⟨0, 900000000⟩) [⟨some ⟨5, 900000001⟩, .ready true, 0⟩]).1 = .timedOut := by decide

end Qrexec
