import Verif.Model.LocalWire
import Verif.Props.DataOut
import Verif.Props.Handshake
import Verif.Props.ClientVm

/-!
# What local programs send, and what is made of it (C107)
-/
namespace Qrexec
open Spec

namespace Spec

/-- Bytes. -/
def IsBytes (s : Str) : Prop := ∀ c ∈ s, c.toNat < 256

/-- A message: header with type and length, and body. -/
def Message (type : Nat) (body : Str) : Str := u32le type ++ u32le body.length ++ body

/-- The greeting of a client with this version. -/
def Greeting (version : Nat) : Str := Message 0x300 (u32le version)

/-- The request of a client of the daemon. -/
def ClientRequest (type domain port : Nat) (buf : Str) : Str := Message type (u32le domain ++ u32le port ++ buf)

/-- The types of requests. -/
def RequestType (type : Nat) : Prop := type = 0x200 ∨ type = 0x201 ∨ type = 0x202

end Spec

theorem rdAll_got {n : Nat} {s a b : Str} {closed : Bool} : rdAll n s closed = .got a b ↔ a.length = n ∧ s = a ++ b := by
  unfold rdAll
  constructor
  · intro h
    split at h
    · rename_i hn
      cases h
      exact ⟨by rw [List.length_take]; omega, (List.take_append_drop n s).symm⟩
    · split at h <;> cases h
  · rintro ⟨rfl, rfl⟩
    rw [if_pos (by rw [List.length_append]; omega), List.take_left, List.drop_left]

theorem rdAll_waits {n : Nat} {s : Str} {closed : Bool} : rdAll n s closed = .waits ↔ closed = false ∧ s.length < n := by
  unfold rdAll
  split
  · constructor
    · intro h; cases h
    · rintro ⟨_, h⟩; omega
  · cases closed
    · exact ⟨fun _ => ⟨rfl, by omega⟩, fun _ => rfl⟩
    · constructor
      · intro h; cases h
      · rintro ⟨h, _⟩; cases h

theorem bytes_take {s : Str} (h : IsBytes s) (n : Nat) : IsBytes (s.take n) := fun c hc => h c (List.mem_of_mem_take hc)
theorem bytes_drop {s : Str} (h : IsBytes s) (n : Nat) : IsBytes (s.drop n) := fun c hc => h c (List.mem_of_mem_drop hc)
theorem bytes_left {a b : Str} (h : IsBytes (a ++ b)) : IsBytes a := fun c hc => h c (List.mem_append_left _ hc)
theorem bytes_right {a b : Str} (h : IsBytes (a ++ b)) : IsBytes b := fun c hc => h c (List.mem_append_right _ hc)

/-- Four bytes are a number. -/
theorem four {s : Str} (h : IsBytes s) (hl : s.length = 4) : s = u32le (u32of s) ∧ u32of s < 4294967296 := by
  have := u32le_u32of h (by omega)
  rw [List.drop_eq_nil_of_le (by omega), List.append_nil] at this
  exact ⟨this.1.symm, this.2⟩

/-- Eight bytes are two numbers. -/
theorem eight {s : Str} (h : IsBytes s) (hl : s.length = 8) :
    s = u32le (u32of s) ++ u32le (u32of (s.drop 4)) ∧ u32of s < 4294967296 ∧ u32of (s.drop 4) < 4294967296 := by
  have h1 := u32le_u32of h (by omega)
  have h2 := four (bytes_drop h 4) (by rw [List.length_drop]; omega)
  exact ⟨by rw [← h2.1]; exact h1.1.symm, h1.2, h2.2⟩

theorem eight_fst {a b : Nat} (ha : a < 4294967296) : u32of (u32le a ++ u32le b) = a := u32of_u32le a ha _

theorem eight_snd {a b : Nat} (hb : b < 4294967296) : u32of ((u32le a ++ u32le b).drop 4) = b := by
  rw [show (u32le a ++ u32le b).drop 4 = u32le b ++ [] from rfl]
  exact u32of_u32le b hb []

/-- **C107.** The daemon takes a greeting for acceptable exactly if it is one with a version of 3 or more, and reads
nothing behind it. -/
theorem C107_hello {fd : Nat} {w : Bool} {s r : Str} {closed : Bool} (hb : IsBytes s) :
    readClient fd w .hello s closed = some (.event (.clientHello fd true) r) ↔
      ∃ v, 3 ≤ v ∧ v < 4294967296 ∧ s = Greeting v ++ r := by
  show some (readHello fd s closed) = _ ↔ _
  rw [Option.some.injEq]
  constructor
  · intro h
    unfold readHello at h
    split at h
    · cases h
    · cases h
    · rename_i hd s1 h1
      obtain ⟨hl, rfl⟩ := rdAll_got.1 h1
      obtain ⟨e1, _, _⟩ := eight (bytes_left hb) hl
      split at h
      · cases h
      · rename_i hc
        simp only [not_or, not_not] at hc
        split at h
        · cases h
        · cases h
        · rename_i i s2 h2
          obtain ⟨hl2, rfl⟩ := rdAll_got.1 h2
          obtain ⟨e2, e3⟩ := four (bytes_left (bytes_right hb)) hl2
          simp only [LocalRead.event.injEq, DEv.clientHello.injEq, true_and] at h
          obtain ⟨h, rfl⟩ := h
          refine ⟨u32of i, ?_, e3, ?_⟩
          · simp at h; exact h
          · rw [e1, hc.1, hc.2]
            unfold Greeting Message
            rw [u32le_length, ← e2]
            simp only [List.append_assoc]
  · rintro ⟨v, hv, hv', rfl⟩
    unfold readHello
    have g1 : rdAll 8 (Greeting v ++ r) closed = .got (u32le 0x300 ++ u32le 4) (u32le v ++ r) :=
      rdAll_got.2 ⟨rfl, by unfold Greeting Message; rw [u32le_length]; simp only [List.append_assoc]⟩
    rw [g1]
    dsimp only
    rw [eight_fst (by decide), eight_snd (by decide), if_neg (by decide)]
    have g2 : rdAll 4 (u32le v ++ r) closed = .got (u32le v) r := rdAll_got.2 ⟨rfl, rfl⟩
    rw [g2]
    dsimp only
    have := u32of_u32le v hv' []
    rw [List.append_nil] at this
    rw [this, decide_eq_false (by omega)]
    rfl

/-- **C107.** The daemon acts on a request exactly if it was sent completely, with a type it knows and a length within
the limits, and reads nothing behind it. -/
theorem C107_request {fd : Nat} {w : Bool} {s r : Str} {closed : Bool} {type d p : Nat} {buf : Str} (hb : IsBytes s) :
    readClient fd w .cmdline s closed = some (.event (.clientMsg fd type d p buf w) r) ↔
      RequestType type ∧ d < 4294967296 ∧ p < 4294967296 ∧ buf ≠ [] ∧ buf.length ≤ 65527 ∧ s = ClientRequest type d p buf ++ r := by
  show some (readMessage fd w s closed) = _ ↔ _
  rw [Option.some.injEq]
  constructor
  · intro h
    unfold readMessage at h
    split at h
    · cases h
    · cases h
    · rename_i hd s1 h1
      obtain ⟨hl, rfl⟩ := rdAll_got.1 h1
      obtain ⟨e1, _, _⟩ := eight (bytes_left hb) hl
      split at h
      · cases h
      split at h
      · cases h
      split at h
      · cases h
      rename_i hc hc2 hc3
      split at h
      · cases h
      · cases h
      · rename_i q s2 h2
        obtain ⟨hl2, rfl⟩ := rdAll_got.1 h2
        cases h
        have hq := bytes_left (bytes_right hb)
        obtain ⟨e2, e3, e4⟩ := eight (bytes_take hq 8) (by rw [List.length_take]; omega)
        have t1 : u32of (q.take 8) = u32of q := by
          match q, (show 8 < q.length by omega) with
          | a :: b :: c :: d :: e :: f :: g :: i :: r, _ => rfl
        have t2 : u32of ((q.take 8).drop 4) = u32of (q.drop 4) := by
          match q, (show 8 < q.length by omega) with
          | a :: b :: c :: d :: e :: f :: g :: i :: r, _ => rfl
        rw [t1] at e2 e3
        rw [t2] at e2 e4
        have hlen : (q.drop 8).length = q.length - 8 := List.length_drop ..
        have hq8 : q = (u32le (u32of q) ++ u32le (u32of (q.drop 4))) ++ q.drop 8 := by
          rw [← e2, List.take_append_drop]
        refine ⟨?_, e3, e4, List.ne_nil_of_length_pos (by omega), by omega, ?_⟩
        · unfold RequestType
          by_contra hno
          simp only [not_or] at hno
          exact hc hno
        · unfold ClientRequest Message
          rw [← hq8, hl2, ← e1]
          simp only [List.append_assoc]
  · rintro ⟨ht, hd, hp, hne, hlen, rfl⟩
    have hpos := List.length_pos_iff.2 hne
    unfold readMessage
    have hbl : (u32le d ++ u32le p ++ buf).length = 8 + buf.length := by
      rw [List.length_append]; rfl
    have ht' : type < 4294967296 := by rcases ht with rfl | rfl | rfl <;> decide
    have g1 : rdAll 8 (ClientRequest type d p buf ++ r) closed = .got (u32le type ++ u32le (8 + buf.length)) ((u32le d ++ u32le p ++ buf) ++ r) :=
      rdAll_got.2 ⟨rfl, by unfold ClientRequest Message; rw [hbl]; simp only [List.append_assoc]⟩
    rw [g1]
    dsimp only
    rw [eight_fst ht', eight_snd (by omega), if_neg (by rintro ⟨a, b, c⟩; rcases ht with e | e | e; exacts [a e, b e, c e]), if_neg (by omega), if_neg (by omega)]
    have g2 : rdAll (8 + buf.length) ((u32le d ++ u32le p ++ buf) ++ r) closed = .got (u32le d ++ u32le p ++ buf) r :=
      rdAll_got.2 ⟨hbl, rfl⟩
    rw [g2]
    dsimp only
    have e1 : u32of (u32le d ++ u32le p ++ buf) = d := by
      rw [List.append_assoc]; exact u32of_u32le d hd _
    have e2 : u32of ((u32le d ++ u32le p ++ buf).drop 4) = p := by
      rw [show (u32le d ++ u32le p ++ buf).drop 4 = u32le p ++ buf from rfl]; exact u32of_u32le p hp _
    rw [e1, e2]
    rfl

/-- **C107.** Everything else a client sends makes the daemon drop the client, or wait for more. -/
theorem C107_else {fd : Nat} {w : Bool} {st : ClientState} {s : Str} {closed : Bool} {x : LocalRead DEv}
    (h : readClient fd w st s closed = some x) :
    x = .waits ∨ (∃ r, x = .event (.clientHello fd true) r ∧ st = .hello) ∨ (∃ r, x = .event (.clientHello fd false) r ∧ st = .hello) ∨
    (∃ type d p buf r, x = .event (.clientMsg fd type d p buf w) r ∧ st = .cmdline) ∨
    (∃ r, x = .event (.clientGone fd) r ∧ (st = .cmdline ∨ st = .running)) := by
  cases st with
  | invalid => cases h
  | running => cases h; exact Or.inr (Or.inr (Or.inr (Or.inr ⟨_, rfl, Or.inr rfl⟩)))
  | hello =>
    cases h
    have bool : ∀ b r, (LocalRead.event (DEv.clientHello fd b) r = .waits ∨ (∃ r', LocalRead.event (DEv.clientHello fd b) r = .event (.clientHello fd true) r' ∧ ClientState.hello = .hello) ∨
        (∃ r', LocalRead.event (DEv.clientHello fd b) r = .event (.clientHello fd false) r' ∧ ClientState.hello = .hello) ∨
        (∃ type d p buf r', LocalRead.event (DEv.clientHello fd b) r = .event (.clientMsg fd type d p buf w) r' ∧ ClientState.hello = .cmdline) ∨
        (∃ r', LocalRead.event (DEv.clientHello fd b) r = .event (.clientGone fd) r' ∧ (ClientState.hello = .cmdline ∨ ClientState.hello = .running))) := by
      intro b r
      cases b
      · exact Or.inr (Or.inr (Or.inl ⟨_, rfl, rfl⟩))
      · exact Or.inr (Or.inl ⟨_, rfl, rfl⟩)
    unfold readHello
    split
    · exact Or.inl rfl
    · exact bool _ _
    · split
      · exact bool _ _
      · split
        · exact Or.inl rfl
        · exact bool _ _
        · exact bool _ _
  | cmdline =>
    cases h
    unfold readMessage
    split
    · exact Or.inl rfl
    · exact Or.inr (Or.inr (Or.inr (Or.inr ⟨_, rfl, Or.inl rfl⟩)))
    · split
      · exact Or.inr (Or.inr (Or.inr (Or.inr ⟨_, rfl, Or.inl rfl⟩)))
      split
      · exact Or.inr (Or.inr (Or.inr (Or.inr ⟨_, rfl, Or.inl rfl⟩)))
      split
      · exact Or.inr (Or.inr (Or.inr (Or.inr ⟨_, rfl, Or.inl rfl⟩)))
      split
      · exact Or.inl rfl
      · exact Or.inr (Or.inr (Or.inr (Or.inr ⟨_, rfl, Or.inl rfl⟩)))
      · exact Or.inr (Or.inr (Or.inr (Or.inl ⟨_, _, _, _, _, rfl, rfl⟩)))

/-- **C107.** So the events of the rounds of `Model/Rounds` are those that the bytes give. -/
theorem C107_rounds {fd : Nat} {w : Bool} {st : ClientState} {s rest : Str} {closed : Bool} {e : DEv}
    (h : readClient fd w st s closed = some (.event e rest)) : ∃ r : ClientReads, clientEvent st fd r = some e := by
  rcases C107_else h with hx | ⟨r, hx, rfl⟩ | ⟨r, hx, rfl⟩ | ⟨type, d, p, buf, r, hx, rfl⟩ | ⟨r, hx, rfl | rfl⟩
  · cases hx
  · cases hx; exact ⟨⟨true, none⟩, rfl⟩
  · cases hx; exact ⟨⟨false, none⟩, rfl⟩
  · cases hx; exact ⟨⟨true, some (type, d, p, buf, w)⟩, rfl⟩
  · cases hx; exact ⟨⟨true, none⟩, rfl⟩
  · cases hx; exact ⟨⟨true, none⟩, rfl⟩

/-- **C107.** The agent makes a call exactly of a complete message with the right type and a length within its limits. -/
theorem C107_call {fd : Nat} {s r : Str} {closed : Bool} {type len : Nat} {body : Str} (hb : IsBytes s) :
    readTrigger fd s closed = .event (.trigger fd (some (type, len)) (some body)) r ↔
      type = 0x213 ∧ len = body.length ∧ 160 < len ∧ len ≤ 65160 ∧ s = Message 0x213 body ++ r := by
  constructor
  · intro h
    unfold readTrigger at h
    split at h
    · cases h
    · cases h
    · rename_i hd s1 h1
      obtain ⟨hl, rfl⟩ := rdAll_got.1 h1
      obtain ⟨e1, _, _⟩ := eight (bytes_left hb) hl
      split at h
      · cases h
      rename_i hc
      simp only [not_or, not_not, Nat.not_le, Nat.not_lt] at hc
      split at h
      · cases h
      · cases h
      · rename_i q s2 h2
        obtain ⟨hl2, rfl⟩ := rdAll_got.1 h2
        cases h
        refine ⟨hc.1, hl2.symm, hc.2.1, hc.2.2, ?_⟩
        unfold Message
        rw [e1, hc.1, hl2]
        simp only [List.append_assoc]
  · rintro ⟨rfl, rfl, h1, h2, rfl⟩
    unfold readTrigger
    have g1 : rdAll 8 (Message 0x213 body ++ r) closed = .got (u32le 0x213 ++ u32le body.length) (body ++ r) :=
      rdAll_got.2 ⟨rfl, by unfold Message; simp only [List.append_assoc]⟩
    rw [g1]
    dsimp only
    rw [eight_fst (by decide), eight_snd (by omega), if_neg (by omega)]
    have g2 : rdAll body.length (body ++ r) closed = .got body r := rdAll_got.2 ⟨rfl, rfl⟩
    rw [g2]

/-- **C107, anything else.** When the agent has read what a local program sent it either makes a call of it, which was complete and
within the limits, or closes this connection and does nothing else. -/
theorem C107_agent_else (load : RpcService → Option SvcConf) {fd : Nat} {s r : Str} {closed : Bool} {e : VaEv} (hb : IsBytes s)
    (h : readTrigger fd s closed = .event e r) (st : VaState) :
    (∃ body, 160 < body.length ∧ body.length ≤ 65160 ∧ s = Message 0x213 body ++ r ∧
      vaStep load st e = some (st, [.forward 0x213 body.length (putIdent fd body)])) ∨
    ((∀ body t, 160 < body.length → body.length ≤ 65160 → s ≠ Message 0x213 body ++ t) ∧ vaStep load st e = some (st, [.closed fd])) := by
  have hno : (∀ type len body r', e ≠ .trigger fd (some (type, len)) (some body) ∨ r ≠ r') →
      ∀ body t, 160 < body.length → body.length ≤ 65160 → s ≠ Message 0x213 body ++ t := by
    intro hc body t h1 h2 he
    have := (C107_call (fd := fd) (closed := closed) (type := 0x213) (len := body.length) (body := body) (r := t) hb).2
      ⟨rfl, rfl, h1, h2, he⟩
    rw [h] at this
    cases this
    rcases hc _ _ _ _ with h | h <;> exact h rfl
  have h0 := h
  unfold readTrigger at h
  split at h
  · cases h
  · cases h
    exact .inr ⟨hno (fun _ _ _ _ => .inl (fun e => by cases e)), rfl⟩
  · rename_i hd s1 h1
    split at h
    · cases h
      rename_i hc
      refine .inr ⟨hno (fun _ _ _ _ => .inl (fun e => by cases e)), ?_⟩
      simp only [vaStep, vaTrigger]
      rw [if_pos hc]
    · rename_i hc
      split at h
      · cases h
      · cases h
        refine .inr ⟨hno (fun _ _ _ _ => .inl (fun e => by cases e)), ?_⟩
        simp only [vaStep, vaTrigger]
        rw [if_neg hc]
      · rename_i q s2 h2
        cases h
        obtain ⟨e1, e2, e3, e4, e5⟩ := (C107_call hb).1 h0
        refine .inl ⟨q, by omega, by omega, e5, ?_⟩
        simp only [vaStep, vaTrigger]
        rw [if_neg hc, e1, e2]

/-! ## Waiting -/

/-- **C107, what holds of waiting.** The daemon waits for a client exactly if this one has not closed the connection and has sent less
than a header, or an acceptable header and less than it announces. -/
theorem C107_waits_partial {fd : Nat} {w : Bool} {st : ClientState} {s : Str} {closed : Bool} :
    readClient fd w st s closed = some .waits ↔ closed = false ∧
      ((st = .hello ∧ (s.length < 8 ∨ u32of s = 0x300 ∧ u32of (s.drop 4) = 4 ∧ s.length < 12)) ∨
       (st = .cmdline ∧ (s.length < 8 ∨ RequestType (u32of s) ∧ 8 < u32of (s.drop 4) ∧ u32of (s.drop 4) ≤ 65535 ∧
         s.length < 8 + u32of (s.drop 4)))) := by
  have hd1 : 8 ≤ s.length → u32of (s.take 8) = u32of s ∧ u32of ((s.take 8).drop 4) = u32of (s.drop 4) := by
    intro h
    match s, h with
    | a :: b :: c :: d :: e :: f :: g :: i :: r, _ => exact ⟨rfl, rfl⟩
  cases st with
  | invalid => simp [readClient]
  | running => simp [readClient]
  | hello =>
    simp only [readClient, Option.some.injEq, reduceCtorEq, false_and, or_false, true_and]
    by_cases h8 : 8 ≤ s.length
    · have g : rdAll 8 s closed = .got (s.take 8) (s.drop 8) := by unfold rdAll; rw [if_pos h8]
      unfold readHello
      rw [g]
      dsimp only
      rw [(hd1 h8).1, (hd1 h8).2]
      split
      · rename_i hc
        constructor
        · intro h; cases h
        · rintro ⟨_, h | ⟨a, b, _⟩⟩
          · omega
          · rcases hc with hc | hc
            · exact absurd a hc
            · exact absurd b hc
      · rename_i hc
        simp only [not_or, not_not] at hc
        have key : rdAll 4 (s.drop 8) closed = .waits ↔ closed = false ∧ s.length < 12 := by
          rw [rdAll_waits, List.length_drop]
          constructor <;> (rintro ⟨a, b⟩; exact ⟨a, by omega⟩)
        cases hr : rdAll 4 (s.drop 8) closed with
        | waits =>
          obtain ⟨a, b⟩ := key.1 hr
          exact ⟨fun _ => ⟨a, Or.inr ⟨hc.1, hc.2, b⟩⟩, fun _ => rfl⟩
        | fails =>
          refine ⟨fun h => (by cases h), ?_⟩
          rintro ⟨a, h | ⟨_, _, b⟩⟩
          · omega
          · rw [key.2 ⟨a, b⟩] at hr; cases hr
        | got x y =>
          refine ⟨fun h => (by cases h), ?_⟩
          rintro ⟨a, h | ⟨_, _, b⟩⟩
          · omega
          · rw [key.2 ⟨a, b⟩] at hr; cases hr
    · cases closed
      · have g : rdAll 8 s false = .waits := rdAll_waits.2 ⟨rfl, by omega⟩
        unfold readHello
        rw [g]
        exact ⟨fun _ => ⟨rfl, Or.inl (by omega)⟩, fun _ => rfl⟩
      · have g : rdAll 8 s true = .fails := by unfold rdAll; rw [if_neg h8]; rfl
        unfold readHello
        rw [g]
        constructor
        · intro h; cases h
        · rintro ⟨h, _⟩; cases h
  | cmdline =>
    simp only [readClient, Option.some.injEq, reduceCtorEq, false_and, false_or, true_and]
    by_cases h8 : 8 ≤ s.length
    · have g : rdAll 8 s closed = .got (s.take 8) (s.drop 8) := by unfold rdAll; rw [if_pos h8]
      unfold readMessage
      rw [g]
      dsimp only
      rw [(hd1 h8).1, (hd1 h8).2]
      split
      · rename_i hc
        constructor
        · intro h; cases h
        · rintro ⟨_, h | ⟨a, _⟩⟩
          · omega
          · rcases a with a | a | a
            · exact absurd a hc.1
            · exact absurd a hc.2.1
            · exact absurd a hc.2.2
      split
      · constructor
        · intro h; cases h
        · rintro ⟨_, h | ⟨_, a, _⟩⟩ <;> omega
      split
      · constructor
        · intro h; cases h
        · rintro ⟨_, h | ⟨_, _, a, _⟩⟩ <;> omega
      rename_i hc hc2 hc3
      have ht : RequestType (u32of s) := by
        by_contra hno
        simp only [RequestType, not_or] at hno
        exact hc hno
      have key : rdAll (u32of (s.drop 4)) (s.drop 8) closed = .waits ↔ closed = false ∧ s.length < 8 + u32of (s.drop 4) := by
        rw [rdAll_waits, List.length_drop]
        constructor <;> (rintro ⟨a, b⟩; exact ⟨a, by omega⟩)
      cases hr : rdAll (u32of (s.drop 4)) (s.drop 8) closed with
      | waits =>
        obtain ⟨a, b⟩ := key.1 hr
        exact ⟨fun _ => ⟨a, Or.inr ⟨ht, by omega, by omega, b⟩⟩, fun _ => rfl⟩
      | fails =>
        refine ⟨fun h => (by cases h), ?_⟩
        rintro ⟨a, h | ⟨_, _, _, b⟩⟩
        · omega
        · rw [key.2 ⟨a, b⟩] at hr; cases hr
      | got x y =>
        refine ⟨fun h => (by cases h), ?_⟩
        rintro ⟨a, h | ⟨_, _, _, b⟩⟩
        · omega
        · rw [key.2 ⟨a, b⟩] at hr; cases hr
    · cases closed
      · have g : rdAll 8 s false = .waits := rdAll_waits.2 ⟨rfl, by omega⟩
        unfold readMessage
        rw [g]
        exact ⟨fun _ => ⟨rfl, Or.inl (by omega)⟩, fun _ => rfl⟩
      · have g : rdAll 8 s true = .fails := by unfold rdAll; rw [if_neg h8]; rfl
        unfold readMessage
        rw [g]
        constructor
        · intro h; cases h
        · rintro ⟨h, _⟩; cases h

/-- **C107, the same for the agent.** -/
theorem C107_agent_waits_partial {fd : Nat} {s : Str} {closed : Bool} :
    readTrigger fd s closed = .waits ↔ closed = false ∧
      (s.length < 8 ∨ u32of s = 0x213 ∧ 160 < u32of (s.drop 4) ∧ u32of (s.drop 4) ≤ 65160 ∧ s.length < 8 + u32of (s.drop 4)) := by
  by_cases h8 : 8 ≤ s.length
  · have hd1 : u32of (s.take 8) = u32of s ∧ u32of ((s.take 8).drop 4) = u32of (s.drop 4) := by
      match s, h8 with
      | a :: b :: c :: d :: e :: f :: g :: i :: r, _ => exact ⟨rfl, rfl⟩
    have g : rdAll 8 s closed = .got (s.take 8) (s.drop 8) := by unfold rdAll; rw [if_pos h8]
    unfold readTrigger
    rw [g]
    dsimp only
    rw [hd1.1, hd1.2]
    split
    · constructor
      · intro h; cases h
      · rintro ⟨_, h | ⟨a, b, c, _⟩⟩ <;> omega
    · rename_i hc
      simp only [not_or, not_not, Nat.not_le, Nat.not_lt] at hc
      have key : rdAll (u32of (s.drop 4)) (s.drop 8) closed = .waits ↔ closed = false ∧ s.length < 8 + u32of (s.drop 4) := by
        rw [rdAll_waits, List.length_drop]
        constructor <;> (rintro ⟨a, b⟩; exact ⟨a, by omega⟩)
      cases hr : rdAll (u32of (s.drop 4)) (s.drop 8) closed with
      | waits =>
        obtain ⟨a, b⟩ := key.1 hr
        exact ⟨fun _ => ⟨a, Or.inr ⟨hc.1, hc.2.1, hc.2.2, b⟩⟩, fun _ => rfl⟩
      | fails =>
        refine ⟨fun h => (by cases h), ?_⟩
        rintro ⟨a, h | ⟨_, _, _, b⟩⟩
        · omega
        · rw [key.2 ⟨a, b⟩] at hr; cases hr
      | got x y =>
        refine ⟨fun h => (by cases h), ?_⟩
        rintro ⟨a, h | ⟨_, _, _, b⟩⟩
        · omega
        · rw [key.2 ⟨a, b⟩] at hr; cases hr
  · cases closed
    · have g : rdAll 8 s false = .waits := rdAll_waits.2 ⟨rfl, by omega⟩
      unfold readTrigger
      rw [g]
      exact ⟨fun _ => ⟨rfl, Or.inl (by omega)⟩, fun _ => rfl⟩
    · have g : rdAll 8 s true = .fails := by unfold rdAll; rw [if_neg h8]; rfl
      unfold readTrigger
      rw [g]
      constructor
      · intro h; cases h
      · rintro ⟨h, _⟩; cases h

/-- **C107, violated.** One byte, and nothing more, stops the daemon as well as the agent: the program that sent it is reported, and
waited for. -/
theorem C107_waits_violated (fd : Nat) (w : Bool) (c : Char) :
    readClient fd w .hello [c] false = some .waits ∧ readClient fd w .cmdline [c] false = some .waits ∧ readTrigger fd [c] false = .waits :=
  ⟨rfl, rfl, rfl⟩

/-! ## The programs of this package -/

theorem writeCommand_eq (type domain : Nat) (cmd : Wire) : writeCommand type domain cmd = ClientRequest type domain 0 cmd := by
  unfold writeCommand ClientRequest Message
  rw [show (u32le domain ++ u32le 0 ++ cmd).length = 8 + cmd.length by rw [List.length_append]; rfl]
  simp only [List.append_assoc]

theorem identField_length (ident : Str) : (identField ident).length = 32 := by
  unfold identField
  rw [List.length_append, List.length_replicate, List.length_take]
  omega

theorem writeConnect_eq (ident : Str) (domain port : Nat) : writeConnect ident domain port = ClientRequest 0x202 domain port (identField ident) := by
  unfold writeConnect ClientRequest Message
  rw [show (u32le domain ++ u32le port ++ identField ident).length = 8 + 32 by rw [List.length_append, identField_length]; rfl]
  simp only [List.append_assoc]

theorem bytes_u32le (n : Nat) : IsBytes (u32le n) := by
  intro c hc
  unfold u32le at hc
  simp only [List.mem_cons, List.not_mem_nil, or_false] at hc
  rcases hc with rfl | rfl | rfl | rfl <;> (rw [toNat_ofNat_lt _ (Nat.mod_lt _ (by decide))]; exact Nat.mod_lt _ (by decide))

theorem bytes_append {a b : Str} (ha : IsBytes a) (hb : IsBytes b) : IsBytes (a ++ b) := by
  intro c hc
  rcases List.mem_append.1 hc with h | h
  · exact ha c h
  · exact hb c h

/-- **C107.** What the programs of this package send to a daemon is read as what they mean, whatever follows: the greeting, then a command
for a user (of 2 to 65527 bytes with its NUL), or the details of a connection. -/
theorem C107_pair (fd : Nat) (w closed : Bool) (r : Str) (hr : IsBytes r) :
    readClient fd w .hello (writeHello ++ r) closed = some (.event (.clientHello fd true) r) ∧
    (∀ type d cmd, (type = 0x200 ∨ type = 0x201) → d < 4294967296 → IsBytes cmd → cmd ≠ [] → cmd.length ≤ 65527 →
      readClient fd w .cmdline (writeCommand type d cmd ++ r) closed = some (.event (.clientMsg fd type d 0 cmd w) r)) ∧
    (∀ ident d p, d < 4294967296 → p < 4294967296 → IsBytes ident →
      readClient fd w .cmdline (writeConnect ident d p ++ r) closed = some (.event (.clientMsg fd 0x202 d p (identField ident) w) r)) := by
  refine ⟨?_, ?_, ?_⟩
  · refine (C107_hello ?_).2 ⟨3, by decide, by decide, rfl⟩
    exact bytes_append (bytes_append (bytes_append (bytes_u32le _) (bytes_u32le _)) (bytes_u32le _)) hr
  · intro type d cmd ht hd hb hne hl
    rw [writeCommand_eq]
    refine (C107_request ?_).2 ⟨by unfold RequestType; tauto, hd, by decide, hne, hl, rfl⟩
    exact bytes_append (bytes_append (bytes_append (bytes_u32le _) (bytes_u32le _)) (bytes_append (bytes_append (bytes_u32le _) (bytes_u32le _)) hb)) hr
  · intro ident d p hd hp hb
    rw [writeConnect_eq]
    refine (C107_request ?_).2 ⟨Or.inr (Or.inr rfl), hd, hp, List.ne_nil_of_length_pos (by rw [identField_length]; decide), by rw [identField_length]; decide, rfl⟩
    have hi : IsBytes (identField ident) := by
      refine bytes_append (bytes_take hb _) ?_
      intro c hc
      rw [List.eq_of_mem_replicate hc]
      decide
    exact bytes_append (bytes_append (bytes_append (bytes_u32le _) (bytes_u32le _)) (bytes_append (bytes_append (bytes_u32le _) (bytes_u32le _)) hi)) hr

/-- **C107, a gap.** `qrexec_execute_vm` sends commands of up to 65535 bytes, but the daemon drops a client that sends more than
65527. -/
theorem C107_limit_gap (fd : Nat) (w closed : Bool) (type d : Nat) (ht : type = 0x200 ∨ type = 0x201) (cmd r : Str)
    (hl : 65527 < cmd.length) (hl' : cmd.length ≤ 65535) :
    ∃ r', readClient fd w .cmdline (writeCommand type d cmd ++ r) closed = some (.event (.clientGone fd) r') := by
  refine ⟨(u32le d ++ u32le 0) ++ cmd ++ r, ?_⟩
  show some (readMessage fd w _ closed) = _
  unfold readMessage
  have g1 : rdAll 8 (writeCommand type d cmd ++ r) closed = .got (u32le type ++ u32le (8 + cmd.length)) ((u32le d ++ u32le 0) ++ cmd ++ r) :=
    rdAll_got.2 ⟨rfl, by unfold writeCommand; simp only [List.append_assoc]⟩
  rw [g1]
  dsimp only
  rw [eight_fst (by rcases ht with rfl | rfl <;> decide), eight_snd (by omega)]
  rw [if_neg (by rintro ⟨a, b, c⟩; rcases ht with e | e; exacts [a e, b e]), if_neg (by omega), if_pos (by omega)]

/-- **C107.** What qrexec-client-vm sends to the agent is passed on to the daemon, as long as the name of the service is shorter than 65000
bytes. -/
theorem C107_client_vm (fd : Nat) (closed : Bool) (source : Option Str) (target service : Str)
    (hb : IsBytes (writeTrigger source target service)) (hl : service.length < 65000) :
    ∃ body, readTrigger fd (writeTrigger source target service) closed =
        .event (.trigger fd (some (0x213, (cvMessage source target service).2.1)) (some body)) [] ∧
      body = (cvMessage source target service).2.2 ∧
      vaTrigger fd (some (0x213, (cvMessage source target service).2.1)) (some body) =
        [.forward 0x213 (cvMessage source target service).2.1 (putIdent fd body)] := by
  have hlen : (cvMessage source target service).2.2.length = (cvMessage source target service).2.1 := by
    have hf : ∀ n s, 0 < n → (cvField n s).length = n := by
      intro n s hn
      unfold cvField
      rw [List.length_append, List.length_replicate, List.length_take]
      omega
    show (cvField 64 _ ++ cvField 64 _ ++ cvField 32 _ ++ (service ++ ['\x00'])).length = 160 + (service.length + 1)
    rw [List.length_append, List.length_append, List.length_append, hf _ _ (by decide), hf _ _ (by decide), hf _ _ (by decide),
      List.length_append]
    rfl
  have hv : (cvMessage source target service).2.1 = 160 + (service.length + 1) := rfl
  refine ⟨_, (C107_call hb).2 ⟨rfl, hlen.symm, by omega, by omega, ?_⟩, rfl, ?_⟩
  · rw [List.append_nil]
    unfold writeTrigger Message
    rw [hlen]
    rfl
  · unfold vaTrigger
    dsimp only
    rw [if_neg (by omega)]

/-- **C107.** The answer of the daemon with the port is read as this port by the client, who has to have asked with the same type. -/
theorem C107_reply (type remote port : Nat) (ht : type < 4294967296) (hr : remote < 4294967296) (hp : port < 4294967296) (r : Str) (closed : Bool) :
    readReply type (writeReply type remote port ++ r) closed = .ok remote port := by
  unfold readReply
  have g1 : rdAll 8 (writeReply type remote port ++ r) closed = .got (u32le type ++ u32le 8) ((u32le remote ++ u32le port) ++ r) :=
    rdAll_got.2 ⟨rfl, by unfold writeReply; simp only [List.append_assoc]⟩
  rw [g1]
  dsimp only
  rw [eight_fst ht, eight_snd (by decide), if_neg (by simp), if_neg (by simp)]
  have g2 : rdAll 8 ((u32le remote ++ u32le port) ++ r) closed = .got (u32le remote ++ u32le port) r := rdAll_got.2 ⟨rfl, rfl⟩
  rw [g2]
  dsimp only
  rw [eight_fst hr, eight_snd hp]

/-- A client that greets, and sends a command. -/
example : readClient 5 true .hello (writeHello ++ writeCommand 0x200 0 c!"user:true\x00") false =
    some (.event (.clientHello 5 true) (writeCommand 0x200 0 c!"user:true\x00")) ∧
  readClient 5 true .cmdline (writeCommand 0x200 0 c!"user:true\x00") false = some (.event (.clientMsg 5 0x200 0 0 c!"user:true\x00" true) []) := by
  decide

/-- Garbage. -/
example : readClient 5 true .cmdline c!"GET / HTTP/1.0" false = some (.event (.clientGone 5) c!"TP/1.0") := by decide

end Qrexec
