import Verif.Spec.ServiceCmd
import Verif.Lemmas.Str
import Verif.Lemmas.RuleLine
import Mathlib.Tactic.SplitIfs
import Mathlib.Tactic.ByContra

/-!
# C50: commands for services
-/
namespace Qrexec

theorem splitOnce_none {sep : Char} {s : Str} : splitOnce sep s = none ↔ sep ∉ s := by
  induction s with
  | nil => simp [splitOnce]
  | cons c cs ih =>
    by_cases h : c = sep
    · subst h; simp [splitOnce]
    · simp only [splitOnce, if_neg h, Option.map_eq_none_iff, ih, List.mem_cons, not_or]
      exact ⟨fun x => ⟨fun e => h e.symm, x⟩, fun x => x.2⟩

theorem takeWhile_source (src tail : Str) (h6 : ' ' ∉ src) (h7 : tail = [] ∨ ∃ t, tail = ' ' :: t) :
    (src ++ tail).takeWhile (· != ' ') = src := by
  induction src with
  | nil =>
    rcases h7 with rfl | ⟨t, rfl⟩
    · rfl
    · rfl
  | cons c cs ih =>
    simp only [List.mem_cons, not_or] at h6
    have hc : (c != ' ') = true := by simpa using fun e => h6.1 e.symm
    rw [List.cons_append, List.takeWhile_cons, if_pos hc, ih h6.2]

theorem takeWhile_split (s : Str) : ∃ tail, s = s.takeWhile (· != ' ') ++ tail ∧ ' ' ∉ s.takeWhile (· != ' ') ∧
    (tail = [] ∨ ∃ t, tail = ' ' :: t) := by
  induction s with
  | nil => exact ⟨[], rfl, by simp, .inl rfl⟩
  | cons c cs ih =>
    by_cases h : c = ' '
    · subst h
      exact ⟨' ' :: cs, by simp, by simp, .inr ⟨cs, rfl⟩⟩
    · have hc : (c != ' ') = true := by simpa using h
      obtain ⟨tail, e1, e2, e3⟩ := ih
      rw [List.takeWhile_cons, if_pos hc]
      refine ⟨tail, ?_, ?_, e3⟩
      · rw [List.cons_append, ← e1]
      · simp only [List.mem_cons, not_or]
        exact ⟨fun e => h e.symm, e2⟩

theorem parseService_iff (body : Str) (s : RpcService) : parseService body = some s ↔ ServiceText body s := by
  constructor
  · intro h
    unfold parseService at h
    cases h1 : splitOnce ' ' body with
    | none => rw [h1] at h; cases h
    | some p =>
      obtain ⟨desc, rest⟩ := p
      rw [h1] at h
      dsimp only at h
      obtain ⟨e1, e2⟩ := splitOnce_eq_some.1 h1
      obtain ⟨tail, t1, t2, t3⟩ := takeWhile_split rest
      generalize rest.takeWhile (· != ' ') = src at h t1 t2
      by_cases h0 : (desc.length == 0) = true
      · rw [if_pos h0] at h; cases h
      rw [if_neg h0] at h
      by_cases hl : desc.length > 65000
      · rw [if_pos hl] at h; cases h
      rw [if_neg hl] at h
      cases h2 : splitOnce '+' desc with
      | none =>
        rw [h2] at h
        dsimp only at h
        by_cases h3 : desc.length > 255
        · rw [if_pos h3] at h; cases h
        rw [if_neg h3] at h
        by_cases h4 : desc.length < 1
        · rw [if_pos h4] at h; cases h
        rw [if_neg h4] at h
        by_cases h5 : (src.length == 0) = true
        · rw [if_pos h5] at h; cases h
        rw [if_neg h5] at h
        simp only [Option.isNone_none, if_true, Option.map_none, Option.some.injEq] at h
        subst h
        rw [e1, t1]
        have := ServiceText.noArg desc src tail e2 (splitOnce_none.1 h2) (by omega) (by omega)
          (fun e => h5 (by rw [e]; rfl)) t2 t3
        simpa using this
      | some q =>
        obtain ⟨n, a⟩ := q
        rw [h2] at h
        dsimp only at h
        obtain ⟨f1, f2⟩ := splitOnce_eq_some.1 h2
        by_cases h3 : n.length > 255
        · rw [if_pos h3] at h; cases h
        rw [if_neg h3] at h
        by_cases h4 : n.length < 1
        · rw [if_pos h4] at h; cases h
        rw [if_neg h4] at h
        by_cases h5 : (src.length == 0) = true
        · rw [if_pos h5] at h; cases h
        rw [if_neg h5] at h
        simp only [Option.isNone_some, Bool.false_eq_true, if_false, Option.map_some, Option.some.injEq] at h
        subst h
        rw [e1, t1]
        rw [f1] at e2 hl ⊢
        simp only [List.mem_append, List.mem_cons, not_or] at e2
        simp only [List.length_append, List.length_cons] at hl
        have := ServiceText.arg n a src tail e2.1 f2 (by omega) (by omega)
          (fun e => h5 (by rw [e]; rfl)) t2 t3 e2.2.2 (by omega)
        simpa using this
  · intro h
    unfold parseService
    cases h with
    | noArg name src tail h1 h2 h3 h4 h5 h6 h7 =>
      have e1 : splitOnce ' ' (name ++ c!" " ++ src ++ tail) = some (name, src ++ tail) :=
        splitOnce_eq_some.2 ⟨by simp, h1⟩
      rw [e1]
      dsimp only
      have e2 : splitOnce '+' name = none := splitOnce_none.2 h2
      have hs : (src.length == 0) = false := by simpa using h5
      have hn : (name.length == 0) = false := by simp; intro e; rw [e] at h3; simp at h3
      rw [e2, takeWhile_source src tail h6 h7, hs, hn]
      dsimp only
      rw [if_neg (by simp), if_neg (by omega), if_neg (by omega), if_neg (by omega), if_neg (by simp)]
      simp
    | arg name a src tail h1 h2 h3 h4 h5 h6 h7 h8 h9 =>
      have e1 : splitOnce ' ' (name ++ c!"+" ++ a ++ c!" " ++ src ++ tail) = some (name ++ c!"+" ++ a, src ++ tail) :=
        splitOnce_eq_some.2 ⟨by simp, by simp [h1, h8]⟩
      rw [e1]
      dsimp only
      have e2 : splitOnce '+' (name ++ c!"+" ++ a) = some (name, a) := splitOnce_eq_some.2 ⟨by simp, h2⟩
      have hs : (src.length == 0) = false := by simpa using h5
      have hl : (name ++ c!"+" ++ a).length = name.length + 1 + a.length := by simp; omega
      have hn : ((name ++ c!"+" ++ a).length == 0) = false := by rw [hl]; simp
      rw [e2, takeWhile_source src tail h6 h7, hs, hn, hl]
      dsimp only
      rw [if_neg (by simp), if_neg (by omega), if_neg (by omega), if_neg (by omega), if_neg (by simp)]
      simp

theorem parseCall_iff (user : Option Str) (g : Bool) (text : Str) (c : RpcCmd) :
    parseCall user g text = some c ↔
      c.username = user ∧ c.nogui = g ∧
        ((∃ s, c.service = some s ∧ text = c!"QUBESRPC " ++ c.command ∧ ServiceText c.command s) ∨
        (c.service = none ∧ c.command = text ∧ ¬ c!"QUBESRPC" <+: text)) := by
  unfold parseCall
  by_cases hq : startsWith c!"QUBESRPC" text = true
  · rw [if_pos hq]
    obtain ⟨t, rfl⟩ := startsWith_iff.1 hq
    have hd : (c!"QUBESRPC" ++ t).drop 8 = t := rfl
    have hpre : c!"QUBESRPC" <+: c!"QUBESRPC" ++ t := List.prefix_append _ _
    rw [hd]
    constructor
    · intro h
      split at h
      · rename_i bd
        cases hp : parseService bd with
        | none => rw [hp] at h; cases h
        | some s =>
          rw [hp] at h
          simp only [Option.some.injEq] at h
          subst h
          exact ⟨rfl, rfl, .inl ⟨s, rfl, rfl, (parseService_iff _ _).1 hp⟩⟩
      · cases h
    · rintro ⟨h1, h2, ⟨s, h3, h4, h5⟩ | ⟨_, _, h5⟩⟩
      · have ht : t = ' ' :: c.command := by
          have : c!"QUBESRPC" ++ t = c!"QUBESRPC" ++ (' ' :: c.command) := h4
          exact List.append_cancel_left this
        subst ht
        show (match parseService c.command with
          | none => none
          | some s => some { username := user, nogui := g, command := c.command, service := some s : RpcCmd }) = some c
        rw [(parseService_iff _ _).2 h5]
        obtain ⟨a, b, d, e⟩ := c
        simp only at h1 h2 h3
        simp [h1, h2, h3]
      · exact absurd hpre h5
  · rw [if_neg hq]
    have hnp : ¬ c!"QUBESRPC" <+: text := fun h => hq (by
      obtain ⟨t, rfl⟩ := h; exact startsWith_append _ _)
    constructor
    · intro h
      simp only [Option.some.injEq] at h
      subst h
      exact ⟨rfl, rfl, .inr ⟨rfl, rfl, hnp⟩⟩
    · rintro ⟨h1, h2, ⟨s, _, h4, _⟩ | ⟨h3, h4, _⟩⟩
      · exact absurd ⟨' ' :: c.command, h4.symm⟩ hnp
      · obtain ⟨a, b, d, e⟩ := c
        simp only at h1 h2 h3 h4
        simp [h1, h2, h3, h4]

theorem parseRest_iff (user : Option Str) (rest : Str) (c : RpcCmd) :
    parseRest user rest = some c ↔
    c.username = user ∧ ∃ text,
      (c.nogui = true ∧ rest = c!"nogui:" ++ text ∨ c.nogui = false ∧ rest = text ∧ ¬ c!"nogui:" <+: text) ∧
      ((∃ s, c.service = some s ∧ text = c!"QUBESRPC " ++ c.command ∧ ServiceText c.command s) ∨
        (c.service = none ∧ c.command = text ∧ ¬ c!"QUBESRPC" <+: text)) := by
  unfold parseRest
  by_cases hg : startsWith c!"nogui:" rest = true
  · rw [if_pos hg]
    obtain ⟨t, rfl⟩ := startsWith_iff.1 hg
    have hd : (c!"nogui:" ++ t).drop 6 = t := rfl
    rw [hd, parseCall_iff]
    constructor
    · rintro ⟨h1, h2, h3⟩
      exact ⟨h1, t, .inl ⟨h2, rfl⟩, h3⟩
    · rintro ⟨h1, text, ⟨h2, h3⟩ | ⟨h2, h3, h4⟩, h5⟩
      · cases List.append_cancel_left h3
        exact ⟨h1, h2, h5⟩
      · exact absurd (h3 ▸ List.prefix_append _ _) h4
  · rw [if_neg hg, parseCall_iff]
    constructor
    · rintro ⟨h1, h2, h3⟩
      exact ⟨h1, rest, .inr ⟨h2, rfl, fun h => hg (by obtain ⟨t, rfl⟩ := h; exact startsWith_append _ _)⟩, h3⟩
    · rintro ⟨h1, text, ⟨h2, h3⟩ | ⟨h2, h3, h4⟩, h5⟩
      · exact absurd (h3 ▸ startsWith_append _ _) hg
      · subst h3
        exact ⟨h1, h2, h5⟩

/-- **C50.** A command line is accepted exactly if it has the form described by `CommandText`, and then the parts are
exactly those written in it. -/
theorem C50_parse (stripUsername : Bool) (line : Str) (c : RpcCmd) :
    parseRpcCommand stripUsername line = some c ↔ CommandText stripUsername line c := by
  unfold parseRpcCommand CommandText
  cases stripUsername with
  | true =>
    rw [if_pos rfl]
    cases h : splitOnce ':' line with
    | none =>
      constructor
      · intro h; cases h
      · rintro ⟨rest, text, h1, _⟩
        rw [if_pos rfl] at h1
        obtain ⟨u, _, _, rfl⟩ := h1
        exact absurd (splitOnce_none.1 h) (by simp)
    | some p =>
      obtain ⟨u, rest⟩ := p
      obtain ⟨e1, e2⟩ := splitOnce_eq_some.1 h
      dsimp only
      rw [parseRest_iff]
      constructor
      · rintro ⟨h1, text, h2, h3⟩
        exact ⟨rest, text, by rw [if_pos rfl]; exact ⟨u, h1, e2, by simpa using e1⟩, h2, h3⟩
      · rintro ⟨rest', text, h1, h2, h3⟩
        rw [if_pos rfl] at h1
        obtain ⟨u', k1, k2, k3⟩ := h1
        have : splitOnce ':' line = some (u', rest') := splitOnce_eq_some.2 ⟨by simpa using k3, k2⟩
        rw [h] at this
        cases this
        exact ⟨k1, text, h2, h3⟩
  | false =>
    rw [if_neg (by simp), parseRest_iff]
    constructor
    · rintro ⟨h1, text, h2, h3⟩
      exact ⟨line, text, by rw [if_neg (by simp)]; exact ⟨h1, rfl⟩, h2, h3⟩
    · rintro ⟨rest, text, h1, h2, h3⟩
      rw [if_neg (by simp)] at h1
      obtain ⟨k1, rfl⟩ := h1
      exact ⟨k1, text, h2, h3⟩

/-- **C50, descriptor.** The service descriptor is always the name, a plus and the argument. -/
theorem C50_descriptor (stripUsername : Bool) (line : Str) (c : RpcCmd) (s : RpcService)
    (h : parseRpcCommand stripUsername line = some c) (hs : c.service = some s) :
    s.descriptor = s.name ++ c!"+" ++ s.arg.getD [] ∧ '+' ∉ s.name ∧ s.name ≠ [] ∧ s.source ≠ [] := by
  obtain ⟨_, _, _, _, ⟨s', e, _, ht⟩ | ⟨e, _⟩⟩ := (C50_parse _ _ _).1 h
  · rw [hs] at e
    cases e
    generalize c.command = cm at ht
    cases ht with
    | noArg name src tail h1 h2 h3 h4 h5 =>
      refine ⟨by simp, h2, ?_, h5⟩
      rintro rfl; simp at h3
    | arg name a src tail h1 h2 h3 h4 h5 =>
      refine ⟨by simp, h2, ?_, h5⟩
      rintro rfl; simp at h3
  · rw [hs] at e; cases e

/-- **C50, what the daemon sends.** The command that the daemon builds for a permitted call (C56) is parsed back into the
user, the called service with its argument and the calling qube - if the user name has no colon. -/
theorem C50_from_daemon (user name arg src : Str) (hu : ':' ∉ user) (h1 : ' ' ∉ name) (h2 : '+' ∉ name)
    (h3 : 1 ≤ name.length) (h4 : name.length ≤ 255) (h5 : ' ' ∉ arg) (h6 : src ≠ []) (h7 : ' ' ∉ src)
    (h8 : name.length + 1 + arg.length ≤ 65000) :
    parseRpcCommand true (user ++ c!":QUBESRPC " ++ (name ++ (c!"+" ++ arg)) ++ c!" " ++ src) =
      some ⟨some user, false, name ++ (c!"+" ++ arg) ++ c!" " ++ src, some ⟨name ++ c!"+" ++ arg, name, some arg, src⟩⟩ := by
  rw [C50_parse]
  refine ⟨c!"QUBESRPC " ++ ((name ++ (c!"+" ++ arg)) ++ c!" " ++ src), c!"QUBESRPC " ++ ((name ++ (c!"+" ++ arg)) ++ c!" " ++ src),
    ?_, .inr ⟨rfl, rfl, ?_⟩, .inl ⟨_, rfl, rfl, ?_⟩⟩
  · rw [if_pos rfl]
    exact ⟨user, rfl, hu, by simp⟩
  · rintro ⟨t, ht⟩
    exact absurd (congrArg List.head? ht) (by simp)
  · have := ServiceText.arg name arg src [] h1 h2 h3 h4 h6 h7 (.inl rfl) h5 h8
    simpa using this

/-- A colon in the user name of the policy ends the user name: the rest is run as a command of this user. -/
theorem C50_user_colon : parseRpcCommand true c!"a:b:QUBESRPC svc+arg work" =
    some ⟨some c!"a", false, c!"b:QUBESRPC svc+arg work", none⟩ := by decide

example : parseRpcCommand true c!"user:nogui:QUBESRPC qubes.Open+a+b work name dom0" =
    some ⟨some c!"user", true, c!"qubes.Open+a+b work name dom0",
      some ⟨c!"qubes.Open+a+b", c!"qubes.Open", some c!"a+b", c!"work"⟩⟩ := by decide
example : parseRpcCommand false c!"QUBESRPC svc work" =
    some ⟨none, false, c!"svc work", some ⟨c!"svc+", c!"svc", none, c!"work"⟩⟩ := by decide
example : parseRpcCommand true c!"user:ls -l" = some ⟨some c!"user", false, c!"ls -l", none⟩ := by decide
example : parseRpcCommand false c!"QUBESRPC +arg work" = none := by decide
example : parseRpcCommand false c!"QUBESRPC  work" = none := by decide
example : parseRpcCommand false c!"QUBESRPC svc  work" = none := by decide
example : parseRpcCommand false c!"QUBESRPC svc" = none := by decide
example : parseRpcCommand false c!"QUBESRPCsvc work" = none := by decide
example : parseRpcCommand true c!"QUBESRPC svc work" = none := by decide

end Qrexec
