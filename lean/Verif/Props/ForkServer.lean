import Verif.Model.ForkServer
import Verif.Props.VmConn
import Verif.Props.VmClient
import Verif.Props.Handshake
import Verif.Props.DataOut
import Verif.Props.IoAll

/-! # C82: requests that are handed to the fork server of a session -/
namespace Qrexec
open Spec

/-- The message for a request: four numbers of four bytes, then the command and a NUL. -/
structure ForkMessage (bytes : Str) (type domain port : Nat) (command : Str) : Prop where
  bytes_eq : bytes = u32le type ++ (u32le domain ++ (u32le port ++ (u32le (command.length + 1) ++ (command ++ ['\x00']))))
  type_lt : type < 2 ^ 32
  domain_lt : domain < 2 ^ 32
  port_lt : port < 2 ^ 32
  length_lt : command.length + 1 < 2 ^ 31
  no_nul : '\x00' ∉ command

theorem drop4_u32le (n : Nat) (r : Str) : (u32le n ++ r).drop 4 = r := rfl

/-- The server reads the message back. -/
theorem fsHandle_message {m : Str} {type domain port : Nat} {command : Str} (h : ForkMessage m type domain port command)
    (rest : Str) (closed forks : Bool) :
    fsHandle (m ++ rest) closed forks =
      match parseRpcCommand false command with
      | none => .dropped
      | some c => if type = 0x202 then .crash else if forks then .process type domain port c else .dropped := by
  obtain ⟨rfl, h1, h2, h3, h4, h5⟩ := h
  unfold fsHandle
  rw [if_neg (by simp only [List.length_append, u32le_length]; omega)]
  have e : u32le type ++ (u32le domain ++ (u32le port ++ (u32le (command.length + 1) ++ (command ++ ['\x00'])))) ++ rest =
    u32le type ++ (u32le domain ++ (u32le port ++ (u32le (command.length + 1) ++ (command ++ '\x00' :: rest)))) := by
    simp only [List.append_assoc]; rfl
  rw [e]
  have d4 : (u32le type ++ (u32le domain ++ (u32le port ++ (u32le (command.length + 1) ++ (command ++ '\x00' :: rest))))).drop 4 =
    u32le domain ++ (u32le port ++ (u32le (command.length + 1) ++ (command ++ '\x00' :: rest))) := rfl
  have d8 : (u32le type ++ (u32le domain ++ (u32le port ++ (u32le (command.length + 1) ++ (command ++ '\x00' :: rest))))).drop 8 =
    u32le port ++ (u32le (command.length + 1) ++ (command ++ '\x00' :: rest)) := rfl
  have d12 : (u32le type ++ (u32le domain ++ (u32le port ++ (u32le (command.length + 1) ++ (command ++ '\x00' :: rest))))).drop 12 =
    u32le (command.length + 1) ++ (command ++ '\x00' :: rest) := rfl
  have d16 : (u32le type ++ (u32le domain ++ (u32le port ++ (u32le (command.length + 1) ++ (command ++ '\x00' :: rest))))).drop 16 =
    command ++ '\x00' :: rest := rfl
  rw [d4, d8, d12, d16, u32of_u32le _ h1, u32of_u32le _ h2, u32of_u32le _ h3, u32of_u32le _ (by omega)]
  unfold fsCommand
  rw [if_neg (by omega), if_neg (by omega), if_neg (by simp)]
  have ht : (command ++ '\x00' :: rest).take (command.length + 1) = command ++ ['\x00'] := by
    rw [List.take_append, List.take_of_length_le (by omega)]; simp
  dsimp only
  rw [ht, if_neg (by simp), cString_nul h5, if_neg (by simp)]
  cases parseRpcCommand false command <;> rfl

theorem take_len_succ {s : Str} {n : Nat} (h : n < s.length) : s.take (n + 1) = s.take n ++ [s.getD n 'x'] := by
  rw [List.take_succ_eq_append_getElem h]
  simp [List.getD, h]

theorem cString_full {l : Str} (hl : (cString l).length = l.length - 1) (hz : l ≠ []) (hn : l.getD (l.length - 1) 'x' = '\x00') :
    ∃ t, l = t ++ ['\x00'] ∧ cString l = t ∧ '\x00' ∉ t := by
  have hlen : 0 < l.length := List.length_pos_iff.2 hz
  have h1 : l = l.take (l.length - 1) ++ ['\x00'] := by
    have := take_len_succ (s := l) (n := l.length - 1) (by omega)
    rw [Nat.sub_add_cancel hlen, List.take_length, hn] at this
    exact this
  obtain ⟨r, hr⟩ : ∃ r, l = cString l ++ r := ⟨l.dropWhile (· != '\x00'), by unfold cString; rw [List.takeWhile_append_dropWhile]⟩
  have h2 : cString l = l.take (l.length - 1) := by
    have : l.take (l.length - 1) = (cString l ++ r).take (l.length - 1) := by rw [← hr]
    rw [this, ← hl, List.take_left]
  refine ⟨cString l, ?_, rfl, ?_⟩
  · rw [h2]; exact h1
  · intro hc
    unfold cString at hc
    have := List.all_takeWhile (p := (· != '\x00')) (l := l)
    rw [List.all_eq_true] at this
    have := this _ hc
    simp at this

/-- **C82.** Whatever a client writes, the fork server starts a process only for a complete message with a command that can
be parsed, and it starts it with the numbers and the command of the message. A message for a service connection (0x202)
ends the server. -/
theorem C82_message (s : Str) (hb : ∀ c ∈ s, c.toNat < 256) (closed : Bool) (type domain port : Nat) (cmd : RpcCmd) :
    (fsHandle s closed true = .process type domain port cmd ↔
      type ≠ 0x202 ∧ ∃ m rest command, s = m ++ rest ∧ ForkMessage m type domain port command ∧
        parseRpcCommand false command = some cmd) ∧
    (fsHandle s closed true = .crash ↔ ∃ m rest d p command c, s = m ++ rest ∧ ForkMessage m 0x202 d p command ∧
        parseRpcCommand false command = some c) ∧
    fsHandle s closed false ≠ .process type domain port cmd := by
  -- every message that is not dropped is well formed
  have key : ∀ forks o, fsHandle s closed forks = o → (o = .crash ∨ ∃ t d p c, o = .process t d p c) →
      ∃ t d p m rest command, s = m ++ rest ∧ ForkMessage m t d p command := by
    intro forks o ho hk
    have hnd : o ≠ .dropped := by rintro rfl; rcases hk with hk | ⟨_, _, _, _, hk⟩ <;> cases hk
    have hnb : o ≠ .blocked := by rintro rfl; rcases hk with hk | ⟨_, _, _, _, hk⟩ <;> cases hk
    unfold fsHandle at ho
    by_cases h16 : s.length < 16
    · rw [if_pos h16] at ho
      exfalso
      cases closed
      · exact hnb ho.symm
      · exact hnd ho.symm
    rw [if_neg h16] at ho
    have hd : ∀ n, ∀ c ∈ s.drop n, c.toNat < 256 := fun n c hc => hb c (List.mem_of_mem_drop hc)
    obtain ⟨a1, b1⟩ := u32le_u32of hb (by omega)
    obtain ⟨a2, b2⟩ := u32le_u32of (hd 4) (by rw [List.length_drop]; omega)
    obtain ⟨a3, b3⟩ := u32le_u32of (hd 8) (by rw [List.length_drop]; omega)
    obtain ⟨a4, b4⟩ := u32le_u32of (hd 12) (by rw [List.length_drop]; omega)
    rw [List.drop_drop] at a2 a3 a4
    simp only [Nat.reduceAdd] at a2 a3 a4
    generalize u32of s = t at *
    generalize u32of (s.drop 4) = d at *
    generalize u32of (s.drop 8) = p at *
    generalize u32of (s.drop 12) = len at *
    generalize hr : s.drop 16 = r at *
    unfold fsCommand at ho
    by_cases c1 : len > 2147483647
    · rw [if_pos c1] at ho; exact absurd ho.symm hnd
    rw [if_neg c1] at ho
    by_cases c2 : len < 1
    · rw [if_pos c2] at ho; exact absurd ho.symm hnd
    rw [if_neg c2] at ho
    by_cases c3 : r.length < len
    · rw [if_pos c3] at ho
      exfalso
      cases closed
      · exact hnb ho.symm
      · exact hnd ho.symm
    rw [if_neg c3] at ho
    dsimp only at ho
    have hl : (r.take len).length = len := by rw [List.length_take]; omega
    by_cases c4 : (r.take len).getD (len - 1) 'x' ≠ '\x00'
    · rw [if_pos c4] at ho; exact absurd ho.symm hnd
    rw [if_neg c4] at ho
    by_cases c5 : (cString (r.take len)).length ≠ len - 1
    · rw [if_pos c5] at ho; exact absurd ho.symm hnd
    obtain ⟨tx, e1, e2, e3⟩ := cString_full (l := r.take len) (by rw [hl]; exact not_not.1 c5)
      (by rw [← List.length_pos_iff, hl]; omega) (by rw [hl]; exact not_not.1 c4)
    have htl : tx.length + 1 = len := by rw [← hl, e1]; simp
    refine ⟨t, d, p, _, r.drop len, tx, ?_, ⟨rfl, b1, b2, b3, by omega, e3⟩⟩
    rw [← a1, ← a2, ← a3, ← a4, htl]
    simp only [List.append_assoc]
    rw [show tx ++ (['\x00'] ++ r.drop len) = r from by
      rw [← List.append_assoc, ← e1, List.take_append_drop]]
  refine ⟨⟨fun h => ?_, ?_⟩, ⟨fun h => ?_, ?_⟩, fun h => ?_⟩
  · obtain ⟨t, d, p, m, rest, command, rfl, hm⟩ := key _ _ h (.inr ⟨_, _, _, _, rfl⟩)
    rw [fsHandle_message hm] at h
    cases hp : parseRpcCommand false command with
    | none => rw [hp] at h; cases h
    | some c =>
      rw [hp] at h
      dsimp only at h
      split_ifs at h with h2
      · cases h
        exact ⟨h2, m, rest, command, rfl, hm, hp⟩
  · rintro ⟨ht, m, rest, command, rfl, hm, hp⟩
    rw [fsHandle_message hm, hp]
    dsimp only
    rw [if_neg ht, if_pos rfl]
  · obtain ⟨t, d, p, m, rest, command, rfl, hm⟩ := key _ _ h (.inl rfl)
    rw [fsHandle_message hm] at h
    cases hp : parseRpcCommand false command with
    | none => rw [hp] at h; cases h
    | some c =>
      rw [hp] at h
      dsimp only at h
      split_ifs at h with h2
      · subst h2
        exact ⟨m, rest, d, p, command, c, rfl, hm, hp⟩
  · rintro ⟨m, rest, d, p, command, c, rfl, hm, hp⟩
    rw [fsHandle_message hm, hp]
    rfl
  · obtain ⟨t, d, p, m, rest, command, rfl, hm⟩ := key _ _ h (.inr ⟨_, _, _, _, rfl⟩)
    rw [fsHandle_message hm] at h
    cases hp : parseRpcCommand false command with
    | none => rw [hp] at h; cases h
    | some c =>
      rw [hp] at h
      dsimp only at h
      by_cases h2 : t = 0x202
      · rw [if_pos h2] at h; cases h
      · rw [if_neg h2, if_neg (by decide)] at h; cases h

/-- A part of a message starts nothing. -/
theorem fsHandle_prefix {m : Str} {type domain port : Nat} {command : Str} (h : ForkMessage m type domain port command)
    (s rest : Str) (hs : m = s ++ rest) (hr : rest ≠ []) (closed forks : Bool) :
    fsHandle s closed forks = if closed then .dropped else .blocked := by
  obtain ⟨hm, h1, h2, h3, h4, h5⟩ := h
  have hl : s.length + rest.length = 16 + (command.length + 1) := by
    rw [← List.length_append, ← hs, hm]
    simp only [List.length_append, u32le_length, List.length_cons, List.length_nil]
    omega
  have hr' : 0 < rest.length := List.length_pos_iff.2 hr
  unfold fsHandle
  by_cases h16 : s.length < 16
  · rw [if_pos h16]
  rw [if_neg h16]
  have hu : ∀ n, n + 4 ≤ 16 → u32of (s.drop n) = u32of (m.drop n) := by
    intro n hn
    have : m.drop n = s.drop n ++ rest := by
      rw [hs, List.drop_append, show n - s.length = 0 from by omega, List.drop_zero]
    rw [this]
    have hlen : 4 ≤ (s.drop n).length := by rw [List.length_drop]; omega
    generalize s.drop n = z at hlen
    unfold u32of
    match z, hlen with
    | a :: b :: c :: d :: r, _ => rfl
  have e4 : u32of (s.drop 12) = command.length + 1 := by
    rw [hu 12 (by omega), hm]
    exact u32of_u32le _ (by omega) _
  rw [e4]
  unfold fsCommand
  rw [if_neg (by omega), if_neg (by omega), if_pos (by rw [List.length_drop]; omega)]

/-- What `fsSend` writes is a message. -/
theorem fsMessage {type domain port : Nat} {command : Str} (h1 : type < 2 ^ 32) (h2 : domain < 2 ^ 32) (h3 : port < 2 ^ 32)
    (h4 : command.length < 65535) (h5 : '\x00' ∉ command) :
    ForkMessage (fsHeader type domain port (command ++ ['\x00']) ++ (command ++ ['\x00'])) type domain port command := by
  refine ⟨?_, h1, h2, h3, by omega, h5⟩
  unfold fsHeader
  simp only [List.append_assoc, List.length_append, List.length_cons, List.length_nil]

/-- **C82.** Once the agent has written a request completely, however the writes are split up, the fork server has the whole
request; if the agent could not write it completely (it then starts the process itself), the fork server starts nothing for
it. So a request is not started by both. -/
theorem C82_not_twice (ks ks' : List Sys) {type domain port : Nat} {command : Str} (h1 : type < 2 ^ 32)
    (h2 : domain < 2 ^ 32) (h3 : port < 2 ^ 32) (h4 : command.length < 65535) (h5 : '\x00' ∉ command) (closed forks : Bool) :
    ((fsSend ks ks' type domain port (command ++ ['\x00'])).1 = true →
      ForkMessage (fsSend ks ks' type domain port (command ++ ['\x00'])).2 type domain port command) ∧
    ((fsSend ks ks' type domain port (command ++ ['\x00'])).1 = false →
      fsHandle (fsSend ks ks' type domain port (command ++ ['\x00'])).2 true forks = .dropped) := by
  have hm := fsMessage h1 h2 h3 h4 h5
  generalize command ++ ['\x00'] = text at *
  obtain ⟨r1, e1, d1, _⟩ := writeAll_spec ks (fsHeader type domain port text)
  obtain ⟨r2, e2, d2, _⟩ := writeAll_spec ks' text
  unfold fsSend
  generalize writeAll ks (fsHeader type domain port text) = x at *
  generalize writeAll ks' text = y at *
  obtain ⟨x1, x2⟩ := x
  obtain ⟨y1, y2⟩ := y
  dsimp only at e1 d1 e2 d2
  have full : x1 = .done → x2 = fsHeader type domain port text := by
    intro h; rw [e1, d1.1 h, List.append_nil]
  have fullY : y1 = .done → y2 = text := by
    intro h; rw [e2, d2.1 h, List.append_nil]
  have part1 : x1 ≠ .done → fsHandle x2 true forks = .dropped := by
    intro h
    rw [fsHandle_prefix hm x2 (r1 ++ text) (by rw [← List.append_assoc, ← e1]) (by
      intro hc; exact h (d1.2 (List.append_eq_nil_iff.1 hc).1))]
    rfl
  have part2 : x1 = .done → y1 ≠ .done → fsHandle (x2 ++ y2) true forks = .dropped := by
    intro hx h
    rw [fsHandle_prefix hm (x2 ++ y2) r2 (by rw [full hx, List.append_assoc, ← e2]) (by
      intro hc; exact h (d2.2 hc))]
    rfl
  cases x1 with
  | done =>
    cases y1 with
    | done =>
      dsimp only
      refine ⟨fun _ => ?_, fun h => by cases h⟩
      rw [full rfl, fullY rfl]
      exact hm
    | failed => exact ⟨(fun h => by cases h), fun _ => part2 rfl (by decide)⟩
    | blocked => exact ⟨(fun h => by cases h), fun _ => part2 rfl (by decide)⟩
    | fault => exact ⟨(fun h => by cases h), fun _ => part2 rfl (by decide)⟩
  | failed => exact ⟨(fun h => by cases h), fun _ => part1 (by decide)⟩
  | blocked => exact ⟨(fun h => by cases h), fun _ => part1 (by decide)⟩
  | fault => exact ⟨(fun h => by cases h), fun _ => part1 (by decide)⟩

/-! ## The same service, started in the same way -/

theorem parseCall_user (u u' : Option Str) (g : Bool) (t : Str) :
    parseCall u' g t = (parseCall u g t).map fun c => { c with username := u' } := by
  unfold parseCall
  split_ifs
  · split
    · cases parseService _ <;> rfl
    · rfl
  · rfl

theorem parseRest_user (u u' : Option Str) (t : Str) :
    parseRest u' t = (parseRest u t).map fun c => { c with username := u' } := by
  unfold parseRest
  split_ifs
  · exact parseCall_user _ _ _ _
  · exact parseCall_user _ _ _ _

/-- The command of a request, without the name of the user, is the command for the fork server. -/
theorem vaParse_handoff {load : RpcService → Option SvcConf} {a b : Str} (ha : ':' ∉ a) {c : RpcCmd} {conf : SvcConf}
    (h : vaParse load (a ++ ':' :: b) = some (c, conf)) :
    parseRpcCommand false b = some { c with username := none } := by
  unfold vaParse at h
  have hs : splitOnce ':' (a ++ ':' :: b) = some (a, b) := splitOnce_eq_some.2 ⟨rfl, ha⟩
  have hp : parseRpcCommand true (a ++ ':' :: b) = parseRest (some a) b := by
    unfold parseRpcCommand; rw [if_pos rfl, hs]
  rw [hp] at h
  have hn : parseRpcCommand false b = parseRest none b := by unfold parseRpcCommand; rw [if_neg (by decide)]
  rw [hn, parseRest_user (some a) none b]
  cases hr : parseRest (some a) b with
  | none => rw [hr] at h; cases h
  | some c0 =>
    rw [hr] at h
    dsimp only at h
    cases hsv : c0.service with
    | none => rw [hsv] at h; cases h; rfl
    | some sv =>
      rw [hsv] at h
      dsimp only at h
      cases hl : load sv with
      | none => rw [hl] at h; cases h
      | some cf =>
        rw [hl] at h
        cases h
        simp only [Option.map_some, hsv]

/-- A started request was received. -/
theorem started_received {load : RpcService → Option SvcConf} {h : VaHistory} {s : VaState} (hr : VaRun load h s)
    {e : VaEv} {o : List VaOut} (hm : (e, o) ∈ h) {j : VaJob} (hj : j ∈ startedJobs o) :
    ∃ type d p body, type ≠ 0x202 ∧ j = vaJob load type d p body ∧
      ∃ t ss o', (VaEv.exec type d p body t ss, o') ∈ h := by
  have := (C68_all hr).mem_iff (a := j)
  have hin : j ∈ h.filterMap fun x => Spec.requestOf load x.1 := by
    rw [this]
    exact List.mem_append_left _ (List.mem_flatMap.2 ⟨_, hm, hj⟩)
  obtain ⟨x, hx, hq⟩ := List.mem_filterMap.1 hin
  obtain ⟨ev, o'⟩ := x
  dsimp only at hq
  cases ev with
  | exec type d p body t ss =>
    unfold Spec.requestOf at hq
    dsimp only at hq
    split_ifs at hq with hc
    cases hq
    exact ⟨_, _, _, _, hc, rfl, _, _, _, hx⟩
  | refused _ => cases hq
  | unknown => cases hq
  | childExit _ _ => cases hq
  | poll _ => cases hq
  | trigger _ _ _ => cases hq

/-- **C82.** Every request that the agent hands to a fork server is one that the daemon sent; the fork server decodes it to the
same type, domain and port and to the same command, and the process that it forks does what the child of the agent would have
done. -/
theorem C82_handoff {load : RpcService → Option SvcConf} {h : VaHistory} {s : VaState} (hr : VaRun load h s)
    {e : VaEv} {o : List VaOut} (hm : (e, o) ∈ h) {fd : Nat} {user : Str} {type domain port : Nat} {text : Wire} {j : VaJob}
    (hy : VaOut.forkServer fd user type domain port text j ∈ o) (h1 : type < 2 ^ 32) (h2 : domain < 2 ^ 32)
    (h3 : port < 2 ^ 32) :
    ∃ body command c conf, (∃ t ss o', (VaEv.exec type domain port body t ss, o') ∈ h) ∧
      j = vaJob load type domain port body ∧ j.cmd = some (c, conf) ∧ text = command ++ ['\x00'] ∧
      user = c.username.getD [] ∧ '\x00' ∉ command ∧ command.length < 65535 ∧ type ≠ 0x202 ∧
      (∀ m, ForkMessage m type domain port command → ∀ closed,
        fsHandle m closed true = .process type domain port { c with username := none }) ∧
      ∀ w version, fsServe w type { c with username := none } version = agentServe w type j.cmd version false false := by
  have hok := C68_fork_server hr hm hy
  obtain ⟨e1, e2, e3, ⟨a, b, ec, ha, et⟩, hlen, c, conf, hcmd, hu, hg, hs1, hs2, hs3⟩ := hok
  obtain ⟨type', d', p', body, hne, hj, t, ss, o', hin⟩ := started_received hr hm (j := j) (by
    unfold startedJobs
    exact List.mem_filterMap.2 ⟨_, hy, rfl⟩)
  have t1 : type = type' := by rw [e1, hj]; rfl
  have t2 : domain = d' := by rw [e2, hj]; rfl
  have t3 : port = p' := by rw [e3, hj]; rfl
  subst t1 t2 t3
  have hbn : '\x00' ∉ b := by
    intro hc
    have hjc : '\x00' ∈ j.cmdline := by rw [ec]; simp [hc]
    rw [hj] at hjc
    have hjc : '\x00' ∈ cString (ensureNul body) := hjc
    unfold cString at hjc
    have := List.all_takeWhile (p := (· != '\x00')) (l := ensureNul body)
    rw [List.all_eq_true] at this
    have := this _ hjc
    simp at this
  have hpar : parseRpcCommand false b = some { c with username := none } := by
    apply vaParse_handoff ha (load := load) (conf := conf)
    rw [← ec, ← hcmd, hj]
    show _ = (if _ then _ else _)
    rw [if_neg (show ¬ type = msgConnect from hne)]
    rfl
  refine ⟨body, b, c, conf, ⟨t, ss, o', hin⟩, hj, hcmd, et, hu, hbn, ?_, hne, ?_, ?_⟩
  · rw [ec] at hlen; simp at hlen; omega
  · intro m hmm closed
    have := fsHandle_message hmm [] closed true
    rw [List.append_nil] at this
    rw [this, hpar]
    dsimp only
    rw [if_neg hne, if_pos rfl]
  · intro w version
    unfold fsServe
    rw [hcmd]
    obtain ⟨cw, cu, cd, cs, cc⟩ := conf
    dsimp only at hs1 hs2 hs3
    subst hs1 hs2 hs3
    rfl

/-! ## Many clients -/

/-- **C82.** As long as the clients finish what they write or go away, none asks for a service connection and `accept`
succeeds, every client is served, in order, each according to what it has written; the clients do not influence each
other. -/
theorem C82_clients (cs : List (Str × Bool × Bool)) :
    (∀ x ∈ cs, fsHandle x.1 x.2.1 x.2.2 ≠ .blocked ∧ fsHandle x.1 x.2.1 x.2.2 ≠ .crash) →
    fsLoop (cs.map fun x => .client x.1 x.2.1 x.2.2) = (cs.map fun x => fsHandle x.1 x.2.1 x.2.2, true) := by
  induction cs with
  | nil => intro _; rfl
  | cons x cs ih =>
    intro h
    have hx := h x (by simp)
    have := ih (fun y hy => h y (by simp [hy]))
    simp only [List.map_cons]
    unfold fsLoop
    cases hh : fsHandle x.1 x.2.1 x.2.2 with
    | dropped => dsimp only; rw [this]
    | process _ _ _ _ => dsimp only; rw [this]
    | blocked => exact absurd hh hx.1
    | crash => exact absurd hh hx.2

/-- **C82, finding.** A client that connects and neither writes nor closes the connection keeps the fork server from serving
any other. -/
theorem C82_stuck (pre : List FsEv) (post post' : List FsEv) (forks : Bool) (hpre : (fsLoop pre).2 = true) :
    fsLoop (pre ++ .client [] false forks :: post) = fsLoop (pre ++ .client [] false forks :: post') ∧
    (fsLoop (pre ++ .client [] false forks :: post)).2 = false := by
  induction pre with
  | nil => exact ⟨rfl, rfl⟩
  | cons x pre ih =>
    cases x with
    | acceptFails => cases hpre
    | client s closed fk =>
      simp only [List.cons_append]
      unfold fsLoop at hpre ⊢
      cases hh : fsHandle s closed fk with
      | blocked => rw [hh] at hpre; cases hpre
      | crash => rw [hh] at hpre; cases hpre
      | dropped =>
        rw [hh] at hpre
        have := ih hpre
        exact ⟨by dsimp only; rw [this.1], this.2⟩
      | process _ _ _ _ =>
        rw [hh] at hpre
        have := ih hpre
        exact ⟨by dsimp only; rw [this.1], this.2⟩

/-- **C82, finding.** The server ends when `accept` fails once. -/
theorem C82_accept_fails (pre post : List FsEv) : (fsLoop (pre ++ .acceptFails :: post)).2 = false := by
  induction pre with
  | nil => rfl
  | cons x pre ih =>
    cases x with
    | acceptFails => rfl
    | client s closed fk =>
      simp only [List.cons_append]
      unfold fsLoop
      cases fsHandle s closed fk <;> first | rfl | exact ih

set_option maxRecDepth 20000 in
/-- The theorems apply to this request: the agent hands it over, and the fork server starts the service. -/
example : ∃ o s, VaRun (fun _ => some {}) [(.exec 0x200 5 513 c!"user:QUBESRPC a.B vm1\x00" { server := some 9 } none, o)] s ∧
    o = [.forkServer 9 c!"user" 0x200 5 513 c!"QUBESRPC a.B vm1\x00" (vaJob (fun _ => some {}) 0x200 5 513 c!"user:QUBESRPC a.B vm1\x00")] ∧
    fsHandle (fsSend [.part 6, .eintr, .part 100] [.part 3, .part 50] 0x200 5 513 c!"QUBESRPC a.B vm1\x00").2 false true =
      .process 0x200 5 513 { username := none, nogui := false, command := c!"a.B vm1",
                             service := some ⟨c!"a.B+", c!"a.B", none, c!"vm1"⟩ } := by
  refine ⟨_, _, VaRun.step (tr := []) VaRun.start ?_ rfl, rfl, by decide⟩
  exact ⟨fresh_none _, fresh_none _, fun p h => by cases h⟩

end Qrexec
