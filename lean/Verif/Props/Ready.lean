import Verif.Model.Ready
import Mathlib.Tactic.SplitIfs
import Mathlib.Tactic.ByContra

/-!
# C122: what the agent tells systemd and the memory reporter
-/
namespace Qrexec

/-! ## Specification -/

/-- The socket that a value of `NOTIFY_SOCKET` names (sd_notify(3)): a path, or behind `@` a name
in the abstract namespace. -/
def NamedBy (env : Str) : UnixName → Prop
  | .path p => env = p ∧ ∃ c cs, env = c :: cs ∧ c ≠ '@'
  | .abstract name => env = '@' :: name

/-! ## systemd -/

theorem notifyTarget_path {env : Str} (hl : env.length ≤ 107) {c : Char} {cs : Str}
    (he : env = c :: cs) (hc : c ≠ '@') : notifyTarget env = .path env := by
  unfold notifyTarget
  rw [List.take_of_length_le hl]
  subst he
  split
  · rename_i h; cases h
  · rename_i h; cases h; exact absurd rfl hc
  · rfl

theorem runs_state (n : Nat) (s : ReadyState) :
    s.doAll (List.replicate n .run) = { s with seen := s.seen ++ List.replicate n s.env } := by
  induction n generalizing s with
  | zero => simp [ReadyState.doAll]
  | succ n ih =>
    rw [List.replicate_succ]
    show (s.step .run).doAll (List.replicate n .run) = _
    rw [ih]
    simp [ReadyState.step, List.replicate_succ]

theorem doAll_append (s : ReadyState) (a b : List ReadyOp) :
    s.doAll (a ++ b) = (s.doAll a).doAll b := by
  unfold ReadyState.doAll; rw [List.foldl_append]

/-- The agent before it does anything. -/
def readyStart (env : Option Str) : ReadyState := { env }

/-- The states on the way. -/
theorem ready_prefix (env : Option Str) (sent : Bool) (n k : Nat) :
    ((readyStart env).doAll ((readyOps sent n).take k)).told = [] ∧
      ((readyStart env).doAll ((readyOps sent n).take k)).seen = [] ∨
    ∃ m, (readyStart env).doAll ((readyOps sent n).take k) =
      ((readyStart env).doAll [.vchan, .hello, .listen, .waitOpen, .notify sent]).doAll
        (List.replicate m .run) := by
  match k with
  | 0 => exact .inl ⟨rfl, rfl⟩
  | 1 => exact .inl ⟨rfl, rfl⟩
  | 2 => exact .inl ⟨rfl, rfl⟩
  | 3 => exact .inl ⟨rfl, rfl⟩
  | 4 => exact .inl ⟨rfl, rfl⟩
  | k + 5 =>
    right
    refine ⟨min k n, ?_⟩
    rw [← doAll_append]
    congr 1
    unfold readyOps
    simp only [List.cons_append, List.nil_append, List.take_succ_cons, List.take_replicate]

/-- **C122, ready.** At whatever point it ends: systemd has been told that the agent is ready only
if it was greeted by the daemon, listens for calls and is connected, at most once, and nothing
else; and no program it starts sees `NOTIFY_SOCKET`. -/
theorem C122_ready (env : Option Str) (sent : Bool) (n k : Nat) :
    let s := (readyStart env).doAll ((readyOps sent n).take k)
    (s.told ≠ [] → s.vchan = true ∧ s.greeted = true ∧ s.listening = true ∧ s.isOpen = true) ∧
    s.told.length ≤ 1 ∧ (∀ x ∈ s.told, x.2 = c!"READY=1") ∧
    ∀ x ∈ s.seen, x = none := by
  intro s
  rcases ready_prefix env sent n k with ⟨h1, h2⟩ | ⟨m, h⟩
  · have h1' : s.told = [] := h1
    have h2' : s.seen = [] := h2
    rw [h1', h2']
    simp
  · have hs : s = _ := h
    rw [hs, runs_state]
    cases env with
    | none =>
      simp only [readyStart, ReadyState.doAll, List.foldl_cons, List.foldl_nil, ReadyState.step]
      refine ⟨fun h => absurd rfl h, by simp, by simp, ?_⟩
      intro x hx
      exact List.eq_of_mem_replicate (by simpa using hx)
    | some e =>
      cases sent with
      | true =>
        simp only [readyStart, ReadyState.doAll, List.foldl_cons, List.foldl_nil, ReadyState.step,
          if_true]
        refine ⟨fun _ => by simp, by simp, by simp, ?_⟩
        intro x hx
        exact List.eq_of_mem_replicate (by simpa using hx)
      | false =>
        simp only [readyStart, ReadyState.doAll, List.foldl_cons, List.foldl_nil, ReadyState.step,
          Bool.false_eq_true, if_false]
        refine ⟨fun h => absurd rfl h, by simp, by simp, ?_⟩
        intro x hx
        exact List.eq_of_mem_replicate (by simpa using hx)

/-- **C122, the address.** An agent that got that far has told the socket named in the
environment, if that is a path of at most 107 bytes. -/
theorem C122_told_partial (env : Str) (n : Nat) (hl : env.length ≤ 107) {c : Char} {cs : Str}
    (he : env = c :: cs) (hc : c ≠ '@') :
    ∃ to, ((readyStart (some env)).doAll (readyOps true n)).told = [(to, c!"READY=1")] ∧
      NamedBy env to := by
  unfold readyOps
  rw [doAll_append, runs_state]
  exact ⟨_, rfl, by rw [notifyTarget_path hl he hc]; exact ⟨rfl, c, cs, he, hc⟩⟩

/-- **C122, violated.** A name in the abstract namespace is never reached: the agent connects to a
name with NUL bytes at the end. -/
theorem C122_violated_abstract (name : Str) (h0 : '\x00' ∉ name) :
    ¬ NamedBy ('@' :: name) (notifyTarget ('@' :: name)) := by
  intro h
  have ht : notifyTarget ('@' :: name) = .abstract (name.take 106 ++
      List.replicate (107 - (name.take 106).length) '\x00') := rfl
  rw [ht] at h
  have h' : name = name.take 106 ++ List.replicate (107 - (name.take 106).length) '\x00' :=
    (List.cons.inj h).2
  apply h0
  rw [h']
  refine List.mem_append.2 (.inr (List.mem_replicate.2 ⟨?_, rfl⟩))
  rw [List.length_take]
  omega

/-- **C122, violated.** Nor a path that is too long: the message goes to a shorter path. -/
theorem C122_violated_long (env : Str) (h0 : '\x00' ∉ env) (hl : 107 < env.length) :
    ¬ NamedBy env (notifyTarget env) := by
  intro h
  have hlen : (env.take 107).length = 107 := by rw [List.length_take]; omega
  unfold notifyTarget at h
  revert hlen h
  generalize hp : env.take 107 = p
  intro h hlen
  split at h
  · simp at hlen
  · rename_i name
    have h' : env = '@' :: (name ++ List.replicate (107 - name.length) '\x00') := h
    have hl1 : name.length = 106 := by simpa using hlen
    apply h0
    rw [h']
    exact List.mem_cons_of_mem _ (List.mem_append.2 (.inr (List.mem_replicate.2 ⟨by omega, rfl⟩)))
  · have h1 := h.1
    rw [h1] at hl
    exact absurd hl (by rw [hlen]; omega)

/-! ## The memory reporter -/

/-- A command of the daemon. -/
def IsCommand (type : Nat) : Prop := type = 0x200 ∨ type = 0x201 ∨ type = 0x202

theorem wake_done (type : Nat) (file : Option Str) (alive : Int → Bool) :
    wakeOnMessage true type file alive = (true, none) := by
  unfold wakeOnMessage wakeMeminfo
  simp

theorem wakeAll_done (l : List (Nat × Option Str × (Int → Bool))) :
    ∀ x ∈ wakeAll true l, x = none := by
  induction l with
  | nil => intro x hx; cases hx
  | cons m l ih =>
    obtain ⟨t, f, a⟩ := m
    intro x hx
    simp only [wakeAll, wake_done, List.mem_cons] at hx
    rcases hx with rfl | hx
    · rfl
    · exact ih x hx

/-- What one message does. -/
theorem wake_some {started : Bool} {type : Nat} {file : Option Str} {alive : Int → Bool}
    {pid : Int} (h : (wakeOnMessage started type file alive).2 = some pid) :
    started = false ∧ IsCommand type ∧ (∃ text, file = some text ∧ scanInt text = .fd pid) ∧
      1 < pid ∧ pid ≤ 65535 ∧ (wakeOnMessage started type file alive).1 = alive pid := by
  unfold wakeOnMessage at h ⊢
  split at h
  · rename_i hc
    rw [if_pos hc]
    unfold wakeMeminfo at h ⊢
    cases started with
    | true => simp at h
    | false =>
      simp only [Bool.false_eq_true, if_false] at h ⊢
      cases file with
      | none => simp at h
      | some text =>
        simp only at h ⊢
        cases hs : scanInt text with
        | fd p =>
          simp only [hs] at h ⊢
          by_cases hp : p ≤ 1 ∨ p > 65535
          · rw [if_pos hp] at h; simp at h
          · rw [if_neg hp] at h ⊢
            by_cases ha : alive p = true
            · rw [if_pos ha] at h ⊢
              simp only [Option.some.injEq] at h
              subst h
              exact ⟨by trivial, hc, ⟨text, rfl, hs⟩, by omega, by omega, ha.symm⟩
            · rw [if_neg ha] at h ⊢
              simp only [Option.some.injEq] at h
              subst h
              exact ⟨by trivial, hc, ⟨text, rfl, hs⟩, by omega, by omega, by
                cases hv : alive p <;> simp_all⟩
        | noMatch => simp [hs] at h
        | eof => simp [hs] at h
  · simp at h

/-- **C122, only that process.** A signal is sent only for a command, and only to the process whose
number is in the PID file then, which is neither 1 nor a group. -/
theorem C122_signalled (started : Bool) (l : List (Nat × Option Str × (Int → Bool))) (i : Nat)
    (pid : Int) (h : (wakeAll started l)[i]? = some (some pid)) :
    ∃ type text alive, l[i]? = some (type, some text, alive) ∧ IsCommand type ∧
      scanInt text = .fd pid ∧ 1 < pid ∧ pid ≤ 65535 := by
  induction l generalizing started i with
  | nil => simp [wakeAll] at h
  | cons m l ih =>
    obtain ⟨t, f, a⟩ := m
    cases i with
    | zero =>
      simp only [wakeAll, List.getElem?_cons_zero, Option.some.injEq] at h
      obtain ⟨_, hc, ⟨text, rfl, hs⟩, h1, h2, _⟩ := wake_some h
      exact ⟨t, text, a, by simp, hc, hs, h1, h2⟩
    | succ i =>
      simp only [wakeAll, List.getElem?_cons_succ] at h
      obtain ⟨t', text, a', hl, hr⟩ := ih _ _ h
      exact ⟨t', text, a', by simpa using hl, hr⟩

/-- **C122, once.** After a signal that got through there is no other. -/
theorem C122_once (started : Bool) (l : List (Nat × Option Str × (Int → Bool))) (i j : Nat)
    (pid : Int) (h : (wakeAll started l)[i]? = some (some pid))
    (ha : ∀ m, l[i]? = some m → m.2.2 pid = true) (hj : i < j) :
    ∀ p, (wakeAll started l)[j]? ≠ some (some p) := by
  induction l generalizing started i j with
  | nil => simp [wakeAll] at h
  | cons m l ih =>
    obtain ⟨t, f, a⟩ := m
    cases j with
    | zero => omega
    | succ j =>
      intro p hp
      cases i with
      | zero =>
        simp only [wakeAll, List.getElem?_cons_zero, Option.some.injEq] at h
        have := (wake_some h).2.2.2.2.2
        rw [show a pid = true from ha _ rfl] at this
        simp only [wakeAll, List.getElem?_cons_succ, this] at hp
        have := wakeAll_done l _ (List.mem_of_getElem? hp)
        cases this
      | succ i =>
        simp only [wakeAll, List.getElem?_cons_succ] at h hp
        exact ih _ i j h (fun m hm => ha m (by simpa using hm)) (by omega) p hp

/-- **C122, woken.** As long as none got through, every command tries, if the PID file holds a
number from 2 to 65535. -/
theorem C122_woken_partial (l1 l2 : List (Nat × Option Str × (Int → Bool))) (type : Nat)
    (text : Str) (alive : Int → Bool) (pid : Int) (hc : IsCommand type)
    (hs : scanInt text = .fd pid) (h1 : 1 < pid) (h2 : pid ≤ 65535)
    (hn : ∀ (i : Nat) m p, l1[i]? = some m → (wakeAll false l1)[i]? = some (some p) →
      m.2.2 p = false) :
    (wakeAll false (l1 ++ (type, some text, alive) :: l2))[l1.length]? = some (some pid) := by
  induction l1 with
  | nil =>
    have hr : ¬ (pid ≤ 1 ∨ pid > 65535) := by omega
    have : (wakeOnMessage false type (some text) alive).2 = some pid := by
      unfold wakeOnMessage
      unfold IsCommand at hc
      rw [if_pos hc]
      unfold wakeMeminfo
      simp only [Bool.false_eq_true, if_false, hs, if_neg hr]
      split <;> rfl
    simp [wakeAll, this]
  | cons m l1 ih =>
    obtain ⟨t, f, a⟩ := m
    have hst : (wakeOnMessage false t f a).1 = false := by
      cases hw : (wakeOnMessage false t f a).2 with
      | some p =>
        have := (wake_some hw).2.2.2.2.2
        rw [this]
        exact hn 0 (t, f, a) p rfl (by simp [wakeAll, hw])
      | none =>
        unfold wakeOnMessage at hw ⊢
        by_cases hc : t = 0x200 ∨ t = 0x201 ∨ t = 0x202
        · rw [if_pos hc] at hw ⊢
          unfold wakeMeminfo at hw ⊢
          simp only [Bool.false_eq_true, if_false] at hw ⊢
          cases f with
          | none => rfl
          | some text' =>
            simp only at hw ⊢
            cases hsc : scanInt text' with
            | noMatch => rfl
            | eof => rfl
            | fd p =>
              simp only [hsc] at hw ⊢
              by_cases hp : p ≤ 1 ∨ p > 65535
              · rw [if_pos hp]
              · rw [if_neg hp] at hw
                split at hw <;> cases hw
        · rw [if_neg hc]
    simp only [List.cons_append, wakeAll, List.length_cons, List.getElem?_cons_succ, hst]
    apply ih
    intro i m p hm hp
    exact hn (i + 1) m p (by simpa using hm) (by simpa [wakeAll, hst] using hp)

/-- **C122, violated.** A reporter with a larger number is never woken, and others may be: the
kernel gives numbers up to 4194304. -/
theorem C122_violated_pid (started : Bool) (type : Nat) (text : Str) (alive : Int → Bool)
    (pid : Int) (hs : scanInt text = .fd pid) (h : 65535 < pid) :
    (wakeOnMessage started type (some text) alive).2 = none := by
  cases hw : (wakeOnMessage started type (some text) alive).2 with
  | none => rfl
  | some p =>
    obtain ⟨_, _, ⟨t, ht, hst⟩, _, h2, _⟩ := wake_some hw
    cases ht
    rw [hs] at hst
    cases hst
    omega

/-- A reporter that is not there yet, then with a stale file, then woken, then left alone. -/
theorem C122_example :
    wakeAll false [(0x200, none, fun _ => false), (0x203, some c!"700\n", fun _ => true),
      (0x201, some c!"70\n", fun _ => false), (0x202, some c!"700\n", fun p => p == 700),
      (0x200, some c!"700\n", fun _ => true)] = [none, none, some 70, some 700, none] ∧
    wakeAll false [(0x200, some c!"70000\n", fun _ => true)] = [none] ∧
    ((readyStart (some c!"/run/systemd/notify")).doAll (readyOps true 2)).told =
      [(.path c!"/run/systemd/notify", c!"READY=1")] ∧
    ((readyStart (some c!"/run/systemd/notify")).doAll (readyOps true 2)).seen = [none, none] := by
  decide

end Qrexec
