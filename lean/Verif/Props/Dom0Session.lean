import Verif.Model.Dom0Session
import Verif.Props.ServiceFind

/-!
# C104: services in dom0 that wait for the session
-/
namespace Qrexec
open Spec

/-- The call is to wait for the session: it is a service, not called with "nogui:", and its configuration says so. -/
def NeedsSession (w : SwWorld) (c : RpcCmd) : Prop :=
  c.nogui = false ∧ ∃ s conf, c.service = some s ∧ w.load s = some conf ∧ conf.waitForSession = true

/-- The configuration of the service cannot be read. -/
def ConfUnreadable (w : SwWorld) (c : RpcCmd) : Prop := c.nogui = false ∧ ∃ s, c.service = some s ∧ w.load s = none

/-- Possible states. -/
def SwInv (w : SwWorld) (c : RpcCmd) (s : SwState) : Prop :=
  (s.child ≠ .none → NeedsSession w c) ∧
  (s.phase = .deciding → s.child = .none) ∧
  (s.phase = .waiting → s.child ≠ .none) ∧
  (s.phase = .refused → s.child = .none ∧ (ConfUnreadable w c ∨ NeedsSession w c)) ∧
  (s.phase = .started → (∃ r, s.child = .ended r true) ∨ (∃ p, s.child = .running p false) ∨ (∃ r, s.child = .ended r false) ∨
    s.child = .none ∧ ¬ NeedsSession w c ∧ ¬ ConfUnreadable w c) ∧
  (∀ p g, s.child = .running p g → sessionProgram w = some p) ∧
  (∀ g, s.child = .ended true g → ∃ p, sessionProgram w = some p)

theorem swInv {w : SwWorld} {c : RpcCmd} {s : SwState} (h : SwReach w c s) : SwInv w c s := by
  induction h with
  | start => refine ⟨?_, ?_, ?_, ?_, ?_, ?_, ?_⟩ <;> simp
  | step _ hs ih =>
    obtain ⟨i1, i2, i3, i4, i5, i6, i7⟩ := ih
    cases hs with
    | plain h =>
      refine ⟨by simp, by simp, by simp, by simp, fun _ => .inr (.inr (.inr ⟨rfl, ?_, ?_⟩)), by simp, by simp⟩
      · rintro ⟨a, s, conf, b, _⟩
        rcases h with h | h
        · rw [a] at h; cases h
        · rw [b] at h; cases h
      · rintro ⟨a, s, b, _⟩
        rcases h with h | h
        · rw [a] at h; cases h
        · rw [b] at h; cases h
    | unreadable s h hs hl =>
      exact ⟨by simp, by simp, by simp, fun _ => ⟨rfl, .inl ⟨h, s, hs, hl⟩⟩, by simp, by simp, by simp⟩
    | unneeded s conf h hs hl hw =>
      refine ⟨by simp, by simp, by simp, by simp, fun _ => .inr (.inr (.inr ⟨rfl, ?_, ?_⟩)), by simp, by simp⟩
      · rintro ⟨_, s', conf', a, b, d⟩
        rw [hs] at a; cases a
        rw [hl] at b; cases b
        rw [hw] at d; cases d
      · rintro ⟨_, s', a, b⟩
        rw [hs] at a; cases a
        rw [hl] at b; cases b
    | forkFails s conf h hs hl hw =>
      exact ⟨by simp, by simp, by simp, fun _ => ⟨rfl, .inr ⟨h, s, conf, hs, hl, hw⟩⟩, by simp, by simp, by simp⟩
    | forks s conf h hs hl hw =>
      exact ⟨fun _ => ⟨h, s, conf, hs, hl, hw⟩, by simp, by simp, by simp, by simp, by simp, by simp⟩
    | executes ph p h =>
      refine ⟨fun _ => i1 (by simp), fun e => by simpa using i2 e, by simp, fun e => by simpa using i4 e, fun e => by simpa using i5 e, ?_, by simp⟩
      intro p' g hp
      cases hp
      exact h
    | cannot ph =>
      exact ⟨fun _ => i1 (by simp), fun e => by simpa using i2 e, by simp, fun e => by simpa using i4 e, fun e => .inl ⟨_, rfl⟩, by simp, by simp⟩
    | leaves ph p =>
      refine ⟨fun _ => i1 (by simp), fun e => by simpa using i2 e, by simp, fun e => by simpa using i4 e, fun e => .inr (.inl ⟨_, rfl⟩), ?_, by simp⟩
      intro p' g hp
      cases hp
      exact i6 _ _ rfl
    | ends ph p g =>
      refine ⟨fun _ => i1 (by simp), fun e => by simpa using i2 e, by simp, fun e => by simpa using i4 e, fun e => ?_, by simp, fun _ _ => ⟨p, i6 _ _ rfl⟩⟩
      cases g
      · exact .inr (.inr (.inl ⟨_, rfl⟩))
      · exact .inl ⟨_, rfl⟩
    | waited ran =>
      exact ⟨fun _ => i1 (by simp), by simp, by simp, by simp, fun _ => .inl ⟨_, rfl⟩, by simp, i7⟩
    | echild ch h =>
      refine ⟨fun e => i1 e, by simp, by simp, by simp, fun _ => ?_, i6, i7⟩
      rcases h with ⟨p, rfl⟩ | ⟨r, rfl⟩
      · exact .inr (.inl ⟨p, rfl⟩)
      · exact .inr (.inr (.inl ⟨r, rfl⟩))

/-- **C104, partial.** A service in dom0 whose configuration says that it waits for the session is started only when the program
that waits for it has ended (or could not be executed), as long as that program stays in its process group. Missing: a program that
leaves it, see `C104_gap`. -/
theorem C104_waits_partial {w : SwWorld} {c : RpcCmd} {s : SwState} (h : SwReach w c s) (hn : NeedsSession w c)
    (hs : s.phase = .started) (hg : ∀ p, s.child ≠ .running p false) : ∃ r g, s.child = .ended r g := by
  rcases (swInv h).2.2.2.2.1 hs with ⟨r, e⟩ | ⟨p, e⟩ | ⟨r, e⟩ | ⟨_, e, _⟩
  · exact ⟨r, _, e⟩
  · exact absurd e (hg p)
  · exact ⟨r, _, e⟩
  · exact absurd hn e

/-- **C104, the program.** What runs meanwhile is the first `qubes.WaitForSession` in the directories for services. -/
theorem C104_program {w : SwWorld} {c : RpcCmd} {s : SwState} (h : SwReach w c s) (p : Str) (g : Bool) (hp : s.child = .running p g) :
    FirstPlace false w.fs ((pathDirs w.pathList).map fun d => d ++ c!"/" ++ c!"qubes.WaitForSession") p ∧
      ∃ k, FileAt false w.fs p k := by
  have h1 := (swInv h).2.2.2.2.2.1 p g hp
  unfold sessionProgram at h1
  have h2 := findFile_spec false w.fs 256 w.pathList c!"qubes.WaitForSession"
  generalize findFile false w.fs 256 w.pathList c!"qubes.WaitForSession" = r at h1 h2
  cases r with
  | found q k =>
    cases h1
    have e : (([c!"qubes.WaitForSession"].filter fun n => decide (n.length ≤ 255)).flatMap fun n =>
      (pathDirs w.pathList).map fun d => d ++ c!"/" ++ n) = (pathDirs w.pathList).map fun d => d ++ c!"/" ++ c!"qubes.WaitForSession" := by
      rw [List.filter_cons_of_pos (by decide)]
      simp
    rw [e] at h2
    exact ⟨h2.1, k, h2.2⟩
  | _ => cases h1

/-- **C104, other calls.** A call that does not wait for the session never starts that program. A call is given up only if
its configuration cannot be read, or if it is to wait and no process can be made; and never once the program has been started. -/
theorem C104_others {w : SwWorld} {c : RpcCmd} {s : SwState} (h : SwReach w c s) :
    (¬ NeedsSession w c → s.child = .none) ∧
    (s.phase = .refused → s.child = .none ∧ (ConfUnreadable w c ∨ NeedsSession w c)) ∧
    (ConfUnreadable w c → s.phase ≠ .started) := by
  obtain ⟨i1, _, _, i4, i5, _⟩ := swInv h
  refine ⟨fun hn => ?_, i4, fun hu hs => ?_⟩
  · by_contra hc
    exact hn (i1 hc)
  · have no : s.child = .none := by
      by_contra hc
      obtain ⟨_, s1, conf, a, b, _⟩ := i1 hc
      obtain ⟨_, s2, a', b'⟩ := hu
      rw [a] at a'; cases a'
      rw [b] at b'; cases b'
    rcases i5 hs with ⟨r, e⟩ | ⟨p, e⟩ | ⟨r, e⟩ | ⟨_, _, e⟩
    · rw [no] at e; cases e
    · rw [no] at e; cases e
    · rw [no] at e; cases e
    · exact e hu

/-- **C104, it goes on.** When the program has ended - successfully or not - the service can be started, and nothing else
happens. -/
theorem C104_goes_on {w : SwWorld} {c : RpcCmd} {s s' : SwState} (r g : Bool) (hs : s = ⟨.waiting, .ended r g⟩) :
    SwStep w c s s' ↔ s' = ⟨.started, .ended r g⟩ := by
  subst hs
  constructor
  · intro h
    cases h <;> rfl
  · rintro rfl
    cases g
    · exact .echild _ (.inr ⟨r, rfl⟩)
    · exact .waited r

/-- **C104 is violated** for a program that leaves its process group: the service is started while it still runs, because
the process waits for its process group (`waitpid(0, …)`) and not for the program. -/
theorem C104_gap (w : SwWorld) (c : RpcCmd) (h : NeedsSession w c) (p : Str) (hp : sessionProgram w = some p) :
    SwReach w c ⟨.started, .running p false⟩ := by
  obtain ⟨h1, s, conf, h2, h3, h4⟩ := h
  exact .step (.step (.step (.step .start (.forks s conf h1 h2 h3 h4)) (.executes _ p hp)) (.leaves _ p)) (.echild _ (.inl ⟨p, rfl⟩))

/-- Finding: without the program, the service is started at once. -/
theorem C104_without (w : SwWorld) (c : RpcCmd) (h : NeedsSession w c) : SwReach w c ⟨.started, .ended false true⟩ := by
  obtain ⟨h1, s, conf, h2, h3, h4⟩ := h
  exact .step (.step (.step .start (.forks s conf h1 h2 h3 h4)) (.cannot _)) (.waited _)

/-- Such calls. -/
def exSession : SwWorld := ⟨fun _ => some { waitForSession := true },
  fun p => if p = c!"/etc/qubes-rpc/qubes.WaitForSession" then .ok (.other true) else .enoent, c!"/usr/local/etc/qubes-rpc:/etc/qubes-rpc"⟩
def exSessionCmd : RpcCmd := ⟨none, false, c!"qubes.X+ vm name dom0", some ⟨c!"qubes.X+", c!"qubes.X", some [], c!"vm"⟩⟩

example : NeedsSession exSession exSessionCmd := ⟨rfl, _, _, rfl, rfl, rfl⟩
example : sessionProgram exSession = some c!"/etc/qubes-rpc/qubes.WaitForSession" := by decide
example : SwReach exSession exSessionCmd ⟨.started, .ended true true⟩ :=
  .step (.step (.step (.step .start (.forks _ _ rfl rfl rfl rfl)) (.executes _ _ (show sessionProgram exSession = some c!"/etc/qubes-rpc/qubes.WaitForSession" by decide)))
    (.ends _ _ _)) (.waited _)

end Qrexec
