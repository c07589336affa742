import Verif.Model.PyClient
import Verif.Props.Getopt

/-!
# C110: calls from Python
-/
namespace Qrexec

/-- What the started program is to have as its standard input. -/
def WantedFeed (enc : Str → Bytes) : PyInput → PyFeed
  | .none => .nothing
  | .bytes b => .bytes b
  | .str s => .bytes (enc s)
  | .file fd => .file fd

/-- A call that was made as asked: one program, with these words and this input; the caller gets its output if it ended with 0, and
an exception with its status otherwise. -/
def CalledAs (h : Host) (run : List Str → PyFeed → ProcEnd) (command : List Str) (f : PyFeed) (r : PyRun × PyRes) : Prop :=
  r.1 = some (command, f) ∧
  (∀ s, r.2 = .ok s ↔ (run command f).status = 0 ∧ h.decode (run command f).stdout = some s) ∧
  ((run command f).status ≠ 0 → ∃ err, r.2 = .fails (.failed (run command f).status err)) ∧
  ((run command f).status = 0 → h.decode (run command f).stdout = none → r.2 = .fails .decode)

/-- A call that cannot be written: a plus sign or space in the name, a space in the argument, no client program, or a character
that no argument of a program can have. -/
def Unwritable (inDom0 : Option Bool) (dest rpc : Str) (arg : Option Str) : Prop :=
  '+' ∈ rpc ∨ ' ' ∈ rpc ∨ ' ' ∈ arg.getD [] ∨ inDom0 = none ∨ '\x00' ∈ dest ∨ '\x00' ∈ rpc ∨ '\x00' ∈ arg.getD []

theorem make_cases (inDom0 : Option Bool) (dest rpc : Str) (arg : Option Str) :
    (Unwritable inDom0 dest rpc arg ∧ ((∃ e, makeCommand inDom0 dest rpc arg = .error e) ∨
      ∃ c, makeCommand inDom0 dest rpc arg = .ok c ∧ (c.any fun w => w.contains '\x00') = true)) ∨
    (¬ Unwritable inDom0 dest rpc arg ∧ ∃ c, makeCommand inDom0 dest rpc arg = .ok c ∧ (c.any fun w => w.contains '\x00') = false) := by
  unfold makeCommand Unwritable
  by_cases hc : (rpc.contains '+' || rpc.contains ' ' || (arg.getD []).contains ' ') = true
  · rw [if_pos hc]
    left
    refine ⟨?_, .inl ⟨_, rfl⟩⟩
    simp only [Bool.or_eq_true, List.contains_iff_mem] at hc
    tauto
  · rw [if_neg hc]
    have hc' : '+' ∉ rpc ∧ ' ' ∉ rpc ∧ ' ' ∉ arg.getD [] := by
      simp only [Bool.or_eq_true, List.contains_iff_mem, not_or] at hc
      tauto
    have hf : '\x00' ∈ fullService rpc arg ↔ '\x00' ∈ rpc ∨ '\x00' ∈ arg.getD [] := by
      cases arg with
      | none => simp [fullService]
      | some a => simp [fullService]
    cases inDom0 with
    | none => left; exact ⟨by tauto, .inl ⟨_, rfl⟩⟩
    | some b =>
      cases b with
      | true =>
        dsimp only
        have key : ([c!"/usr/bin/qrexec-client", c!"-d", dest, c!"DEFAULT:QUBESRPC " ++ fullService rpc arg ++ c!" dom0"].any
            fun w => w.contains '\x00') = true ↔ '\x00' ∈ dest ∨ '\x00' ∈ rpc ∨ '\x00' ∈ arg.getD [] := by
          rw [← hf]
          simp
        by_cases hn : '\x00' ∈ dest ∨ '\x00' ∈ rpc ∨ '\x00' ∈ arg.getD []
        · left; exact ⟨by tauto, .inr ⟨_, rfl, key.2 hn⟩⟩
        · right
          refine ⟨by simp only [reduceCtorEq, false_or]; tauto, _, rfl, ?_⟩
          rw [Bool.eq_false_iff]
          exact fun e => hn (key.1 e)
      | false =>
        dsimp only
        have key : ([c!"/usr/bin/qrexec-client-vm", c!"--", dest, fullService rpc arg].any
            fun w => w.contains '\x00') = true ↔ '\x00' ∈ dest ∨ '\x00' ∈ rpc ∨ '\x00' ∈ arg.getD [] := by
          rw [← hf]
          simp
        by_cases hn : '\x00' ∈ dest ∨ '\x00' ∈ rpc ∨ '\x00' ∈ arg.getD []
        · left; exact ⟨by tauto, .inr ⟨_, rfl, key.2 hn⟩⟩
        · right
          refine ⟨by simp only [reduceCtorEq, false_or]; tauto, _, rfl, ?_⟩
          rw [Bool.eq_false_iff]
          exact fun e => hn (key.1 e)

theorem called_of {h : Host} {run : List Str → PyFeed → ProcEnd} {command : List Str} {f : PyFeed} {r : PyRun × PyRes} {err : Bytes}
    (h1 : r.1 = some (command, f))
    (h2 : r.2 = if (run command f).status != 0 then .fails (.failed (run command f).status err)
      else match h.decode (run command f).stdout with
        | some s => .ok s
        | none => .fails .decode) : CalledAs h run command f r := by
  refine ⟨h1, ?_, ?_, ?_⟩
  · intro s
    rw [h2]
    by_cases hs : (run command f).status = 0
    · rw [if_neg (by simp [hs])]
      cases hd : h.decode (run command f).stdout with
      | none => simp
      | some t => simp [hs]
    · rw [if_pos (by simp [hs])]
      simp [hs]
  · intro hs
    exact ⟨err, by rw [h2, if_pos (by simp [hs])]⟩
  · intro hs hd
    rw [h2, if_neg (by simp [hs]), hd]

/-- **C110.** `call` of the Python client: for a call that can be written, and any kind of input, exactly one program is started, the
client program with the words of `C109_python`; it has exactly the given text, bytes or file as its input, and nothing if none is
given; its output is returned if it ends with 0, otherwise an exception has its status.  Other calls start nothing. -/
theorem C110_call (h : Host) (enc : Str → Bytes) (inDom0 : Option Bool) (run : List Str → PyFeed → ProcEnd) (dest rpc : Str)
    (arg : Option Str) (input : PyInput) :
    (¬ Unwritable inDom0 dest rpc arg → ∃ command, makeCommand inDom0 dest rpc arg = .ok command ∧
      CalledAs h run command (WantedFeed enc input) (pyCall h enc inDom0 run dest rpc arg input)) ∧
    (Unwritable inDom0 dest rpc arg → ∃ e, pyCall h enc inDom0 run dest rpc arg input = (none, .fails e)) := by
  rcases make_cases inDom0 dest rpc arg with ⟨hu, hx⟩ | ⟨hu, c, hm, hn⟩
  · refine ⟨fun hc => absurd hu hc, fun _ => ?_⟩
    unfold pyCall
    rcases hx with ⟨e, he⟩ | ⟨c, hm, hn⟩
    · rw [he]; exact ⟨e, rfl⟩
    · rw [hm]
      refine ⟨.nul, ?_⟩
      dsimp only
      unfold pyCheckOutput
      rw [if_neg (by cases input <;> simp [prepareKwds]), if_neg (by cases input <;> simp [prepareKwds]), if_pos hn]
  · refine ⟨fun _ => ⟨c, hm, ?_⟩, fun hc => absurd hc hu⟩
    have e : pyCall h enc inDom0 run dest rpc arg input = (some (c, WantedFeed enc input),
        if (run c (WantedFeed enc input)).status != 0
        then .fails (.failed (run c (WantedFeed enc input)).status (run c (WantedFeed enc input)).stderr)
        else match h.decode (run c (WantedFeed enc input)).stdout with
          | some s => .ok s
          | none => .fails .decode) := by
      unfold pyCall
      rw [hm]
      dsimp only
      unfold pyCheckOutput
      rw [if_neg (by cases input <;> simp [prepareKwds]), if_neg (by cases input <;> simp [prepareKwds]), if_neg (by rw [hn]; decide)]
      cases input <;> rfl
    rw [e]
    exact called_of rfl rfl

/-- **C110, `call_async`, in part.** The same holds of the asynchronous version if the input is text or bytes.  Missing: no input, or a
file. -/
theorem C110_async_partial (h : Host) (enc : Str → Bytes) (inDom0 : Option Bool) (run : List Str → PyFeed → ProcEnd) (dest rpc : Str)
    (arg : Option Str) (input : PyInput) (hi : (∃ b, input = .bytes b) ∨ ∃ s, input = .str s) :
    (¬ Unwritable inDom0 dest rpc arg → ∃ command, makeCommand inDom0 dest rpc arg = .ok command ∧
      CalledAs h run command (WantedFeed enc input) (pyCallAsync h enc inDom0 run dest rpc arg input)) ∧
    (Unwritable inDom0 dest rpc arg → ∃ e, pyCallAsync h enc inDom0 run dest rpc arg input = (none, .fails e)) := by
  obtain ⟨data, hd, hf⟩ : ∃ data, (prepareKwds enc input true false).input = some data ∧
      WantedFeed enc input = pyFeed (prepareKwds enc input true false).stdin data := by
    rcases hi with ⟨b, rfl⟩ | ⟨s, rfl⟩
    · exact ⟨b, rfl, rfl⟩
    · exact ⟨enc s, rfl, rfl⟩
  have ho : (prepareKwds enc input true false).stdout = true := by cases input <;> rfl
  rcases make_cases inDom0 dest rpc arg with ⟨hu, hx⟩ | ⟨hu, c, hm, hn⟩
  · refine ⟨fun hc => absurd hu hc, fun _ => ?_⟩
    unfold pyCallAsync
    rcases hx with ⟨e, he⟩ | ⟨c, hm, hn⟩
    · rw [he]; exact ⟨e, rfl⟩
    · rw [hm]
      dsimp only
      rw [hd]
      dsimp only
      rw [if_pos hn]
      exact ⟨_, rfl⟩
  · refine ⟨fun _ => ⟨c, hm, ?_⟩, fun hc => absurd hc hu⟩
    unfold pyCallAsync
    rw [hm]
    dsimp only
    rw [hd]
    dsimp only
    rw [if_neg (by rw [hn]; decide), ← hf, ho]
    exact called_of rfl rfl

/-- **C110, violated.** Without input, which is the default, or with a file, `call_async` never starts anything. -/
theorem C110_async_violated (h : Host) (enc : Str → Bytes) (inDom0 : Option Bool) (run : List Str → PyFeed → ProcEnd) (dest rpc : Str)
    (arg : Option Str) (hw : ¬ Unwritable inDom0 dest rpc arg) :
    pyCallAsync h enc inDom0 run dest rpc arg .none = (none, .keyError) ∧
    ∀ fd, pyCallAsync h enc inDom0 run dest rpc arg (.file fd) = (none, .keyError) := by
  rcases make_cases inDom0 dest rpc arg with ⟨hu, _⟩ | ⟨_, c, hm, _⟩
  · exact absurd hu hw
  · unfold pyCallAsync
    rw [hm]
    exact ⟨rfl, fun _ => rfl⟩

/-- The calls of the policy client (C78) are these, with text as input. -/
theorem C110_admin {σ : Type} (h : Host) (enc : Str → Bytes) (inDom0 : Option Bool) (run : σ → List Str → Bytes → σ × ProcEnd) (st : σ)
    (dest rpc : Str) (arg : Option Str) (input : Str) :
    (pyCall h enc inDom0 (fun c f => (run st c (match f with | .bytes b => b | _ => [])).2) dest rpc arg (.str input)).2 =
      match (qrexecCall h enc inDom0 run st dest rpc arg input).2 with
      | .ok s => .ok s
      | .error e => .fails e := by
  unfold pyCall qrexecCall
  cases hm : makeCommand inDom0 dest rpc arg with
  | error e => rfl
  | ok c =>
    dsimp only
    unfold pyCheckOutput
    rw [if_neg (by simp [prepareKwds]), if_neg (by simp [prepareKwds])]
    by_cases hn : (c.any fun w => w.contains '\x00') = true
    · rw [if_pos hn, if_pos hn]
    · rw [if_neg hn, if_neg hn]
      show (if (run st c (enc input)).2.status != 0 then _ else _ : PyRes) = _
      by_cases hs : ((run st c (enc input)).2.status != 0) = true
      · rw [if_pos hs, if_pos hs]; rfl
      · rw [if_neg hs, if_neg hs]
        show (match h.decode (run st c (enc input)).2.stdout with | some s => PyRes.ok s | none => .fails .decode) = _
        cases h.decode (run st c (enc input)).2.stdout <;> rfl

/-- **C110, where.** In dom0 - where the client program of dom0 is - it is that program which is started, even if there is the one for
qubes too; the latter elsewhere, if there is one. -/
theorem C110_where (isFile : Str → Bool) :
    (pyInDom0 isFile = some true ↔ isFile c!"/usr/bin/qrexec-client" = true) ∧
    (pyInDom0 isFile = some false ↔ isFile c!"/usr/bin/qrexec-client" = false ∧ isFile c!"/usr/bin/qrexec-client-vm" = true) ∧
    (pyInDom0 isFile = none ↔ isFile c!"/usr/bin/qrexec-client" = false ∧ isFile c!"/usr/bin/qrexec-client-vm" = false) := by
  unfold pyInDom0
  cases isFile c!"/usr/bin/qrexec-client" <;> cases isFile c!"/usr/bin/qrexec-client-vm" <;> simp

/-! ## Examples -/

example : ¬ Unwritable (some false) c!"work" c!"qubes.VMShell" none := by
  unfold Unwritable; decide

example (h : Host) (enc : Str → Bytes) (run : List Str → PyFeed → ProcEnd) :
    (pyCall h enc (some false) run c!"work" c!"qubes.VMShell" none (.bytes c!"id")).1 =
      some ([c!"/usr/bin/qrexec-client-vm", c!"--", c!"work", c!"qubes.VMShell"], .bytes c!"id") := rfl

example (h : Host) (enc : Str → Bytes) (run : List Str → PyFeed → ProcEnd) :
    (pyCall h enc (some true) run c!"work" c!"test.Add" (some c!"1") .none).1 =
      some ([c!"/usr/bin/qrexec-client", c!"-d", c!"work", c!"DEFAULT:QUBESRPC test.Add+1 dom0"], .nothing) := rfl

end Qrexec
