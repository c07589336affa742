import Verif.Spec.Client
import Verif.Props.ClientVm
import Verif.Props.ServiceFind
import Verif.Props.ExecVm
import Verif.Props.Start

/-! C75: qrexec-client. -/
namespace Qrexec
open Spec

/-! ## Numbers and requests -/

/-- **C74, the timeout and the number of a domain.** -/
theorem C74_int (s : Str) (n : Nat) : parseInt s = some n ↔ CInteger s n ∧ n ≤ 2147483647 := by
  rw [← C74_buffer_size]
  unfold parseInt parseBufferSize
  cases s with
  | nil => exact Iff.rfl
  | cons c s =>
    dsimp only
    by_cases h1 : (decide (c.toNat < 48) || decide (c.toNat > 57)) = true
    · rw [if_pos h1, if_pos h1]
    · rw [if_neg h1, if_neg h1]
      generalize strtolBase0 (c :: s) = r
      by_cases h2 : r.2 ≠ []
      · rw [if_pos h2, if_pos h2]
        by_cases h3 : r.1 > 2147483647
        · rw [if_pos h3]
        · rw [if_neg h3]
      · rw [if_neg h2, if_neg h2]

theorem parseConnect_iff (s id name : Str) (n : Nat) : parseConnect s = some (id, name, n) ↔ ConnectText s id name n := by
  unfold parseConnect ConnectText
  constructor
  · intro h
    cases h1 : splitOnce ',' s with
    | none => rw [h1] at h; cases h
    | some p =>
      obtain ⟨i, r⟩ := p
      rw [h1] at h
      dsimp only at h
      split_ifs at h with h2
      cases h3 : splitOnce ',' r with
      | none => rw [h3] at h; cases h
      | some q =>
        obtain ⟨nm, t⟩ := q
        rw [h3] at h
        dsimp only at h
        cases h4 : parseInt t with
        | none => rw [h4] at h; cases h
        | some k =>
          rw [h4] at h
          cases h
          obtain ⟨e1, e2⟩ := splitOnce_eq_some.1 h1
          obtain ⟨e3, e4⟩ := splitOnce_eq_some.1 h3
          have := (C74_int t n).1 h4
          refine ⟨t, ?_, e2, e4, by omega, this.1, this.2⟩
          rw [e1, e3]
          simp
  · rintro ⟨t, rfl, h1, h2, h3, h4, h5⟩
    have e1 : splitOnce ',' (id ++ c!"," ++ name ++ c!"," ++ t) = some (id, name ++ ',' :: t) :=
      splitOnce_eq_some.2 ⟨by simp, h1⟩
    have e2 : splitOnce ',' (name ++ ',' :: t) = some (name, t) := splitOnce_eq_some.2 ⟨rfl, h2⟩
    rw [e1]
    dsimp only
    rw [if_neg (by omega), e2]
    dsimp only
    rw [(C74_int t n).2 ⟨h4, h5⟩]

theorem dom0Names_iff (s : Str) : refersToDom0 s = true ↔ s ∈ dom0Names := by
  unfold refersToDom0 dom0Names
  simp [or_assoc]

/-! ## Options -/

/-- An option is accepted. -/
inductive QcStep (b : Bool) (v : QcVars) : QcOpt → QcVars → Prop
  | domain (s) : QcStep b v (.domain s) { v with domain := some s }
  | localProg (s) : QcStep b v (.localProg s) { v with localProg := some s }
  | justExec : QcStep b v .justExec { v with justExec := true }
  | noExitCode : QcStep b v .noExitCode { v with exitWithCode := false }
  | connect (s id name n) (h0 : v.request = none) (h1 : ConnectText s id name n) (h2 : name ∉ dom0Names) (h3 : n ≠ 0) :
      QcStep b v (.connect s) { v with request := some (id, name, n) }
  | prefixData (s) (h : v.pfx = none) : QcStep b v (.prefixData s) { v with pfx := some s }
  | filterOut : QcStep b v .filterOut { v with filterOut := true }
  | filterErr : QcStep b v .filterErr { v with filterErr := true }
  | timeout (s n) (h : CInteger s n) (h' : n ≤ 2147483647) : QcStep b v (.timeout s) { v with timeout := n }
  | waitEnd : QcStep b v .waitEnd { v with waitEnd := true }
  | socketDir (s) : QcStep b v (.socketDir s) { v with dir := s }
  | useStdinSocket (h : v.stdinSocket = false) (h' : b = true) : QcStep b v .useStdinSocket { v with stdinSocket := true }
  | kill : QcStep b v .kill { v with kill := true }

theorem qcOption_iff (b : Bool) (v v1 : QcVars) (o : QcOpt) : qcOption b v o = .ok v1 ↔ QcStep b v o v1 := by
  constructor
  · intro h
    cases o with
    | connect s =>
      simp only [qcOption] at h
      by_cases h0 : v.request.isSome = true
      · rw [if_pos h0] at h; cases h
      rw [if_neg h0] at h
      cases hp : parseConnect s with
      | none => rw [hp] at h; cases h
      | some r =>
        obtain ⟨id, name, n⟩ := r
        rw [hp] at h
        dsimp only at h
        by_cases h1 : (refersToDom0 name || decide (n = 0)) = true
        · rw [if_pos h1] at h; cases h
        rw [if_neg h1] at h
        cases h
        refine .connect s id name n (by simpa using h0) ((parseConnect_iff _ _ _ _).1 hp) ?_ ?_
        · intro q; exact h1 (by rw [(dom0Names_iff name).2 q]; rfl)
        · rintro rfl; exact h1 (by simp)
    | timeout s =>
      simp only [qcOption] at h
      cases hp : parseInt s with
      | none => rw [hp] at h; cases h
      | some n =>
        rw [hp] at h
        cases h
        have := (C74_int s n).1 hp
        exact .timeout s n this.1 this.2
    | prefixData s =>
      simp only [qcOption] at h
      split_ifs at h with h0
      cases h
      exact .prefixData s (by simpa using h0)
    | useStdinSocket =>
      simp only [qcOption] at h
      split_ifs at h with h0 h1
      cases h
      exact .useStdinSocket (by simpa using h0) h1
    | help => cases h
    | domain s => cases h; exact .domain s
    | localProg s => cases h; exact .localProg s
    | justExec => cases h; exact .justExec
    | noExitCode => cases h; exact .noExitCode
    | filterOut => cases h; exact .filterOut
    | filterErr => cases h; exact .filterErr
    | waitEnd => cases h; exact .waitEnd
    | socketDir s => cases h; exact .socketDir s
    | kill => cases h; exact .kill
  · intro h
    cases h with
    | connect s id name n h0 h1 h2 h3 =>
      have : refersToDom0 name = false := by
        cases hr : refersToDom0 name with
        | false => rfl
        | true => exact absurd ((dom0Names_iff name).1 hr) h2
      simp [qcOption, h0, (parseConnect_iff _ _ _ _).2 h1, this, h3]
    | timeout s n h h' => simp [qcOption, (C74_int s n).2 ⟨h, h'⟩]
    | prefixData s h => simp [qcOption, h]
    | useStdinSocket h h' => simp [qcOption, h, h']
    | _ => rfl

/-- What happens to one variable. -/
theorem qcOptions_field {α : Type} (b : Bool) (g : QcVars → α) (upd : QcOpt → α → α)
    (h : ∀ v o v1, qcOption b v o = .ok v1 → g v1 = upd o (g v)) (os : List QcOpt) (v v' : QcVars)
    (hr : qcOptions b v os = .ok v') : g v' = os.foldl (fun x o => upd o x) (g v) := by
  induction os generalizing v with
  | nil => cases hr; rfl
  | cons o os ih =>
    rw [qcOptions] at hr
    cases ho : qcOption b v o with
    | error st => rw [ho] at hr; cases hr
    | ok v1 =>
      rw [ho] at hr
      rw [ih v1 hr, h v o v1 ho]
      rfl

theorem foldl_last {α β : Type} (f : α → Option β) (l : List α) (x : Option β) :
    l.foldl (fun x o => (f o).or x) x = (l.filterMap f).getLast?.or x := by
  induction l generalizing x with
  | nil => simp
  | cons a l ih =>
    rw [List.foldl_cons, ih, List.filterMap_cons]
    cases f a with
    | none => simp
    | some b =>
      dsimp only
      rw [List.getLast?_cons]
      cases (l.filterMap f).getLast? <;> simp

theorem foldl_flag {α : Type} [DecidableEq α] (k : α) (l : List α) (x : Bool) :
    l.foldl (fun x o => x || decide (o = k)) x = (x || decide (k ∈ l)) := by
  induction l generalizing x with
  | nil => simp
  | cons a l ih =>
    rw [List.foldl_cons, ih]
    have : decide (k ∈ a :: l) = (decide (a = k) || decide (k ∈ l)) := by
      by_cases h : a = k
      · simp [h]
      · have : ¬ k = a := fun q => h q.symm
        simp [h, this]
    rw [this, Bool.or_assoc]

/-- All the variables but the request. -/
theorem qcOptions_vars (b : Bool) (os : List QcOpt) (v' : QcVars) (hr : qcOptions b {} os = .ok v') :
    v'.domain = (domainsOf os).getLast? ∧ v'.localProg = (localsOf os).getLast? ∧
    v'.justExec = decide (.justExec ∈ os) ∧ v'.exitWithCode = !decide (.noExitCode ∈ os) ∧
    v'.filterOut = decide (.filterOut ∈ os) ∧ v'.filterErr = decide (.filterErr ∈ os) ∧ v'.waitEnd = decide (.waitEnd ∈ os) ∧
    v'.dir = (dirsOf os).getLast?.getD c!"/var/run/qubes" ∧ v'.stdinSocket = decide (.useStdinSocket ∈ os) ∧
    v'.kill = decide (.kill ∈ os) ∧ v'.pfx = (pfxsOf os).getLast? := by
  have tac : ∀ {α : Type} (g : QcVars → α) (upd : QcOpt → α → α),
      (∀ v o v1, qcOption b v o = .ok v1 → g v1 = upd o (g v)) → g v' = os.foldl (fun x o => upd o x) (g {}) :=
    fun g upd h => qcOptions_field b g upd h os {} v' hr
  have opt : ∀ (g : QcVars → Option Str) (f : QcOpt → Option Str),
      (∀ v o v1, qcOption b v o = .ok v1 → g v1 = (f o).or (g v)) → g {} = none → g v' = (os.filterMap f).getLast? := by
    intro g f h h0
    rw [tac g (fun o x => (f o).or x) h, foldl_last, h0, Option.or_none]
  have flag : ∀ (g : QcVars → Bool) (k : QcOpt),
      (∀ v o v1, qcOption b v o = .ok v1 → g v1 = (g v || decide (o = k))) → g {} = false → g v' = decide (k ∈ os) := by
    intro g k h h0
    rw [tac g (fun o x => x || decide (o = k)) h, foldl_flag, h0, Bool.false_or]
  have fo : ∀ (g : QcVars → Option Str) (f : QcOpt → Option Str),
      (∀ v o v1, QcStep b v o v1 → g v1 = (f o).or (g v)) → g {} = none → g v' = (os.filterMap f).getLast? :=
    fun g f h h0 => opt g f (fun v o v1 q => h v o v1 ((qcOption_iff b v v1 o).1 q)) h0
  have ff : ∀ (g : QcVars → Bool) (k : QcOpt),
      (∀ v o v1, QcStep b v o v1 → g v1 = (g v || decide (o = k))) → g {} = false → g v' = decide (k ∈ os) :=
    fun g k h h0 => flag g k (fun v o v1 q => h v o v1 ((qcOption_iff b v v1 o).1 q)) h0
  have d1 := fo (fun v => v.domain) (fun o => match o with | .domain s => some s | _ => none)
    (by intro v o v1 h; cases h <;> rfl) rfl
  have d2 := fo (fun v => v.localProg) (fun o => match o with | .localProg s => some s | _ => none)
    (by intro v o v1 h; cases h <;> rfl) rfl
  have d3 := fo (fun v => v.pfx) (fun o => match o with | .prefixData s => some s | _ => none)
    (by intro v o v1 h; cases h <;> rfl) rfl
  have b1 := ff (fun v => v.justExec) .justExec (by intro v o v1 h; cases h <;> simp) rfl
  have b2 := ff (fun v => !v.exitWithCode) .noExitCode (by intro v o v1 h; cases h <;> simp) rfl
  have b3 := ff (fun v => v.filterOut) .filterOut (by intro v o v1 h; cases h <;> simp) rfl
  have b4 := ff (fun v => v.filterErr) .filterErr (by intro v o v1 h; cases h <;> simp) rfl
  have b5 := ff (fun v => v.waitEnd) .waitEnd (by intro v o v1 h; cases h <;> simp) rfl
  have b6 := ff (fun v => v.stdinSocket) .useStdinSocket (by intro v o v1 h; cases h <;> simp) rfl
  have b7 := ff (fun v => v.kill) .kill (by intro v o v1 h; cases h <;> simp) rfl
  have b2' : v'.exitWithCode = !decide (QcOpt.noExitCode ∈ os) := by
    rw [← b2]; simp
  refine ⟨d1, d2, b1, b2', b3, b4, b5, ?_, b6, b7, d3⟩
  have e := tac (fun v => v.dir) (fun o x => ((match o with | .socketDir s => some s | _ => none : Option Str)).getD x) ?_
  · refine e.trans ?_
    have hf : ∀ (os : List QcOpt) (x : Str),
        os.foldl (fun x o => ((match o with | .socketDir s => some s | _ => none : Option Str)).getD x) x =
          (dirsOf os).getLast?.getD x := by
      intro os
      induction os with
      | nil => intro x; rfl
      | cons o os ih =>
        intro x
        rw [List.foldl_cons, ih]
        cases o with
        | socketDir s =>
          rw [show dirsOf (.socketDir s :: os) = s :: dirsOf os from rfl, List.getLast?_cons]
          rfl
        | _ => rfl
    exact hf os _
  · intro v o v1 h
    cases (qcOption_iff b v v1 o).1 h <;> rfl

theorem qcOptions_cons (b : Bool) (v v' : QcVars) (o : QcOpt) (os : List QcOpt) :
    qcOptions b v (o :: os) = .ok v' ↔ ∃ v1, QcStep b v o v1 ∧ qcOptions b v1 os = .ok v' := by
  rw [qcOptions]
  constructor
  · intro h
    cases ho : qcOption b v o with
    | error st => rw [ho] at h; cases h
    | ok v1 =>
      rw [ho] at h
      exact ⟨v1, (qcOption_iff b v v1 o).1 ho, h⟩
  · rintro ⟨v1, h1, h2⟩
    rw [(qcOption_iff b v v1 o).2 h1]
    exact h2

theorem connectsOf_cons (o : QcOpt) (os : List QcOpt) : connectsOf (o :: os) =
    (match o with | .connect s => [s] | _ => []) ++ connectsOf os := by cases o <;> rfl

theorem pfxsOf_cons (o : QcOpt) (os : List QcOpt) : pfxsOf (o :: os) =
    (match o with | .prefixData s => [s] | _ => []) ++ pfxsOf os := by cases o <;> rfl

theorem qcOptions_request (b : Bool) (os : List QcOpt) (v v' : QcVars) (hr : qcOptions b v os = .ok v') :
    (v.request ≠ none → connectsOf os = [] ∧ v'.request = v.request) ∧
    (v.request = none → (v'.request = none ∧ connectsOf os = []) ∨
      ∃ s id name n, connectsOf os = [s] ∧ ConnectText s id name n ∧ name ∉ dom0Names ∧ n ≠ 0 ∧ v'.request = some (id, name, n)) := by
  induction os generalizing v with
  | nil => cases hr; exact ⟨fun _ => ⟨rfl, rfl⟩, fun h => .inl ⟨h, rfl⟩⟩
  | cons o os ih =>
    obtain ⟨v1, h1, h2⟩ := (qcOptions_cons b v v' o os).1 hr
    obtain ⟨i1, i2⟩ := ih v1 h2
    cases h1 with
    | connect s id name n h0 q1 q2 q3 =>
      refine ⟨fun h => absurd h0 h, fun _ => .inr ⟨s, id, name, n, ?_, q1, q2, q3, ?_⟩⟩
      · rw [connectsOf_cons, (i1 (by simp)).1]; rfl
      · rw [(i1 (by simp)).2]
    | _ => exact ⟨i1, i2⟩

/-- Which options are accepted. -/
theorem qcOptions_ok (b : Bool) (os : List QcOpt) (v : QcVars) :
    (∃ v', qcOptions b v os = .ok v') ↔
      .help ∉ os ∧ (∀ s, .connect s ∈ os → ∃ id name n, ConnectText s id name n ∧ name ∉ dom0Names ∧ n ≠ 0) ∧
      (∀ s, .timeout s ∈ os → ∃ n, CInteger s n ∧ n ≤ 2147483647) ∧
      (connectsOf os).length + v.request.toList.length ≤ 1 ∧ (pfxsOf os).length + v.pfx.toList.length ≤ 1 ∧
      os.count .useStdinSocket + v.stdinSocket.toNat ≤ 1 ∧ (.useStdinSocket ∈ os → b = true) := by
  induction os generalizing v with
  | nil =>
    refine iff_of_true ⟨v, rfl⟩ ⟨by simp, by simp, by simp, ?_, ?_, ?_, by simp⟩
    · cases v.request <;> simp [connectsOf]
    · cases v.pfx <;> simp [pfxsOf]
    · cases v.stdinSocket <;> simp
  | cons o os ih =>
    have hstep : (∃ v', qcOptions b v (o :: os) = .ok v') ↔ ∃ v1, QcStep b v o v1 ∧ ∃ v', qcOptions b v1 os = .ok v' := by
      constructor
      · rintro ⟨v', h⟩
        obtain ⟨v1, h1, h2⟩ := (qcOptions_cons b v v' o os).1 h
        exact ⟨v1, h1, v', h2⟩
      · rintro ⟨v1, h1, v', h2⟩
        exact ⟨v', (qcOptions_cons b v v' o os).2 ⟨v1, h1, h2⟩⟩
    rw [hstep]
    -- an option without conditions
    have plain : ∀ v1, QcStep b v o v1 → (∀ v2, QcStep b v o v2 → v2 = v1) → v1.request = v.request → v1.pfx = v.pfx →
        v1.stdinSocket = v.stdinSocket → o ≠ .help → o ≠ .useStdinSocket → (∀ s, o ≠ .connect s) → (∀ s, o ≠ .prefixData s) →
        (∀ s, o ≠ .timeout s) →
        ((∃ v1, QcStep b v o v1 ∧ ∃ v', qcOptions b v1 os = .ok v') ↔
          .help ∉ o :: os ∧ (∀ s, .connect s ∈ o :: os → ∃ id name n, ConnectText s id name n ∧ name ∉ dom0Names ∧ n ≠ 0) ∧
          (∀ s, .timeout s ∈ o :: os → ∃ n, CInteger s n ∧ n ≤ 2147483647) ∧
          (connectsOf (o :: os)).length + v.request.toList.length ≤ 1 ∧ (pfxsOf (o :: os)).length + v.pfx.toList.length ≤ 1 ∧
          (o :: os).count .useStdinSocket + v.stdinSocket.toNat ≤ 1 ∧ (.useStdinSocket ∈ o :: os → b = true)) := by
      intro v1 h1 huniq e1 e2 e3 n1 n2 n3 n4 n5
      have : (∃ v1, QcStep b v o v1 ∧ ∃ v', qcOptions b v1 os = .ok v') ↔ ∃ v', qcOptions b v1 os = .ok v' :=
        ⟨fun ⟨v2, q1, q2⟩ => huniq v2 q1 ▸ q2, fun q => ⟨v1, h1, q⟩⟩
      rw [this, ih v1, e1, e2, e3]
      have c1 : connectsOf (o :: os) = connectsOf os := by
        cases o <;> first | rfl | exact absurd rfl (n3 _)
      have c2 : pfxsOf (o :: os) = pfxsOf os := by
        cases o <;> first | rfl | exact absurd rfl (n4 _)
      have c3 : (o :: os).count .useStdinSocket = os.count .useStdinSocket := by
        rw [List.count_cons]; simp [n2]
      have m1 : (QcOpt.help ∈ o :: os) ↔ .help ∈ os := by simp [Ne.symm n1]
      have m2 : ∀ s, (QcOpt.connect s ∈ o :: os) ↔ .connect s ∈ os := by intro s; simp [Ne.symm (n3 s)]
      have m3 : ∀ s, (QcOpt.timeout s ∈ o :: os) ↔ .timeout s ∈ os := by intro s; simp [Ne.symm (n5 s)]
      have m4 : (QcOpt.useStdinSocket ∈ o :: os) ↔ .useStdinSocket ∈ os := by simp [Ne.symm n2]
      rw [c1, c2, c3, m1, m4]
      simp only [m2, m3]
    cases o with
    | domain s => exact plain _ (.domain s) (by intro v2 h; cases h; rfl) rfl rfl rfl (by simp) (by simp) (by simp) (by simp) (by simp)
    | localProg s => exact plain _ (.localProg s) (by intro v2 h; cases h; rfl) rfl rfl rfl (by simp) (by simp) (by simp) (by simp) (by simp)
    | justExec => exact plain _ .justExec (by intro v2 h; cases h; rfl) rfl rfl rfl (by simp) (by simp) (by simp) (by simp) (by simp)
    | noExitCode => exact plain _ .noExitCode (by intro v2 h; cases h; rfl) rfl rfl rfl (by simp) (by simp) (by simp) (by simp) (by simp)
    | filterOut => exact plain _ .filterOut (by intro v2 h; cases h; rfl) rfl rfl rfl (by simp) (by simp) (by simp) (by simp) (by simp)
    | filterErr => exact plain _ .filterErr (by intro v2 h; cases h; rfl) rfl rfl rfl (by simp) (by simp) (by simp) (by simp) (by simp)
    | waitEnd => exact plain _ .waitEnd (by intro v2 h; cases h; rfl) rfl rfl rfl (by simp) (by simp) (by simp) (by simp) (by simp)
    | socketDir s => exact plain _ (.socketDir s) (by intro v2 h; cases h; rfl) rfl rfl rfl (by simp) (by simp) (by simp) (by simp) (by simp)
    | kill => exact plain _ .kill (by intro v2 h; cases h; rfl) rfl rfl rfl (by simp) (by simp) (by simp) (by simp) (by simp)
    | help =>
      refine iff_of_false ?_ (fun h => h.1 (by simp))
      rintro ⟨v1, h, _⟩; cases h
    | timeout s =>
      constructor
      · rintro ⟨v1, h1, h2⟩
        cases h1 with
        | timeout _ n h h' =>
          obtain ⟨a1, a2, a3, a4, a5, a6, a7⟩ := (ih _).1 h2
          refine ⟨by simpa using a1, by simpa using a2, ?_, a4, a5, by simpa [List.count_cons] using a6, by simpa using a7⟩
          intro s' hs'
          rcases List.mem_cons.1 hs' with e | e
          · cases e; exact ⟨n, h, h'⟩
          · exact a3 s' e
      · rintro ⟨a1, a2, a3, a4, a5, a6, a7⟩
        obtain ⟨n, h, h'⟩ := a3 s (by simp)
        exact ⟨_, .timeout s n h h', (ih _).2 ⟨by simpa using a1, by simpa using a2, fun s' hs' => a3 s' (List.mem_cons_of_mem _ hs'),
          a4, a5, by simpa [List.count_cons] using a6, by simpa using a7⟩⟩
    | connect s =>
      constructor
      · rintro ⟨v1, h1, h2⟩
        cases h1 with
        | connect _ id name n h0 q1 q2 q3 =>
          obtain ⟨a1, a2, a3, a4, a5, a6, a7⟩ := (ih _).1 h2
          refine ⟨by simpa using a1, ?_, by simpa using a3, ?_, a5, by simpa [List.count_cons] using a6, by simpa using a7⟩
          · intro s' hs'
            rcases List.mem_cons.1 hs' with e | e
            · cases e; exact ⟨id, name, n, q1, q2, q3⟩
            · exact a2 s' e
          · rw [connectsOf_cons, h0]
            simpa using a4
      · rintro ⟨a1, a2, a3, a4, a5, a6, a7⟩
        obtain ⟨id, name, n, q1, q2, q3⟩ := a2 s (by simp)
        rw [connectsOf_cons] at a4
        have h0 : v.request = none := by
          cases hv : v.request with
          | none => rfl
          | some r => rw [hv] at a4; simp at a4
        rw [h0] at a4
        refine ⟨_, .connect s id name n h0 q1 q2 q3, (ih _).2 ⟨by simpa using a1, fun s' hs' => a2 s' (List.mem_cons_of_mem _ hs'),
          by simpa using a3, ?_, a5, by simpa [List.count_cons] using a6, by simpa using a7⟩⟩
        simpa using a4
    | prefixData s =>
      constructor
      · rintro ⟨v1, h1, h2⟩
        cases h1 with
        | prefixData _ h0 =>
          obtain ⟨a1, a2, a3, a4, a5, a6, a7⟩ := (ih _).1 h2
          refine ⟨by simpa using a1, by simpa using a2, by simpa using a3, a4, ?_, by simpa [List.count_cons] using a6, by simpa using a7⟩
          rw [pfxsOf_cons, h0]
          simpa using a5
      · rintro ⟨a1, a2, a3, a4, a5, a6, a7⟩
        rw [pfxsOf_cons] at a5
        have h0 : v.pfx = none := by
          cases hv : v.pfx with
          | none => rfl
          | some r => rw [hv] at a5; simp at a5
        rw [h0] at a5
        refine ⟨_, .prefixData s h0, (ih _).2 ⟨by simpa using a1, by simpa using a2, by simpa using a3, a4, ?_,
          by simpa [List.count_cons] using a6, by simpa using a7⟩⟩
        simpa using a5
    | useStdinSocket =>
      constructor
      · rintro ⟨v1, h1, h2⟩
        cases h1 with
        | useStdinSocket h0 hb =>
          obtain ⟨a1, a2, a3, a4, a5, a6, a7⟩ := (ih _).1 h2
          refine ⟨by simpa using a1, by simpa using a2, by simpa using a3, a4, a5, ?_, fun _ => hb⟩
          rw [List.count_cons, h0]
          simpa using a6
      · rintro ⟨a1, a2, a3, a4, a5, a6, a7⟩
        have hb := a7 (by simp)
        rw [List.count_cons] at a6
        have h0 : v.stdinSocket = false := by
          cases hv : v.stdinSocket with
          | false => rfl
          | true => rw [hv] at a6; simp at a6
        rw [h0] at a6
        refine ⟨_, .useStdinSocket h0 hb, (ih _).2 ⟨by simpa using a1, by simpa using a2, by simpa using a3, a4, a5, ?_, fun _ => hb⟩⟩
        simpa using a6

/-! ## Which command lines are accepted -/

theorem getLast?_none_iff {α : Type} (l : List α) : l.getLast? = none ↔ l = [] := List.getLast?_eq_none_iff

/-- An accepted command line. -/
theorem qcOk_iff (b : Bool) (os : List QcOpt) (args : List Str) :
    QcOk b os args ↔ ∃ v cmd rest d, qcOptions b {} os = .ok v ∧ args = cmd :: rest ∧ v.domain = some d ∧
      ¬ v.justExec.toNat + v.request.isSome.toNat + v.localProg.isSome.toNat > 1 ∧
      ¬ (v.localProg.isSome && v.stdinSocket) = true ∧
      ¬ (refersToDom0 d = true ∧ ∃ r, v.request = some r ∧ r.1.isEmpty = true) := by
  have hok := qcOptions_ok b os {}
  have hok' : (∃ v', qcOptions b {} os = .ok v') ↔ QcOptionsOk b os := by
    rw [hok]; exact Iff.rfl
  unfold QcOk
  rw [← hok']
  constructor
  · rintro ⟨⟨v, hv⟩, h1, h2, h3, h4, h5, h6, h7⟩
    obtain ⟨e1, e2, e3, -, -, -, -, -, e4, -, -⟩ := qcOptions_vars b os v hv
    have er := (qcOptions_request b os {} v hv).2 rfl
    cases args with
    | nil => exact absurd rfl h1
    | cons cmd rest =>
    cases hd : v.domain with
    | none => rw [hd] at e1; exact absurd (List.getLast?_eq_none_iff.1 e1.symm) h2
    | some d =>
    have hl : v.localProg.isSome = decide (localsOf os ≠ []) := by
      rw [e2]
      cases hx : (localsOf os).getLast? with
      | none => simp [List.getLast?_eq_none_iff.1 hx]
      | some x =>
        have : localsOf os ≠ [] := by intro q; rw [q] at hx; cases hx
        simp [this]
    have hr : v.request.isSome = decide (connectsOf os ≠ []) := by
      rcases er with ⟨q1, q2⟩ | ⟨s, id, name, n, q1, -, -, -, q2⟩
      · simp [q1, q2]
      · simp [q1, q2]
    refine ⟨v, cmd, rest, d, hv, rfl, hd, ?_, ?_, ?_⟩
    · rw [e3, hl, hr]
      by_cases a1 : QcOpt.justExec ∈ os <;> by_cases a2 : connectsOf os = [] <;> by_cases a3 : localsOf os = [] <;>
        simp_all
    · rw [hl, e4]
      intro q
      rw [Bool.and_eq_true, decide_eq_true_eq, decide_eq_true_eq] at q
      exact h6 q
    · rintro ⟨q1, r, q2, q3⟩
      rcases er with ⟨x, -⟩ | ⟨s, id, name, n, x1, x2, -, -, x3⟩
      · rw [q2] at x; cases x
      rw [q2] at x3
      cases x3
      obtain ⟨t, rfl, -⟩ := x2
      have : id = [] := by simpa using q3
      refine h7 d _ (by rw [← e1, hd]) ((dom0Names_iff d).1 q1) (by rw [x1]; exact List.mem_cons_self) ?_
      rw [this]
      rfl
  · rintro ⟨v, cmd, rest, d, hv, rfl, hd, g1, g2, g3⟩
    obtain ⟨e1, e2, e3, -, -, -, -, -, e4, -, -⟩ := qcOptions_vars b os v hv
    have er := (qcOptions_request b os {} v hv).2 rfl
    have hl : v.localProg.isSome = decide (localsOf os ≠ []) := by
      rw [e2]
      cases hx : (localsOf os).getLast? with
      | none => simp [List.getLast?_eq_none_iff.1 hx]
      | some x =>
        have : localsOf os ≠ [] := by intro q; rw [q] at hx; cases hx
        simp [this]
    have hr : v.request.isSome = decide (connectsOf os ≠ []) := by
      rcases er with ⟨q1, q2⟩ | ⟨s, id, name, n, q1, -, -, -, q2⟩
      · simp [q1, q2]
      · simp [q1, q2]
    rw [e3, hl, hr] at g1
    rw [hl, e4] at g2
    refine ⟨⟨v, hv⟩, by simp, ?_, ?_, ?_, ?_, ?_, ?_⟩
    · intro q; rw [e1, q] at hd; cases hd
    · rintro ⟨q1, q2⟩; apply g1; by_cases q3 : localsOf os = [] <;> simp [q1, q2, q3]
    · rintro ⟨q1, q2⟩; apply g1; by_cases q3 : connectsOf os = [] <;> simp [q1, q2, q3]
    · rintro ⟨q1, q2⟩; apply g1; by_cases q3 : QcOpt.justExec ∈ os <;> simp [q1, q2, q3]
    · rintro ⟨q1, q2⟩; apply g2; simp [q1, q2]
    · intro d' s x1 x2 x3
      rw [← e1, hd] at x1
      cases x1
      rcases er with ⟨-, y⟩ | ⟨s', id, name, n, y1, y2, -, -, y3⟩
      · rw [y] at x3; cases x3
      rw [y1] at x3
      obtain rfl := List.mem_singleton.1 x3
      have hid : id ≠ [] := fun q => g3 ⟨(dom0Names_iff d).2 x2, _, y3, by simp [q]⟩
      obtain ⟨t, rfl, z1, -⟩ := y2
      cases id with
      | nil => exact absurd rfl hid
      | cons c id =>
        intro q
        apply z1
        have : c = ',' := by simpa using q
        simp [this]

/-- **C75, the command line.** Nothing is done if the command line makes no sense. -/
theorem C75_refused (w : QcWorld) (os : List QcOpt) (args : List Str) (h : ¬ QcOk w.stdinStream os args) :
    ∃ st, qcMain w os args = ([], .exit st, []) ∧ st ≤ 2 := by
  rw [qcOk_iff] at h
  unfold qcMain
  cases hv : qcOptions w.stdinStream {} os with
  | error st =>
    refine ⟨st, rfl, ?_⟩
    have : ∀ (os : List QcOpt) (v : QcVars), qcOptions w.stdinStream v os = .error st → st ≤ 2 := by
      intro os
      induction os with
      | nil => intro v h; cases h
      | cons o os ih =>
        intro v h
        rw [qcOptions] at h
        cases ho : qcOption w.stdinStream v o with
        | ok v1 => rw [ho] at h; exact ih v1 h
        | error st' =>
          rw [ho] at h
          cases h
          cases o with
          | connect s =>
            simp only [qcOption] at ho
            split_ifs at ho with h0
            · cases ho; decide
            · cases hp : parseConnect s with
              | none => rw [hp] at ho; cases ho; decide
              | some r =>
                rw [hp] at ho
                dsimp only at ho
                split_ifs at ho
                cases ho; decide
          | timeout s =>
            simp only [qcOption] at ho
            cases hp : parseInt s with
            | none => rw [hp] at ho; cases ho; decide
            | some r => rw [hp] at ho; cases ho
          | prefixData s =>
            simp only [qcOption] at ho
            split_ifs at ho
            cases ho; decide
          | useStdinSocket =>
            simp only [qcOption] at ho
            split_ifs at ho <;> (cases ho; decide)
          | help => cases ho; decide
          | _ => cases ho
    exact this os {} hv
  | ok v =>
    dsimp only
    cases args with
    | nil => exact ⟨1, rfl, by decide⟩
    | cons cmd rest =>
    cases hd : v.domain with
    | none => exact ⟨1, rfl, by decide⟩
    | some d =>
      dsimp only
      by_cases g1 : v.justExec.toNat + v.request.isSome.toNat + v.localProg.isSome.toNat > 1
      · rw [if_pos g1]; exact ⟨1, rfl, by decide⟩
      rw [if_neg g1]
      by_cases g2 : (v.localProg.isSome && v.stdinSocket) = true
      · rw [if_pos g2]; exact ⟨1, rfl, by decide⟩
      rw [if_neg g2]
      have g3 : refersToDom0 d = true ∧ ∃ r, v.request = some r ∧ r.1.isEmpty = true := by
        by_contra q
        exact h ⟨v, cmd, rest, d, hv, rfl, hd, g1, g2, q⟩
      obtain ⟨g3, r, g4, g5⟩ := g3
      rw [if_pos g3, g4]
      dsimp only
      rw [if_pos g5]
      exact ⟨1, rfl, by decide⟩

/-- An accepted command line: the rest of `main`. -/
theorem qcMain_ok (w : QcWorld) (os : List QcOpt) (cmd : Str) (rest : List Str) (d : Str)
    (h : QcOk w.stdinStream os (cmd :: rest)) (hd : (domainsOf os).getLast? = some d) :
    ∃ v, qcOptions w.stdinStream {} os = .ok v ∧
      qcMain w os (cmd :: rest) =
        if refersToDom0 d = true then
          match v.request with
          | some r => let x := qcToDom0 w v r cmd; (x.1, x.2, [])
          | none => ([], qcDom0 w v cmd, [])
        else match v.request with
          | some r =>
            let x := executeVm d false r.2.2 (cmd ++ ['\x00']) r.1 v.justExec v.waitEnd (startsWith c!"uuid:" d) w.ex
            (x.1.map .ex, .exit (if x.2 then 0 else 137), [])
          | none =>
            let x := qcToVm w v d cmd
            (x.1, x.2, qcKill v.kill d x.2) := by
  obtain ⟨v, cmd', rest', d', hv, e, e1, g1, g2, g3⟩ := (qcOk_iff _ _ _).1 h
  cases e
  have : d' = d := by
    have := (qcOptions_vars _ _ _ hv).1
    rw [e1, hd] at this
    cases this; rfl
  subst this
  refine ⟨v, hv, ?_⟩
  unfold qcMain
  rw [hv]
  dsimp only
  rw [e1]
  dsimp only
  rw [if_neg g1, if_neg g2]
  by_cases hr : refersToDom0 d' = true
  · rw [if_pos hr, if_pos hr]
    cases hq : v.request with
    | none => rfl
    | some r =>
      dsimp only
      rw [if_neg (fun q => g3 ⟨hr, r, hq, q⟩)]
  · rw [if_neg hr, if_neg hr]
    cases hq : v.request with
    | none => rfl
    | some r => rfl

/-! ## A command in a qube -/

/-- **C75, a command in a qube.** One daemon is connected to, that of the qube, and gets one message with the command (only if
it can be reached); nothing else is sent to anyone. The local command of `-l` is started only when the daemon has answered.
The qube is killed at the end if and only if `-k` was given (and the program has not died). -/
theorem C75_qube (w : QcWorld) (os : List QcOpt) (cmd : Str) (rest : List Str) (d : Str)
    (h : QcOk w.stdinStream os (cmd :: rest)) (hd : (domainsOf os).getLast? = some d) (hn : d ∉ dom0Names)
    (hc : connectsOf os = []) : ∃ acts e kills, qcMain w os (cmd :: rest) = (acts, e, kills) ∧
      exBy acts = [] ∧ killedBy acts = [] ∧ socketsBy acts = [socketDir os ++ c!"/qrexec." ++ d] ∧
      sentBy acts = (if w.connect = true then [(if .justExec ∈ os then 0x201 else 0x200, 0, cmd ++ ['\x00'])] else []) ∧
      (∀ x ∈ startedBy acts, w.connect = true ∧ w.negotiate ≠ none ∧
        ∃ l, (localsOf os).getLast? = some l ∧ CommandText false l x.1) ∧ (startedBy acts).length ≤ 1 ∧
      (∀ n ∈ remotesBy acts, n = d) ∧
      (.kill ∈ os → e ≠ .crash → kills = [.kill d]) ∧ (.kill ∉ os ∨ e = .crash → kills = []) := by
  obtain ⟨v, hv, e⟩ := qcMain_ok w os cmd rest d h hd
  have hdn : ¬ refersToDom0 d = true := fun q => hn ((dom0Names_iff d).1 q)
  rw [if_neg hdn] at e
  obtain ⟨-, e2, e3, -, -, -, -, e8, -, e10, -⟩ := qcOptions_vars _ os v hv
  have hr : v.request = none := by
    rcases (qcOptions_request _ os {} v hv).2 rfl with ⟨q, -⟩ | ⟨s, _, _, _, q, -⟩
    · exact q
    · rw [hc] at q; cases q
  rw [hr] at e
  dsimp only at e
  refine ⟨_, _, _, e, ?_⟩
  have hk : (.kill ∈ os → (qcToVm w v d cmd).2 ≠ .crash → qcKill v.kill d (qcToVm w v d cmd).2 = [.kill d]) ∧
      (.kill ∉ os ∨ (qcToVm w v d cmd).2 = .crash → qcKill v.kill d (qcToVm w v d cmd).2 = []) := by
    rw [e10]
    generalize (qcToVm w v d cmd).2 = z
    constructor
    · intro q1 q2
      cases z <;> simp_all [qcKill]
    · rintro (q | rfl)
      · cases z <;> simp [qcKill, q]
      · rfl
  have hsock : daemonSocket v.dir d = socketDir os ++ c!"/qrexec." ++ d := by rw [e8]; rfl
  have hty : (if v.justExec = true then msgJustExec else msgExec) = if QcOpt.justExec ∈ os then 0x201 else 0x200 := by
    rw [e3]
    by_cases q : QcOpt.justExec ∈ os
    · rw [if_pos q, if_pos (by simpa using q)]; rfl
    · rw [if_neg q, if_neg (by simpa using q)]; rfl
  suffices hs : exBy (qcToVm w v d cmd).1 = [] ∧ killedBy (qcToVm w v d cmd).1 = [] ∧
      socketsBy (qcToVm w v d cmd).1 = [daemonSocket v.dir d] ∧
      sentBy (qcToVm w v d cmd).1 = (if w.connect = true then [(if v.justExec = true then msgJustExec else msgExec, 0, cmd ++ ['\x00'])] else []) ∧
      (∀ x ∈ startedBy (qcToVm w v d cmd).1, w.connect = true ∧ w.negotiate ≠ none ∧ ∃ l, v.localProg = some l ∧ CommandText false l x.1) ∧
      (startedBy (qcToVm w v d cmd).1).length ≤ 1 ∧ (∀ n ∈ remotesBy (qcToVm w v d cmd).1, n = d) by
    rw [hsock, hty, e2] at hs
    obtain ⟨h1, h2, h3, h4, h5, h6, h7⟩ := hs
    exact ⟨h1, h2, h3, h4, h5, h6, h7, hk.1, hk.2⟩
  generalize hty' : (if v.justExec = true then msgJustExec else msgExec) = ty
  unfold qcToVm
  rw [hty']
  dsimp only
  by_cases hw : w.connect = true
  rotate_left
  · have : (!w.connect) = true := by simpa using hw
    rw [if_pos this, if_neg hw]
    exact ⟨rfl, rfl, rfl, rfl, (fun x hx => nomatch hx), Nat.zero_le 1, (fun x hx => nomatch hx)⟩
  have hw' : ¬ (!w.connect) = true := by simpa using hw
  rw [if_neg hw', if_pos hw]
  cases hneg : w.negotiate with
  | none =>
    exact ⟨rfl, rfl, rfl, rfl, (fun x hx => nomatch hx), Nat.zero_le 1, (fun x hx => nomatch hx)⟩
  | some r =>
    dsimp only
    have hl : (qcLocal w v).2 = [] ∨ ∃ l c r, v.localProg = some l ∧ CommandText false l c ∧ (qcLocal w v).2 = [.startLocal c r] := by
      unfold qcLocal
      cases v.localProg with
      | none => exact .inl rfl
      | some l =>
        dsimp only
        cases hp : parseRpcCommand false l with
        | none => exact .inl rfl
        | some c => exact .inr ⟨l, c, _, rfl, (C50_parse _ _ _).1 hp, rfl⟩
    rcases hl with hl | ⟨l, c, r, hl1, hl2, hl3⟩
    · rw [hl]
      exact ⟨rfl, rfl, rfl, rfl, (fun x hx => nomatch hx), Nat.zero_le 1, fun x hx => List.mem_singleton.1 hx⟩
    · rw [hl3]
      refine ⟨rfl, rfl, rfl, rfl, fun x hx => ?_, Nat.le_refl 1, fun x hx => List.mem_singleton.1 hx⟩
      obtain rfl := List.mem_singleton.1 hx
      exact ⟨hw, by simp, l, hl1, hl2⟩

/-- **C75, the data.** If the daemon can be reached and answers, the connection is made in time and the versions agree, data is
exchanged with the local command or, without one, with the streams of the caller, as the options say; if one of these fails
the exit status is 125. -/
theorem C75_qube_data (w : QcWorld) (os : List QcOpt) (cmd : Str) (rest : List Str) (d : Str)
    (h : QcOk w.stdinStream os (cmd :: rest)) (hd : (domainsOf os).getLast? = some d) (hn : d ∉ dom0Names)
    (hc : connectsOf os = []) :
    (w.connect = false ∨ w.negotiate = none ∨ w.vchan = false ∨ w.handshake = none → (qcMain w os (cmd :: rest)).2.1 = .exit 125) ∧
    (∀ version, w.connect = true → w.negotiate ≠ none → w.vchan = true → w.handshake = some version →
      (localsOf os = [] → (qcMain w os (cmd :: rest)).2.1 =
        .io (qubeIo os version false)
          (decide (.useStdinSocket ∈ os)) [] ((pfxsOf os).getLast?.getD []) (!decide (.noExitCode ∈ os))) ∧
      (∀ l c, (localsOf os).getLast? = some l → CommandText false l c → executeParsed w.start c true = .process →
        (qcMain w os (cmd :: rest)).2.1 =
        .io (qubeIo os version true)
          false [] ((pfxsOf os).getLast?.getD []) (!decide (.noExitCode ∈ os))) ∧
      (∀ l c first, (localsOf os).getLast? = some l → CommandText false l c → executeParsed w.start c true = .socket first →
        (qcMain w os (cmd :: rest)).2.1 =
        .io (qubeIo os version false)
          true first ((pfxsOf os).getLast?.getD []) (!decide (.noExitCode ∈ os))) ∧
      (∀ l, (localsOf os).getLast? = some l → (¬ ∃ c, CommandText false l c) → (qcMain w os (cmd :: rest)).2.1 = .crash) ∧
      (∀ l c st, (localsOf os).getLast? = some l → CommandText false l c → executeParsed w.start c true = .fails st →
        (qcMain w os (cmd :: rest)).2.1 = .crash)) := by
  have hq := h.2.2.2.2.2.2.1
  obtain ⟨v, hv, e⟩ := qcMain_ok w os cmd rest d h hd
  have hdn : ¬ refersToDom0 d = true := fun q => hn ((dom0Names_iff d).1 q)
  rw [if_neg hdn] at e
  obtain ⟨-, e2, -, e4, e5, e6, -, -, e9, -, e11⟩ := qcOptions_vars _ os v hv
  have hr : v.request = none := by
    rcases (qcOptions_request _ os {} v hv).2 rfl with ⟨q, -⟩ | ⟨s, _, _, _, q, -⟩
    · exact q
    · rw [hc] at q; cases q
  rw [hr] at e
  dsimp only at e
  rw [e]
  dsimp only
  have key : w.connect = true → w.negotiate ≠ none → (qcToVm w v d cmd).2 = qcGo w v (qcLocal w v).1 := by
    intro q1 q2
    unfold qcToVm
    dsimp only
    rw [if_neg (by simp [q1])]
    cases hx : w.negotiate with
    | none => exact absurd hx q2
    | some r => rfl
  have go : ∀ version, w.vchan = true → w.handshake = some version → ∀ r, qcGo w v r = match r with
      | .fails _ => .crash
      | .process =>
        .io { isService := false, hasPid := v.localProg.isSome, replaceOut := v.filterOut, replaceErr := v.filterErr,
              maxChunk := maxDataChunk version } v.stdinSocket [] (v.pfx.getD []) v.exitWithCode
      | .socket first =>
        .io { isService := false, hasPid := false, replaceOut := v.filterOut, replaceErr := v.filterErr,
              maxChunk := maxDataChunk version } true first (v.pfx.getD []) v.exitWithCode := by
    intro version q1 q2 r
    unfold qcGo
    rw [if_neg (by simp [q1]), q2]
    cases r <;> rfl
  have loc : ∀ l c, (localsOf os).getLast? = some l → CommandText false l c →
      (qcLocal w v).1 = executeParsed w.start c true ∧ v.localProg.isSome = true ∧ v.stdinSocket = false := by
    intro l c q1 q2
    have q3 : v.localProg = some l := by rw [e2, q1]
    unfold qcLocal
    rw [q3]
    dsimp only
    rw [(C50_parse _ _ _).2 q2]
    refine ⟨rfl, rfl, ?_⟩
    rw [e9]
    refine decide_eq_false fun q => hq ⟨?_, q⟩
    intro z; rw [z] at q1; cases q1
  constructor
  · intro q
    by_cases q1 : w.connect = true
    rotate_left
    · unfold qcToVm
      dsimp only
      rw [if_pos (by simpa using q1)]
    by_cases q2 : w.negotiate = none
    · unfold qcToVm
      dsimp only
      rw [if_neg (by simp [q1]), q2]
    rw [key q1 q2]
    unfold qcGo
    by_cases q3 : w.vchan = true
    rotate_left
    · rw [if_pos (by simpa using q3)]
    rw [if_neg (by simp [q3])]
    rcases q with q | q | q | q
    · rw [q] at q1; cases q1
    · exact absurd q q2
    · rw [q] at q3; cases q3
    · rw [q]
  · intro version q1 q2 q3 q4
    rw [key q1 q2]
    rw [go version q3 q4]
    refine ⟨?_, ?_, ?_, ?_, ?_⟩
    · intro z
      have z1 : v.localProg = none := by rw [e2, z]; rfl
      have z2 : (qcLocal w v).1 = .process := by unfold qcLocal; rw [z1]
      rw [z2]
      dsimp only
      rw [z1, e4, e5, e6, e9, e11]
      rfl
    · intro l c z1 z2 z3
      obtain ⟨y1, y2, y3⟩ := loc l c z1 z2
      rw [y1, z3]
      dsimp only
      rw [y2, y3, e4, e5, e6, e11]
      rfl
    · intro l c first z1 z2 z3
      obtain ⟨y1, y2, y3⟩ := loc l c z1 z2
      rw [y1, z3]
      dsimp only
      rw [e4, e5, e6, e11]
      rfl
    · intro l z1 z2
      have z3 : v.localProg = some l := by rw [e2, z1]
      have z4 : (qcLocal w v).1 = .fails 125 := by
        unfold qcLocal
        rw [z3]
        dsimp only
        cases hp : parseRpcCommand false l with
        | none => rfl
        | some c => exact absurd ⟨c, (C50_parse _ _ _).1 hp⟩ z2
      rw [z4]
    · intro l c st z1 z2 z3
      rw [(loc l c z1 z2).1, z3]

/-! ## A request of another qube -/

/-- **C75, a request in a qube.** With `-c`, the daemon of the qube gets the command in the name of the source, and then the
daemon of the source learns who answers the request. No qube is started, created or killed; a disposable cannot be the target.
The exit status is 0 if all of this has succeeded and 137 otherwise. -/
theorem C75_connect (w : QcWorld) (os : List QcOpt) (cmd : Str) (rest : List Str) (d s id name : Str) (n : Nat)
    (h : QcOk w.stdinStream os (cmd :: rest)) (hd : (domainsOf os).getLast? = some d) (hn : d ∉ dom0Names)
    (hc : connectsOf os = [s]) (hs : ConnectText s id name n) :
    (cmd = [] ∨ cmd.length > 65534 ∨ c!"@dispvm:" <+: d → qcMain w os (cmd :: rest) = ([], .exit 137, [])) ∧
    (cmd ≠ [] → cmd.length ≤ 65534 → ¬ c!"@dispvm:" <+: d →
      ∃ st, qcMain w os (cmd :: rest) = ((connectActs w.ex d n (cmd ++ ['\x00']) id (decide (.waitEnd ∈ os))).map .ex, .exit st, []) ∧
        (w.ex.connect1 = .ok ∧ w.ex.negotiate ≠ none ∧ w.ex.source = true ∧ w.ex.send = true → st = 0) ∧
        (¬ (w.ex.connect1 = .ok ∧ w.ex.negotiate ≠ none ∧ w.ex.source = true ∧ w.ex.send = true) → st = 137)) := by
  have hj := h.2.2.2.1
  obtain ⟨v, hv, e⟩ := qcMain_ok w os cmd rest d h hd
  have hdn : ¬ refersToDom0 d = true := fun q => hn ((dom0Names_iff d).1 q)
  rw [if_neg hdn] at e
  obtain ⟨-, e2, e3, e4, e5, e6, e7, -, e9, -, e11⟩ := qcOptions_vars _ os v hv
  have hr : v.request = some (id, name, n) := by
    rcases (qcOptions_request _ os {} v hv).2 rfl with ⟨-, q⟩ | ⟨s', id', name', n', q, q1, -, -, q2⟩
    · rw [hc] at q; cases q
    · rw [hc] at q
      cases q
      have z1 := (parseConnect_iff _ _ _ _).2 hs
      have z2 := (parseConnect_iff _ _ _ _).2 q1
      rw [z1] at z2
      cases z2
      exact q2
  have hje : v.justExec = false := by
    rw [e3]
    refine decide_eq_false fun q => hj ⟨q, ?_⟩
    rw [hc]; simp
  rw [hr, hje, e7] at e
  dsimp only at e
  rw [e]
  have hlen : (cmd ++ ['\x00']).length = cmd.length + 1 := by simp
  have hpre : startsWith c!"@dispvm:" d = true ↔ c!"@dispvm:" <+: d := List.isPrefixOf_iff_prefix
  unfold executeVm
  rw [hlen]
  constructor
  · intro q
    by_cases q0 : (decide (cmd.length + 1 < 2) || decide (cmd.length + 1 > 65535)) = true
    · rw [if_pos q0]; rfl
    · rw [if_neg q0]
      rw [Bool.or_eq_true, decide_eq_true_eq, decide_eq_true_eq] at q0
      rcases q with q | q | q
      · rw [q] at q0; exact absurd (.inl (by decide)) q0
      · exact absurd (.inr (by omega)) q0
      · rw [if_pos (hpre.2 q)]; rfl
  · intro q1 q2 q3
    have q1' : 1 ≤ cmd.length := by cases cmd with | nil => exact absurd rfl q1 | cons c t => simp
    rw [if_neg (by rw [Bool.or_eq_true, decide_eq_true_eq, decide_eq_true_eq]; omega), if_neg (fun q => q3 (hpre.1 q))]
    unfold exRun exTalk connectActs exKill
    by_cases hall : w.ex.connect1 = .ok ∧ w.ex.negotiate ≠ none ∧ w.ex.source = true ∧ w.ex.send = true
    · refine ⟨0, ?_, fun _ => rfl, fun q => absurd hall q⟩
      obtain ⟨z1, z2, z3, z4⟩ := hall
      cases hng : w.ex.negotiate with
      | none => exact absurd hng z2
      | some r =>
        obtain ⟨a, b⟩ := r
        by_cases hw : QcOpt.waitEnd ∈ os <;> simp [hw, z1, z3, z4, msgExec]
    · refine ⟨137, ?_, fun q => absurd q hall, fun _ => rfl⟩
      cases hc1 : w.ex.connect1 <;> cases hng : w.ex.negotiate <;> cases hsr : w.ex.source <;> cases hsn : w.ex.send <;>
        by_cases hw : QcOpt.waitEnd ∈ os <;> simp [hw, msgExec] <;> simp [hc1, hng, hsr, hsn] at hall

/-- **C75, a request in dom0.** The daemon of the source (and no one else) learns that the request is answered, and only then
the service is started, with the name of the source in the environment. -/
theorem C75_dom0_call (w : QcWorld) (os : List QcOpt) (cmd : Str) (rest : List Str) (d s id name : Str) (n : Nat)
    (h : QcOk w.stdinStream os (cmd :: rest)) (hd : (domainsOf os).getLast? = some d) (hn : d ∈ dom0Names)
    (hc : connectsOf os = [s]) (hs : ConnectText s id name n) :
    ∃ acts e, qcMain w os (cmd :: rest) = (acts, e, []) ∧
      exBy acts = [] ∧ killedBy acts = [] ∧ socketsBy acts = [socketDir os ++ c!"/qrexec." ++ printDec n] ∧
      sentBy acts = (if w.connect = true then [(0x202, 0, identField id)] else []) ∧ remotesBy acts = [name] ∧
      (startedBy acts).length ≤ 1 ∧
      (∀ x ∈ startedBy acts, w.connect = true ∧ w.negotiate ≠ none ∧ CommandText false cmd x.1 ∧
        ∃ conf, dom0Conf w.load x.1 = some conf ∧ x.2 = executeParsed w.start x.1 conf.sendDescriptor) ∧
      (w.connect = false ∨ w.negotiate = none ∨ w.vchan = false ∨ w.handshake = none → e = .exit 125) ∧
      (∀ version, w.connect = true → w.negotiate ≠ none → w.vchan = true → w.handshake = some version →
        ((¬ ∃ c, CommandText false cmd c) → e = .crash) ∧
        (∀ c, CommandText false cmd c →
          (∀ msgs st, dom0Serve w.start w.load (some c) version = .atOnce msgs st → e = .exit (exitStatus st)) ∧
          (∀ io socket hasErr buf, dom0Serve w.start w.load (some c) version = .io io socket hasErr buf →
            e = .io io socket buf ((pfxsOf os).getLast?.getD []) (!decide (.noExitCode ∈ os))))) := by
  obtain ⟨v, hv, e⟩ := qcMain_ok w os cmd rest d h hd
  rw [if_pos ((dom0Names_iff d).2 hn)] at e
  obtain ⟨-, -, -, e4, -, -, -, e8, -, -, e11⟩ := qcOptions_vars _ os v hv
  have hr : v.request = some (id, name, n) := by
    rcases (qcOptions_request _ os {} v hv).2 rfl with ⟨-, q⟩ | ⟨s', id', name', n', q, q1, -, -, q2⟩
    · rw [hc] at q; cases q
    · rw [hc] at q
      cases q
      have z1 := (parseConnect_iff _ _ _ _).2 hs
      have z2 := (parseConnect_iff _ _ _ _).2 q1
      rw [z1] at z2
      cases z2
      exact q2
  rw [hr] at e
  dsimp only at e
  have hsock : daemonSocket v.dir (printDec n) = socketDir os ++ c!"/qrexec." ++ printDec n := by rw [e8]; rfl
  refine ⟨_, _, e, ?_⟩
  unfold qcToDom0
  dsimp only
  rw [hsock]
  by_cases hw : w.connect = true
  rotate_left
  · rw [if_pos (by simpa using hw), if_neg hw]
    exact ⟨rfl, rfl, rfl, rfl, rfl, Nat.zero_le 1, (fun x hx => nomatch hx), fun _ => rfl, fun _ q => absurd q hw⟩
  rw [if_neg (by simp [hw]), if_pos hw]
  cases hng : w.negotiate with
  | none =>
    exact ⟨rfl, rfl, rfl, rfl, rfl, Nat.zero_le 1, (fun x hx => nomatch hx), fun _ => rfl, fun _ _ q => absurd rfl q⟩
  | some r =>
    dsimp only
    have hst : qcStart w cmd = [] ∨ ∃ c conf, CommandText false cmd c ∧ dom0Conf w.load c = some conf ∧
        qcStart w cmd = [.startLocal c (executeParsed w.start c conf.sendDescriptor)] := by
      unfold qcStart
      cases hp : parseRpcCommand false cmd with
      | none => exact .inl rfl
      | some c =>
        dsimp only
        cases hcf : dom0Conf w.load c with
        | none => left; rfl
        | some conf =>
          right
          refine ⟨c, conf, (C50_parse _ _ _).1 hp, hcf, ?_⟩
          rw [if_pos (show (some conf).isSome = true from rfl)]
          unfold prepareLocal
          dsimp only
          rw [hcf]
    have hend : (w.connect = false ∨ some r = none ∨ w.vchan = false ∨ w.handshake = none → qcServe w v cmd = .exit 125) ∧
      (∀ version, w.connect = true → some r ≠ none → w.vchan = true → w.handshake = some version →
        ((¬ ∃ c, CommandText false cmd c) → qcServe w v cmd = .crash) ∧
        (∀ c, CommandText false cmd c →
          (∀ msgs st, dom0Serve w.start w.load (some c) version = .atOnce msgs st → qcServe w v cmd = .exit (exitStatus st)) ∧
          (∀ io socket hasErr buf, dom0Serve w.start w.load (some c) version = .io io socket hasErr buf →
            qcServe w v cmd = .io io socket buf ((pfxsOf os).getLast?.getD []) (!decide (.noExitCode ∈ os))))) := by
      unfold qcServe
      constructor
      · intro q
        by_cases q3 : w.vchan = true
        rotate_left
        · rw [if_pos (by simpa using q3)]
        rw [if_neg (by simp [q3])]
        rcases q with q | q | q | q
        · rw [q] at hw; cases hw
        · cases q
        · rw [q] at q3; cases q3
        · rw [q]
      · intro version _ _ q3 q4
        rw [if_neg (by simp [q3]), q4]
        dsimp only
        refine ⟨fun q => ?_, fun c q => ⟨fun msgs st z => ?_, fun io socket hasErr buf z => ?_⟩⟩
        · cases hp : parseRpcCommand false cmd with
          | none => rfl
          | some c => exact absurd ⟨c, (C50_parse _ _ _).1 hp⟩ q
        · rw [(C50_parse _ _ _).2 q, z]
        · rw [(C50_parse _ _ _).2 q, z]
          dsimp only
          rw [e11, e4]
    rcases hst with hst | ⟨c, conf, h1, h2, h3⟩
    · rw [hst]
      exact ⟨rfl, rfl, rfl, rfl, rfl, Nat.zero_le 1, (fun x hx => nomatch hx), hend.1, hend.2⟩
    · rw [h3]
      refine ⟨rfl, rfl, rfl, rfl, rfl, Nat.le_refl 1, fun x hx => ?_, hend.1, hend.2⟩
      obtain rfl := List.mem_singleton.1 hx
      exact ⟨hw, by simp, h1, conf, h2, rfl⟩

/-- The command line is a call of a service of dom0 for which `P` holds. -/
def DomCall (w : QcWorld) (os : List QcOpt) (cmd : Str) (P : RpcCmd → RpcService → SvcConf → Prop) : Prop :=
  ∃ t c s conf, localsOf os = [] ∧ cmd = c!"DEFAULT:" ++ t ∧ CommandText false t c ∧ c.service = some s ∧
    dom0Conf w.load c = some conf ∧ P c s conf

/-- **C75, dom0 calls dom0.** No daemon is asked. The program at the first place for the service is run in place of this one,
if the command line is "DEFAULT:", then a service call; the exit status is 127 only if there is nothing at any place, and
125 for everything else. -/
theorem C75_dom0_dom0 (w : QcWorld) (os : List QcOpt) (cmd : Str) (rest : List Str) (d : Str)
    (h : QcOk w.stdinStream os (cmd :: rest)) (hd : (domainsOf os).getLast? = some d) (hn : d ∈ dom0Names)
    (hc : connectsOf os = []) :
    ∃ e, qcMain w os (cmd :: rest) = ([], e, []) ∧
      ((∃ p command, e = .becomes p command ∧ DomCall w os cmd fun c s conf => command = c.command ∧ conf.user = none ∧
          FirstPlace true w.start.fs (servicePlaces (pathDirs w.start.pathList) s) p ∧ FileAt true w.start.fs p (.other true)) ∨
        (e = .exit 127 ∧ DomCall w os cmd fun _ s _ => ServiceAbsent w.start s) ∨ e = .exit 125 ∨
        (e = .crash ∧ DomCall w os cmd fun _ _ conf => conf.user ≠ none)) ∧
      (∀ t c s conf, localsOf os = [] → cmd = c!"DEFAULT:" ++ t → CommandText false t c → c.service = some s →
        dom0Conf w.load c = some conf → (∀ q ∈ servicePlaces (pathDirs w.start.pathList) s, q.length < w.start.bufSize) →
        (ServiceAbsent w.start s → e = .exit 127) ∧
        (∀ p, conf.user = none → FirstPlace true w.start.fs (servicePlaces (pathDirs w.start.pathList) s) p →
          FileAt true w.start.fs p (.other true) → e = .becomes p c.command)) := by
  obtain ⟨v, hv, e⟩ := qcMain_ok w os cmd rest d h hd
  rw [if_pos ((dom0Names_iff d).2 hn)] at e
  obtain ⟨-, e2, -⟩ := qcOptions_vars _ os v hv
  have hr : v.request = none := by
    rcases (qcOptions_request _ os {} v hv).2 rfl with ⟨q, -⟩ | ⟨s, _, _, _, q, -⟩
    · exact q
    · rw [hc] at q; cases q
  rw [hr] at e
  dsimp only at e
  refine ⟨_, e, ?_⟩
  have hpre : startsWith c!"DEFAULT:" cmd = true ↔ ∃ t, cmd = c!"DEFAULT:" ++ t := startsWith_iff
  constructor
  · unfold qcDom0
    by_cases q1 : v.localProg.isSome = true
    · rw [if_pos q1]; exact .inr (.inr (.inl rfl))
    rw [if_neg q1]
    by_cases q2 : startsWith c!"DEFAULT:" cmd = true
    rotate_left
    · rw [if_pos (by simpa using q2)]; exact .inr (.inr (.inl rfl))
    rw [if_neg (by simp [q2])]
    obtain ⟨t, ht⟩ := hpre.1 q2
    have hdrop : cmd.drop 8 = t := by rw [ht]; rfl
    rw [hdrop]
    cases hp : parseRpcCommand false t with
    | none => exact .inr (.inr (.inl rfl))
    | some c =>
      dsimp only
      cases hsv : c.service with
      | none => exact .inr (.inr (.inl rfl))
      | some s =>
        dsimp only
        cases hcf : dom0Conf w.load c with
        | none => exact .inr (.inr (.inl rfl))
        | some conf =>
          dsimp only
          have hl0 : localsOf os = [] := by
            have : v.localProg = none := by simpa using q1
            rw [e2] at this
            exact List.getLast?_eq_none_iff.1 this
          have call : ∀ P : RpcCmd → RpcService → SvcConf → Prop, P c s conf → DomCall w os cmd P :=
            fun P hP => ⟨t, c, s, conf, hl0, ht, (C50_parse _ _ _).1 hp, hsv, hcf, hP⟩
          have hsp := C65_service w.start.fs w.start.bufSize w.start.pathList false conf.sendDescriptor w.start.connects c.command s
          cases hf : findService w.start.fs w.start.bufSize w.start.pathList false conf.sendDescriptor w.start.connects c.command s with
          | failed => exact .inr (.inr (.inl rfl))
          | notFound =>
            rw [hf] at hsp
            exact .inr (.inl ⟨rfl, call _ hsp⟩)
          | unix a b => exact .inr (.inr (.inl rfl))
          | tcp a b c => exact .inr (.inr (.inl rfl))
          | exec p =>
            rw [hf] at hsp
            dsimp only
            by_cases hu : conf.user.isSome = true
            · rw [if_pos hu]
              exact .inr (.inr (.inr ⟨rfl, call _ (by intro z; rw [z] at hu; cases hu)⟩))
            · rw [if_neg hu]
              exact .inl ⟨p, _, rfl, call _ ⟨rfl, by simpa using hu, hsp.1, hsp.2⟩⟩
  · intro t c s conf hl0 ht htext hsv hcf hsize
    have q1 : v.localProg = none := by rw [e2, hl0]; rfl
    have hdrop : cmd.drop 8 = t := by rw [ht]; rfl
    have hq : qcDom0 w v cmd = match findService w.start.fs w.start.bufSize w.start.pathList false conf.sendDescriptor w.start.connects c.command s with
          | .failed => .exit 125
          | .notFound => .exit 127
          | .exec p => if conf.user.isSome then .crash else .becomes p c.command
          | .unix _ _ => .exit 125
          | .tcp _ _ _ => .exit 125 := by
      unfold qcDom0
      rw [q1, if_neg (by simp), if_neg (by simp [hpre.2 ⟨t, ht⟩]), hdrop, (C50_parse _ _ _).2 htext]
      dsimp only
      rw [hsv]
      dsimp only
      rw [hcf]
      dsimp only
      cases findService w.start.fs w.start.bufSize w.start.pathList false conf.sendDescriptor w.start.connects c.command s <;> rfl
    rw [hq]
    constructor
    · intro ha
      rw [(findService_notFound w.start false conf.sendDescriptor c.command s).2 ha hsize]
    · intro p hu h1 h2
      have : findService w.start.fs w.start.bufSize w.start.pathList false conf.sendDescriptor w.start.connects c.command s = .exec p := by
        unfold findService
        dsimp only
        rw [C65_found true _ _ _ s p (.other true) hsize h1 h2]
        rfl
      rw [this]
      dsimp only
      rw [hu]
      rfl

/-! ## Examples -/

def exQc : QcWorld :=
  { start := ⟨exFs, 4096, c!"/usr/local/etc/qubes-rpc:/etc/qubes-rpc", true, true, true, none⟩, load := fun _ => some {},
    ex := ⟨none, .ok, none, .failed, some (3, 513), true, true⟩, negotiate := some (3, 513) }

example : QcOk false [.domain c!"work", .localProg c!"ls"] [c!"user:echo"] :=
  (qcOk_iff _ _ _).2 ⟨_, _, _, _, rfl, rfl, rfl, by decide, by decide, by decide⟩
example : QcOk false [.connect c!"SOCKET7,personal,4", .domain c!"work"] [c!"user:echo"] :=
  (qcOk_iff _ _ _).2 ⟨_, _, _, _, rfl, rfl, rfl, by decide, by decide, by decide⟩
example : ConnectText c!"SOCKET7,personal,4" c!"SOCKET7" c!"personal" 4 := (parseConnect_iff _ _ _ _).1 rfl
example : QcOk false [.connect c!"SOCKET7,personal,4", .domain c!"dom0"] [c!"QUBESRPC svc+x personal"] :=
  (qcOk_iff _ _ _).2 ⟨_, _, _, _, rfl, rfl, rfl, by decide, by decide, by decide⟩
example : ¬ QcOk false [.connect c!"SOCKET7,dom0,4", .domain c!"work"] [c!"user:echo"] := by
  intro h
  obtain ⟨v, _, _, _, h, _⟩ := (qcOk_iff _ _ _).1 h
  cases h
set_option maxRecDepth 20000 in
example : (qcMain exQc [.connect c!"SOCKET7,personal,4", .domain c!"work"] [c!"user:echo"]).1 =
    [.ex (.connect c!"work"), .ex (.command 0x200 4 c!"user:echo\x00"), .ex (.connectSource 4),
     .ex (.serviceConnect 3 513 (identField c!"SOCKET7"))] := by decide
set_option maxRecDepth 20000 in
example : (qcMain exQc [.domain c!"work", .localProg c!"ls", .kill] [c!"user:echo"]).1 =
    [.connect c!"/var/run/qubes/qrexec.work", .send 0x200 0 c!"user:echo\x00", .remoteDomain c!"work",
     .startLocal ⟨none, false, c!"ls", none⟩ .process] ∧
    (qcMain exQc [.domain c!"work", .localProg c!"ls", .kill] [c!"user:echo"]).2.2 = [.kill c!"work"] := by decide
set_option maxRecDepth 20000 in
example : (qcMain exQc [.domain c!"dom0"] [c!"DEFAULT:QUBESRPC svc+x dom0"]).2.1 =
    .becomes c!"/etc/qubes-rpc/svc" c!"svc+x dom0" := by rfl

end Qrexec
