import Verif.Lemmas.Exec
import Verif.Props.Total

/-!
# C02, C03, C04, C13, C16, C18, C19, C20, C21, C46: the policy frontend
-/
namespace Qrexec
open Spec

/-- The request the frontend evaluates: as `mkRequest` with the service split at its first `+`. -/
abbrev requestOf (sa source target : Str) (info : Info) (rs : Str) : Except Err Request :=
  mkRequest (splitServiceArg sa).1 (splitServiceArg sa).2 source target info rs

theorem isRequest_of {service argument source target : Str} {info : Info} {rs : Str}
    {req : Request} (h : mkRequest service argument source target info rs = .ok req) :
    IsRequest req := by
  obtain ⟨h1, h2, h3, _, h4, _⟩ := mkRequest_ok h
  refine ⟨source, target, ?_⟩
  rw [h1, h2, h3, h4]; exact h

/-- The service call is split into service and argument at the first `+`; an argument is always
there, `+` if none was given. -/
theorem splitServiceArg_spec (sa : Str) :
    ('+' ∉ sa ∧ splitServiceArg sa = (sa, c!"+")) ∨
    ∃ s a, '+' ∉ s ∧ sa = s ++ '+' :: a ∧ splitServiceArg sa = (s, '+' :: a) := by
  by_cases h : '+' ∈ sa
  · obtain ⟨s, a, rfl, hs⟩ : ∃ s a, sa = s ++ '+' :: a ∧ '+' ∉ s := by
      induction sa with
      | nil => simp at h
      | cons c cs ih =>
        by_cases hc : c = '+'
        · exact ⟨[], cs, by simp [hc], by simp⟩
        · obtain ⟨s, a, rfl, hs⟩ := ih (by simpa [Ne.symm hc] using h)
          exact ⟨c :: s, a, rfl, by simp [hs, Ne.symm hc]⟩
    exact Or.inr ⟨s, a, hs, rfl, by simp [splitServiceArg, splitOnce_append hs]⟩
  · have : splitOnce '+' sa = none := by
      induction sa with
      | nil => rfl
      | cons c cs ih =>
        simp only [List.mem_cons, not_or] at h
        simp [splitOnce, Ne.symm h.1, ih h.2]
    exact Or.inl ⟨h, by simp [splitServiceArg, this]⟩

theorem splitServiceArg_plus (sa : Str) : startsWith c!"+" (splitServiceArg sa).2 = true := by
  rcases splitServiceArg_spec sa with ⟨_, h⟩ | ⟨s, a, _, _, h⟩ <;> rw [h] <;> rfl

/-! ## C04 -/

theorem evaluate_granted_allow {rules : List Rule} {req : Request} {res : AllowRes}
    (hn : OrdinaryNames req.info) (hrules : ∀ r ∈ rules, IsRule r) (hq : IsRequest req)
    (h : evaluate rules req = .ok (.allow res)) (mode : Mode) (agent : Agent) :
    res.request = req ∧
      Granted rules req mode agent res.rule res.user res.autostart res.target := by
  unfold evaluate at h
  obtain ⟨r, hr, h⟩ := bind_eq_ok.1 h
  obtain ⟨pre, post, hf, hm⟩ := findMatchingRule_ok hn hr
  unfold evalAction at h
  split at h
  · simp at h
  · rename_i t u n a hact
    obtain ⟨res', h1, h2⟩ := map_eq_ok.1 h
    cases h2
    have hmem : r ∈ rules := by rw [hf.split]; simp
    obtain ⟨out, rfl, h3, h4⟩ := (evalAllow_iff hn (hrules r hmem) hq hact hm).1 h1
    exact ⟨rfl, .byRule hf hact h3 h4⟩
  · obtain ⟨_, _, h⟩ := map_eq_ok.1 h; simp at h

theorem evaluate_ask {rules : List Rule} {req : Request} {a : AskRes}
    (hn : OrdinaryNames req.info) (h : evaluate rules req = .ok (.ask a)) :
    a.request = req ∧ ∃ pre post redirect dflt n, FirstMatch rules pre a.rule post req ∧
      a.rule.action = .ask redirect dflt a.user n a.autostart := by
  unfold evaluate at h
  obtain ⟨r, hr, h⟩ := bind_eq_ok.1 h
  obtain ⟨pre, post, hf, hm⟩ := findMatchingRule_ok hn hr
  unfold evalAction at h
  split at h
  · simp at h
  · obtain ⟨_, _, h⟩ := map_eq_ok.1 h; simp at h
  · rename_i t d u n b hact
    obtain ⟨res', h1, h2⟩ := map_eq_ok.1 h
    cases h2
    obtain ⟨_, ts0, ts, dt, _, _, _, _, rfl⟩ := evalAsk_ok h1
    exact ⟨rfl, pre, post, t, d, n, hf, hact⟩

theorem execAllow_ok {mode : Mode} {r : AllowRes} {evs : List Event} {s : Str}
    (h : execAllow mode r = (evs, .ok s)) :
    (mode.justEvaluate = true ∧ s = c!"result=allow" ∧ evs = []) ∨
    (mode.justEvaluate = false ∧
      ∃ fs, AnswerFor r.request r.user r.autostart r.target fs ∧ s = answerText fs) := by
  unfold execAllow at h
  by_cases h1 : mode.justEvaluate = true
  · rw [if_pos h1] at h
    simp only [Prod.mk.injEq, Except.ok.injEq] at h
    exact Or.inl ⟨h1, h.2.symm, h.1.symm⟩
  · rw [if_neg h1] at h
    simp only [Prod.mk.injEq] at h
    exact Or.inr ⟨by simpa using h1, execute_ok h.2⟩

/-- **C04.** Whatever the policy, the system state, the mode and the behaviour of the GUI agent:
if the frontend answers anything but `result=deny`, then a target was granted by the first
matching rule (an allow, or an ask whose offered target was picked), and the answer is that of
this target. -/
theorem C04_no_allow_without_grant (sys : Option Info) (policy : Except Err (List Rule))
    (agent : Agent) (mode : Mode) (source target sa rs : Str)
    (hn : ∀ info, sys = some info → OrdinaryNames info)
    (hrules : ∀ rules, policy = .ok rules → ∀ r ∈ rules, IsRule r)
    (evs : List Event) (s : Str)
    (h : handleRequest sys policy agent mode source target sa rs = (evs, .ok s))
    (hs : s ≠ denyAnswer) :
    ∃ info rules req r user autostart out, sys = some info ∧ policy = .ok rules ∧
      requestOf sa source target info rs = .ok req ∧
      Granted rules req mode agent r user autostart out ∧
      ((mode.justEvaluate = true ∧ s = c!"result=allow") ∨
       (mode.justEvaluate = false ∧ ∃ fs, AnswerFor req user autostart out fs ∧
         s = answerText fs)) := by
  rcases handleRequest_ok h with h | ⟨info, rules, req, res, hsys, hpol, hreq, hev, hex⟩
  · exact absurd h hs
  have hinfo : req.info = info := (mkRequest_ok hreq).2.2.1
  have hn' : OrdinaryNames req.info := by rw [hinfo]; exact hn _ hsys
  have hq := isRequest_of hreq
  cases res with
  | allow res =>
    obtain ⟨hr1, hg⟩ := evaluate_granted_allow hn' (hrules _ hpol) hq hev mode agent
    refine ⟨info, rules, req, res.rule, res.user, res.autostart, res.target, hsys, hpol, hreq,
      hg, ?_⟩
    rcases execAllow_ok hex with ⟨h1, h2, _⟩ | ⟨h1, h2⟩
    · exact Or.inl ⟨h1, h2⟩
    · rw [hr1] at h2; exact Or.inr ⟨h1, h2⟩
  | ask a =>
    obtain ⟨hr1, pre, post, redirect, dflt, n, hf, hact⟩ := evaluate_ask hn' hev
    rcases execAsk_ok hex with ⟨_, _, h3, _⟩ | ⟨t, evs', ht, hwho, hex2⟩
    · exact absurd h3 hs
    have hans := execAllow_ok hex2
    have hans' : (mode.justEvaluate = true ∧ s = c!"result=allow") ∨
       (mode.justEvaluate = false ∧ ∃ fs, AnswerFor req a.user a.autostart t fs ∧
         s = answerText fs) := by
      rcases hans with ⟨h1, h2, _⟩ | ⟨h1, h2⟩
      · exact Or.inl ⟨h1, h2⟩
      · simp only [approved, hr1] at h2; exact Or.inr ⟨h1, h2⟩
    refine ⟨info, rules, req, a.rule, a.user, a.autostart, t, hsys, hpol, hreq, ?_, hans'⟩
    rcases hwho with ⟨h1, h2, _⟩ | ⟨h1, _, g, hg, hag, _⟩
    · exact .byMode hf hact h1 hev ht (by rw [h2, hr1])
    · rw [hr1] at hg
      exact .byUser hf hact h1 hev ht hg hag

/-- The agent that always picks `vault`. -/
def exAgent : Agent := fun _ _ => .ok c!"allow:vault"

example : ∃ evs s, handleRequest (some exInfo) (.ok [exAsk]) exAgent {} c!"work" c!"work"
    c!"svc+arg" [] = (evs, .ok s) ∧ s ≠ denyAnswer ∧ IsRule exAsk ∧ OrdinaryNames exInfo := by
  refine ⟨_, _, rfl, by decide, ?_, exInfo_ordinary⟩
  exact ⟨some c!"svc", some c!"*", c!"@anyvm", c!"@anyvm", c!"ask", [c!"default_target=vault"], [],
    by decide⟩

/-! ## C02, C03 at the frontend -/

/-- What the frontend does with a refusal: the answer is `result=deny`; a notification goes to
the GUI domain of the caller if the refusal asks for it and this is not a mere evaluation. -/
def refusalEvents (info : Info) (mode : Mode) (notify : Bool) (service argument source target : Str) :
    List Event → Prop := fun evs =>
  (∀ g, notify = true → mode.justEvaluate = false → GuiOf info source g →
    evs = [.notify g false service argument source target]) ∧
  ((notify = false ∨ mode.justEvaluate = true ∨ ∀ g, ¬ GuiOf info source g) → evs = [])

theorem onDenied_spec {info : Info} {mode : Mode} {n : Bool} {service argument source target : Str}
    (hsrc : ∃ d, info.get? source = some d) :
    ∃ evs, onDenied info mode n service argument source target [] = (evs, .ok denyAnswer) ∧
      refusalEvents info mode n service argument source target evs := by
  obtain ⟨d, hd⟩ := hsrc
  have hgui : ∀ g, GuiOf info source g ↔ truthy d.guivm = some g := by
    intro g
    rw [truthy_eq_some]
    constructor
    · rintro ⟨d', h1, h2⟩; rw [hd] at h1; cases h1; exact h2
    · exact fun h => ⟨d, hd, h⟩
  unfold onDenied
  by_cases hb : (n && !mode.justEvaluate) = true
  · rw [if_pos hb, hd]
    simp only [Bool.and_eq_true, Bool.not_eq_true'] at hb
    simp only
    cases hg : truthy d.guivm with
    | some g =>
      refine ⟨_, rfl, ?_, ?_⟩
      · intro g' _ _ h2
        rw [hgui, hg] at h2; cases h2
        rfl
      · rintro (h1 | h1 | h1)
        · simp [hb.1] at h1
        · simp [hb.2] at h1
        · exact absurd ((hgui g).2 hg) (h1 g)
    | none =>
      refine ⟨_, rfl, ?_, fun _ => rfl⟩
      intro g' _ _ h2
      rw [hgui, hg] at h2; simp at h2
  · rw [if_neg hb]
    refine ⟨_, rfl, ?_, fun _ => rfl⟩
    intro g h1 h2
    simp [h1, h2] at hb

theorem handleRequest_refused {info : Info} {policy : Except Err (List Rule)} {agent : Agent}
    {mode : Mode} {source target sa rs : Str} {n : Bool} {e : Err}
    (hsrc : ∃ d, info.get? source = some d)
    (he : e = .accessDenied n ∨ (e = .requestError ∧ n = true))
    (h : tryRequest policy mode agent (splitServiceArg sa).1 (splitServiceArg sa).2 source target
      info rs = ([], .error e)) :
    ∃ evs, handleRequest (some info) policy agent mode source target sa rs =
        (evs, .ok denyAnswer) ∧
      refusalEvents info mode n (splitServiceArg sa).1 (splitServiceArg sa).2 source target evs := by
  have hred : handleRequest (some info) policy agent mode source target sa rs =
      onDenied info mode n (splitServiceArg sa).1 (splitServiceArg sa).2 source target [] := by
    unfold handleRequest
    simp only [h]
    rcases he with rfl | ⟨rfl, rfl⟩ <;> rfl
  rw [hred]
  exact onDenied_spec hsrc

/-- **C02.** If no rule matches, the frontend answers exactly `result=deny` (and the only thing
it may do besides is to notify the user). -/
theorem C02_frontend (info : Info) (rules : List Rule) (agent : Agent) (mode : Mode)
    (source target sa rs : Str) (req : Request)
    (hn : OrdinaryNames info) (hsrc : ∃ d, info.get? source = some d)
    (hreq : requestOf sa source target info rs = .ok req) (hd : DispvmReady req)
    (h : ∀ r ∈ rules, ¬ RuleMatches r req) :
    ∃ evs, handleRequest (some info) (.ok rules) agent mode source target sa rs =
        (evs, .ok denyAnswer) ∧
      refusalEvents info mode true (splitServiceArg sa).1 (splitServiceArg sa).2 source target
        evs := by
  apply handleRequest_refused hsrc (Or.inl rfl)
  have hi := (mkRequest_ok hreq).2.2.1
  unfold tryRequest
  have hreq' : mkRequest (splitServiceArg sa).1 (splitServiceArg sa).2 source target info rs =
    .ok req := hreq
  simp only [hreq', C02_default_deny rules req (by rw [hi]; exact hn) hd
    (mkRequest_targetExists hreq) h]

/-- **C03.** When the first matching rule is a deny, the frontend answers `result=deny`; the user
is never asked, and is notified exactly as the rule says. -/
theorem C03_frontend (info : Info) (rules pre post : List Rule) (r : Rule) (agent : Agent)
    (mode : Mode) (source target sa rs : Str) (req : Request) (notify : Bool)
    (hn : OrdinaryNames info) (hsrc : ∃ d, info.get? source = some d)
    (hreq : requestOf sa source target info rs = .ok req) (hd : DispvmReady req)
    (hf : FirstMatch rules pre r post req) (ha : r.action = .deny notify) :
    ∃ evs, handleRequest (some info) (.ok rules) agent mode source target sa rs =
        (evs, .ok denyAnswer) ∧
      refusalEvents info mode notify (splitServiceArg sa).1 (splitServiceArg sa).2 source target
        evs := by
  apply handleRequest_refused hsrc (Or.inl rfl)
  have hi := (mkRequest_ok hreq).2.2.1
  unfold tryRequest
  have hreq' : mkRequest (splitServiceArg sa).1 (splitServiceArg sa).2 source target info rs =
    .ok req := hreq
  simp only [hreq', C03_deny_is_final rules pre post r req (by rw [hi]; exact hn) hd
    (mkRequest_targetExists hreq) hf notify ha]

example : handleRequest (some exInfo) (.ok [{ exDeny with source := .anyvm }]) exAgent {} c!"work"
    c!"vault" c!"svc" [] =
    ([.notify c!"dom0" false c!"svc" c!"+" c!"work" c!"vault"], .ok denyAnswer) := by decide

/-! ## C13 in the answer -/

theorem firstMatch_unique {rules p1 q1 p2 q2 : List Rule} {r1 r2 : Rule} {req : Request}
    (h1 : FirstMatch rules p1 r1 q1 req) (h2 : FirstMatch rules p2 r2 q2 req) : r1 = r2 := by
  obtain ⟨rfl, b1, m1⟩ := h1
  obtain ⟨e, b2, m2⟩ := h2
  induction p1 generalizing p2 with
  | nil =>
    cases p2 with
    | nil => simp at e; exact e.1
    | cons x xs =>
      simp at e
      exact absurd (e.1 ▸ m1) (b2 x (by simp))
  | cons y ys ih =>
    cases p2 with
    | nil =>
      simp at e
      exact absurd (e.1 ▸ m2) (b1 y (by simp))
    | cons x xs =>
      simp only [List.cons_append, List.cons.injEq] at e
      exact ih (fun z hz => b1 z (by simp [hz])) e.2 (fun z hz => b2 z (by simp [hz]))

theorem granted_ask_autostart {rules pre post : List Rule} {r : Rule} {req : Request}
    {redirect dflt : Option Token} {user : Option Str} {n b : Bool} {a : AskRes}
    (hn : OrdinaryNames req.info) (hf : FirstMatch rules pre r post req)
    (hact : r.action = .ask redirect dflt user n b) (hev : evaluate rules req = .ok (.ask a)) :
    a.rule = r ∧ a.user = user ∧ a.autostart = b := by
  obtain ⟨_, _, _, _, _, _, hf', hact'⟩ := evaluate_ask hn hev
  have hr := firstMatch_unique hf' hf
  rw [hr, hact] at hact'; cases hact'
  exact ⟨hr, rfl, rfl⟩

/-- **C13.** With `autostart=no` the granted target needs no start, it is not a disposable, and
the answer carries `autostart=False`. -/
theorem C13_answer (rules : List Rule) (req : Request) (mode : Mode) (agent : Agent) (r : Rule)
    (user : Option Str) (out : Str) (hn : OrdinaryNames req.info)
    (hg : Granted rules req mode agent r user false out) (fs : List (Str × Str))
    (ha : AnswerFor req user false out fs) :
    NoStartNeeded req.info out ∧ (¬ ∃ t, out = c!"@dispvm" ++ t) ∧
      (c!"autostart", c!"False") ∈ fs := by
  have h1 : NoStartNeeded req.info out := by
    cases hg with
    | byRule _ _ _ h => exact h rfl
    | byUser hf hact hm hev hmem =>
      exact (C13_ask_no_autostart rules _ hn _ hev (granted_ask_autostart hn hf hact hev).2.2
        out hmem).1
    | byMode hf hact hm hev hmem =>
      exact (C13_ask_no_autostart rules _ hn _ hev (granted_ask_autostart hn hf hact hev).2.2
        out hmem).1
  refine ⟨h1, ?_, ?_⟩
  · rintro ⟨t, rfl⟩
    rcases h1 with h0 | ⟨d, hd, _⟩
    · simp [Dom0] at h0
    · exact absurd rfl (hn _ _ hd).2.1
  · cases ha <;> simp [pyBool]

end Qrexec
