import Verif.Lemmas.SocketAsk
import Verif.Props.AgentFocus
import Verif.Props.AgentTarget
import Verif.Props.AgentText
import Verif.Props.Answer
import Verif.Props.Ask

/-! # C80, C81: the user decides what is executed -/
namespace Qrexec
open Spec

/-- What the agent does with a question. -/
def PaAction.asks (q : Question) : PaAction :=
  match mkWindow q with
  | .ok w => .window q w
  | .error _ => .dropped

theorem paDispatch_ask (info : Info) (hk : (info.map Prod.fst).Nodup) (ho : OrdinaryNames info) (p : AskParams) :
    paDispatch c!"policy.Ask" (askJson p (askIcons info)) = .asks (shownQuestion info p) := by
  unfold paDispatch PaAction.asks
  rw [if_pos rfl, paQuestion_ask p _ (by rw [askIcons_keys hk ho]; exact rows_nodup hk ho), askIcons_keys hk ho]
  dsimp only
  show (match mkWindow (shownQuestion info p) with
    | .error _ => PaAction.dropped
    | .ok w => .window (shownQuestion info p) w) = _
  cases mkWindow (shownQuestion info p) <;> rfl

/-- **C80, shown.** Whatever the names, the service and its argument are: the question of the policy reaches the agent of the
GUI domain - in dom0 or in another qube - as it was asked, and the window it opens (if any, see `C80_opens`) is the one for
exactly this source, service, argument, targets and default target. -/
theorem C80_shown (info : Info) (hs : SystemInfo info) (g : Str) (p : AskParams) :
    ∃ data, askMessage g c!"policy.Ask" (askJson p (askIcons info)) = some data ∧
      (∀ w, mkWindow (shownQuestion info p) = .ok w → paHandle data = .window (shownQuestion info p) w) ∧
      (∀ e, mkWindow (shownQuestion info p) = .error e → paHandle data = .dropped) := by
  obtain ⟨data, h1, h2⟩ := askMessage_handled g c!"policy.Ask" (askJson_plain p (askIcons info)) (.inl rfl)
  rw [paDispatch_ask info hs.keys hs.ordinary] at h2
  refine ⟨data, h1, fun w hw => ?_, fun e he => ?_⟩
  · rw [h2]; unfold PaAction.asks; rw [hw]
  · rw [h2]; unfold PaAction.asks; rw [he]

/-- **C80, rows.** The window lists the qubes of the system and a disposable for each template of disposables. -/
theorem C80_rows (info : Info) (hs : SystemInfo info) (n : Str) :
    n ∈ rowsOf info ↔ (∃ d, IsDomain info n d) ∨
      ∃ k d, IsDomain info k d ∧ d.templateForDispvms = true ∧ n = c!"@dispvm:" ++ k := by
  have uu : ∀ s : Str, (!startsWith c!"uuid:" s) = true ↔ ¬ IsUuid s := by
    intro s
    unfold IsUuid
    rw [← startsWith_iff]
    cases startsWith c!"uuid:" s <;> simp
  unfold rowsOf IsDomain
  rw [List.mem_append, List.mem_map, List.mem_map]
  constructor
  · rintro (⟨⟨k, d⟩, hp, rfl⟩ | ⟨⟨k, d⟩, hp, rfl⟩)
    · obtain ⟨h1, h2⟩ := List.mem_filter.1 hp
      exact .inl ⟨d, get?_of_mem hs.keys h1, (uu _).1 h2⟩
    · obtain ⟨h1, h2⟩ := List.mem_filter.1 hp
      rw [Bool.and_eq_true] at h2
      exact .inr ⟨k, d, ⟨get?_of_mem hs.keys h1, (uu _).1 h2.1⟩, h2.2, rfl⟩
  · rintro (⟨d, h1, h2⟩ | ⟨k, d, ⟨h1, h2⟩, h3, rfl⟩)
    · exact .inl ⟨(n, d), List.mem_filter.2 ⟨get?_mem h1, (uu _).2 h2⟩, rfl⟩
    · refine .inr ⟨(k, d), List.mem_filter.2 ⟨get?_mem h1, ?_⟩, rfl⟩
      rw [Bool.and_eq_true]
      exact ⟨(uu _).2 h2, h3⟩

theorem sanitize_clean {s : Str} {extra : List Char} (h : ∀ c ∈ s, (alnumChar c = true ∨ c = '@' ∨ c = '_' ∨ c = '-' ∨ c = '.') ∨ c ∈ extra) :
    pySanitizeName s extra true = .ok s := by
  have : s.map (pySanitizeChar extra) = s := by
    conv_rhs => rw [← List.map_id s]
    refine List.map_congr_left fun c hc => ?_
    unfold pySanitizeChar
    rw [if_pos]
    · rfl
    · rcases h c hc with h | h
      · rcases h with h | rfl | rfl | rfl | rfl
        · simp [h]
        all_goals simp
      · simp [h]
  unfold pySanitizeName
  dsimp only
  rw [this]
  simp

theorem createEntries_clean {l : List Str} (h : ∀ n ∈ l, CleanName (if startsWith c!"@dispvm:" n then n.drop 8 else n)) :
    createEntries l = .ok (l.map fun n => (entryName n, n)) := by
  induction l with
  | nil => rfl
  | cons n r ih =>
    unfold createEntries sanitizeDomainName
    rw [sanitize_clean fun c hc => .inl (h n (by simp) c hc), ih fun m hm => h m (List.mem_cons_of_mem _ hm)]
    rfl

/-- **C80, opens.** The window opens if names consist of letters, digits and `@_-.` and the source is a qube of the system. -/
theorem C80_opens (info : Info) (hs : SystemInfo info) (p : AskParams) (hn : ∀ k d, IsDomain info k d → CleanName k)
    (hsrc : ∃ d, IsDomain info p.source d) (hsvc : ∀ c ∈ p.service, CleanName [c] ∨ c = '+') :
    ∃ w, mkWindow (shownQuestion info p) = .ok w := by
  have hc : ∀ n ∈ rowsOf info, CleanName (if startsWith c!"@dispvm:" n then n.drop 8 else n) := by
    intro n hm
    rcases (C80_rows info hs n).1 hm with ⟨d, hd⟩ | ⟨k, d, hd, _, rfl⟩
    · have := (hs.ordinary _ _ hd.1).2.1
      rw [if_neg]
      · exact hn _ _ hd
      · intro hh
        obtain ⟨t, rfl⟩ := startsWith_iff.1 hh
        exact this rfl
    · rw [if_pos (startsWith_iff.2 ⟨k, rfl⟩)]
      exact hn _ _ hd
  obtain ⟨d, hd⟩ := hsrc
  have h1 : sanitizeDomainName p.source true = .ok p.source := sanitize_clean fun c hc => .inl (hn _ _ hd c hc)
  have h2 : sanitizeServiceName p.service true = .ok p.service := by
    refine sanitize_clean fun c hc => ?_
    rcases hsvc c hc with h | h
    · exact .inl (h c (by simp))
    · exact .inr (by simp [h])
  have h3 : (entryFor ((rowsOf info).map fun n => (entryName n, n)) p.source).isSome = true := by
    have hm := (C80_rows info hs p.source).2 (.inl ⟨d, hd⟩)
    have he : entryName p.source = p.source := by
      unfold entryName
      rw [if_neg]
      intro hh
      obtain ⟨t, ht⟩ := startsWith_iff.1 hh
      have := (hs.ordinary _ _ hd.1).2.1
      rw [ht] at this
      exact this rfl
    cases hx : entryFor ((rowsOf info).map fun n => (entryName n, n)) p.source with
    | some x => rfl
    | none => exact absurd he (entryFor_none hx _ hm)
  unfold mkWindow
  rw [show (shownQuestion info p).source = p.source from rfl, show (shownQuestion info p).service = p.service from rfl, h1, h2,
    show (shownQuestion info p).icons = rowsOf info from rfl, createEntries_clean hc]
  have h4 : require ((entryFor ((rowsOf info).map fun n => (entryName n, n)) p.source).isSome) .valueError = .ok () := by
    unfold require; rw [if_pos h3]
  simp only [bind_eq_ok, pure_ok, Except.ok.injEq]
  exact ⟨_, _, rfl, _, rfl, _, rfl, (), h4, rfl⟩

/-! ## The answer -/

theorem askAgent_served {info : Info} (hs : SystemInfo info) {reach : Str → Bytes → Reach} {g : Str} {p : AskParams} {r : Str}
    (h : askAgent info reach g p = .ok r) :
    ∃ data user, askMessage g c!"policy.Ask" (askJson p (askIcons info)) = some data ∧ reach g data = .serves user ∧
      ((∃ e, mkWindow (shownQuestion info p) = .error e ∧ r = []) ∨
       ∃ w, mkWindow (shownQuestion info p) = .ok w ∧ (w.run user).gone = true ∧
        (r = (w.run user).answer ∨ r = [])) := by
  obtain ⟨data, h1, h2, h3⟩ := C80_shown info hs g p
  unfold askAgent at h
  rw [h1] at h
  dsimp only at h
  cases hr : reach g data with
  | fails e => rw [hr] at h; cases h
  | serves user =>
    rw [hr] at h
    refine ⟨data, user, h1, hr, ?_⟩
    dsimp only at h
    unfold paServe at h
    cases hw : mkWindow (shownQuestion info p) with
    | error e =>
      rw [h3 e hw] at h
      exact .inl ⟨e, rfl, (Except.ok.inj h).symm⟩
    | ok w =>
      rw [h2 w hw] at h
      dsimp only at h
      by_cases hg : (w.run user).gone = true
      · rw [if_pos hg] at h
        dsimp only at h
        refine .inr ⟨w, rfl, hg, ?_⟩
        rw [← Except.ok.inj h]
        split_ifs
        · exact .inl rfl
        · exact .inr rfl
      · rw [if_neg hg] at h
        cases h

/-- **C80, allowed.** If the policy asks and the call is not refused, then the agent of the GUI domain of the source showed
the window for exactly this call, with the targets the policy offers; the user confirmed it, having had the window in focus
for a second; and the answer is the one for the offered target that was chosen in the window when it was closed. -/
theorem C80_allowed (info : Info) (hs : SystemInfo info) (rules : List Rule) (reach : Str → Bytes → Reach)
    (source target sa rs : Str) (req : Request) (a : AskRes) (hreq : requestOf sa source target info rs = .ok req)
    (hev : evaluate rules req = .ok (.ask a)) (evs : List Event) (s : Str)
    (h : handleRequest (some info) (.ok rules) (askAgent info reach) {} source target sa rs = (evs, .ok s))
    (hne : s ≠ denyAnswer) :
    ∃ g data w user t fs, GuiOf info a.request.source g ∧ reach g data = .serves user ∧
      paHandle data = .window (shownQuestion info (questionOf a)) w ∧
      mkWindow (shownQuestion info (questionOf a)) = .ok w ∧
      (w.run user).gone = true ∧ Confirms user ∧
      ChosenTarget (shownQuestion info (questionOf a)) (w.run user).active (w.run user).text t ∧
      t ∈ a.targetsForAsk ∧ AnswerFor a.request a.user a.autostart t fs ∧ s = answerText fs := by
  obtain ⟨t, g, fs, ht, hg, hag, hfs, rfl⟩ := C16_only_offered info rules (askAgent info reach) source target sa rs req a hreq hev
    evs s h hne
  obtain ⟨data, user, h1, h2, h3⟩ := askAgent_served hs hag
  obtain ⟨data', h1', h4, _⟩ := C80_shown info hs g (questionOf a)
  rw [h1] at h1'
  cases h1'
  rcases h3 with ⟨e, _, h3⟩ | ⟨w, hw, hgone, h3⟩
  · cases h3
  · rcases h3 with h3 | h3
    · have ha := C44_answer _ w hw user
      refine ⟨g, data, w, user, t, fs, hg, h2, h4 w hw, hw, hgone, ?_, ?_, ht, hfs, rfl⟩
      · refine C42_answer _ w hw user ?_
        rw [← h3]
        intro hx; cases hx
      · rcases ha with ha | ⟨t', ha, _, _, hch⟩
        · rw [ha] at h3; cases h3
        · rw [ha] at h3
          rw [List.append_cancel_left h3]
          exact hch
    · cases h3

/-- **C80, refused.** If the window is closed without a confirmation, or cannot be shown, the call is refused. -/
theorem C80_refused (info : Info) (hs : SystemInfo info) (rules : List Rule) (reach : Str → Bytes → Reach)
    (source target sa : Str) (req : Request) (a : AskRes) (hreq : requestOf sa source target info [] = .ok req)
    (hev : evaluate rules req = .ok (.ask a)) (g : Str) (hg : GuiOf info source g) (user : List GuiEvent)
    (hr : ∀ data, reach g data = .serves user)
    (hu : ∀ w, mkWindow (shownQuestion info (questionOf a)) = .ok w → (w.run user).gone = true ∧ ¬ Confirms user) :
    (handleRequest (some info) (.ok rules) (askAgent info reach) {} source target sa []).2 = .ok denyAnswer := by
  obtain ⟨data, h1, h2, h3⟩ := C80_shown info hs g (questionOf a)
  have hsrc : ∃ d, info.get? source = some d := by obtain ⟨d, hd, _⟩ := hg; exact ⟨d, hd⟩
  have key : ∃ r, askAgent info reach g (questionOf a) = .ok r ∧ ∀ t, r ≠ c!"allow:" ++ t := by
    unfold askAgent
    rw [h1]
    dsimp only
    rw [hr data]
    dsimp only
    unfold paServe
    cases hw : mkWindow (shownQuestion info (questionOf a)) with
    | error e =>
      rw [h3 e hw]
      exact ⟨[], rfl, fun t hx => by cases hx⟩
    | ok w =>
      rw [h2 w hw]
      dsimp only
      rw [if_pos (hu w hw).1]
      refine ⟨_, rfl, fun t hx => ?_⟩
      split_ifs at hx
      · refine (hu w hw).2 (C42_answer _ w hw user ?_)
        rw [hx]
        intro hy; cases hy
      · cases hx
  obtain ⟨r, hr, hn⟩ := key
  exact C16_other_replies_refused info rules (askAgent info reach) source target sa req a hsrc hreq hs.ordinary hev
    (.inr ⟨g, r, hg, hr, fun t _ => hn t⟩)

theorem chosen_listed {info : Info} {p : AskParams} {o : Option Str} {x t : Str} (h : ChosenTarget (shownQuestion info p) o x t) :
    t ∈ p.targets ∧ t ∈ rowsOf info := by
  rcases h with ⟨s, _, h⟩ | ⟨h, _⟩
  · exact ⟨h.1, h.2.1⟩
  · exact ⟨h.1, h.2.1⟩

theorem window_ascii {q : Question} {w : Win} (hw : mkWindow q = .ok w) {t : Str} (ht : t ∈ q.icons) : isAscii t = true := by
  obtain ⟨es, hes, _⟩ := mkWindow_eq hw
  have hsan := (createEntries_ok hes).2 t ht
  have clean : ∀ s : Str, (∀ c ∈ s, pySanitizeChar [] c = c) → isAscii s = true := by
    intro s hs
    unfold isAscii
    rw [List.all_eq_true]
    intro c hc
    have := hs c hc
    unfold pySanitizeChar at this
    split_ifs at this with hh
    · simp only [Bool.or_eq_true, alnumChar, Bool.and_eq_true, decide_eq_true_eq, List.contains_iff_mem, List.mem_cons,
        List.not_mem_nil, or_false] at hh
      have le : ∀ x y : Char, x ≤ y → x.toNat ≤ y.toNat := fun x y h => h
      rw [decide_eq_true_eq]
      rcases hh with ((⟨_, h⟩ | ⟨_, h⟩) | ⟨_, h⟩) | rfl | rfl | rfl | rfl
      · exact Nat.lt_of_le_of_lt (le _ _ h) (by decide)
      · exact Nat.lt_of_le_of_lt (le _ _ h) (by decide)
      · exact Nat.lt_of_le_of_lt (le _ _ h) (by decide)
      all_goals decide
    · rw [← this]; decide
  by_cases hd : startsWith c!"@dispvm:" t = true
  · rw [if_pos hd] at hsan
    obtain ⟨k, rfl⟩ := startsWith_iff.1 hd
    rw [isAscii_append, clean k hsan]
    decide
  · rw [if_neg hd] at hsan
    exact clean t hsan

/-- **C80, confirmed.** If the OK button is pressed while it is active, the call is allowed, to the target that is then chosen
in the window: the answer is the one for this target. -/
theorem C80_confirmed (info : Info) (hs : SystemInfo info) (rules : List Rule) (reach : Str → Bytes → Reach)
    (source target sa : Str) (req : Request) (a : AskRes) (hreq : requestOf sa source target info [] = .ok req)
    (hev : evaluate rules req = .ok (.ask a)) (g : Str) (hg : GuiOf info source g) (w : Win)
    (hw : mkWindow (shownQuestion info (questionOf a)) = .ok w) (user : List GuiEvent)
    (hopen : (w.run user).gone = false) (hb : (w.run user).helper.buttonSensitive = true)
    (hr : ∀ data, reach g data = .serves (user ++ [.okPress, .deleted]))
    (t : Str) (hch : ChosenTarget (shownQuestion info (questionOf a)) (w.run user).active (w.run user).text t)
    (fs : List (Str × Str)) (hfs : AnswerFor req a.user a.autostart t fs) :
    ∃ evs, handleRequest (some info) (.ok rules) (askAgent info reach) {} source target sa [] = (evs, .ok (answerText fs)) := by
  obtain ⟨data, h1, h2, _⟩ := C80_shown info hs g (questionOf a)
  obtain ⟨t', ht', hch', hans⟩ := C44_pressed _ w hw user hopen hb
  have heq : t' = t := by
    have e1 := (C44_chosen _ w hw user t').2 hch'
    have e2 := (C44_chosen _ w hw user t).2 hch
    rw [e1] at e2
    exact Option.some.inj e2
  subst heq
  have hclean : isAscii (c!"allow:" ++ t') = true := by
    rw [isAscii_append, window_ascii hw (chosen_listed hch).2]
    decide
  have hgone : (w.run (user ++ [.okPress, .deleted])).gone = true := by
    rw [show user ++ [GuiEvent.okPress, .deleted] = (user ++ [.okPress]) ++ [.deleted] by simp, run_concat]
    unfold Win.step
    by_cases hx : (w.run (user ++ [.okPress])).gone = true
    · rw [if_pos hx]; exact hx
    · rw [if_neg hx]
  refine C16_approved_any info rules (askAgent info reach) source target sa req a t' g fs hs.ordinary hreq hev ht' hfs hg ?_
  unfold askAgent
  rw [h1]
  dsimp only
  rw [hr data]
  dsimp only
  unfold paServe
  rw [h2 w hw]
  dsimp only
  rw [if_pos hgone, hans, if_pos hclean]

/-- **C80, unlisted.** A target that is offered but has no row in the window can never be confirmed. -/
theorem C80_unlisted (info : Info) (hs : SystemInfo info) (rules : List Rule) (reach : Str → Bytes → Reach)
    (source target sa rs : Str) (req : Request) (a : AskRes) (hreq : requestOf sa source target info rs = .ok req)
    (hev : evaluate rules req = .ok (.ask a)) (hu : ∀ t ∈ a.targetsForAsk, t ∉ rowsOf info) (evs : List Event) (s : Str)
    (h : handleRequest (some info) (.ok rules) (askAgent info reach) {} source target sa rs = (evs, .ok s)) :
    s = denyAnswer := by
  by_contra hne
  obtain ⟨g, data, w, user, t, fs, _, _, _, _, _, _, hch, ht, _⟩ := C80_allowed info hs rules reach source target sa rs req a hreq
    hev evs s h hne
  exact hu t ht (chosen_listed hch).2

def exAskDispvm : Rule :=
  { service := none, argument := none, source := .wildcard, target := .wildcard,
    action := .ask (some .dispvm) none none false true }

/-- `ask target=@dispvm` asks the user, but can only be refused: the disposable has no row. -/
theorem C80_redirect_unusable (reach : Str → Bytes → Reach) (evs : List Event) (s : Str)
    (h : handleRequest (some exInfo) (.ok [exAskDispvm]) (askAgent exInfo reach) {} c!"work" c!"vault" c!"svc" [] = (evs, .ok s)) :
    s = denyAnswer := by
  cases hev : evaluate [exAskDispvm] (exReq c!"work" (.name c!"vault")) with
  | error e => exact absurd hev (by have : ∃ r, evaluate [exAskDispvm] (exReq c!"work" (.name c!"vault")) = .ok r := ⟨_, rfl⟩
                                    obtain ⟨r, hr⟩ := this; rw [hr]; intro hx; cases hx)
  | ok r =>
    have hr : ∃ a, r = .ask a ∧ a.targetsForAsk = [c!"@dispvm"] := by
      have : evaluate [exAskDispvm] (exReq c!"work" (.name c!"vault")) = .ok r := hev
      cases r with
      | allow x => exact absurd hev (by intro hx; cases hx)
      | ask a => exact ⟨a, rfl, by cases hev; rfl⟩
    obtain ⟨a, rfl, ha⟩ := hr
    refine C80_unlisted exInfo exInfo_system [exAskDispvm] reach c!"work" c!"vault" c!"svc" [] _ a rfl hev ?_ evs s h
    rw [ha]
    intro t ht
    rw [List.mem_singleton.1 ht]
    decide

/-! ## An example -/

def exUser : List GuiEvent := [.focus true, .tick 1000, .fire 0, .select (some c!"vault") c!"vault", .okPress, .deleted]

set_option maxRecDepth 100000 in
example : (handleRequest (some exInfo) (.ok [exAsk]) (askAgent exInfo fun _ _ => .serves exUser) {} c!"work" c!"vault" c!"svc+a\"b" []).2 =
    .ok (answerText [(c!"user", c!"DEFAULT"), (c!"result", c!"allow"), (c!"target", c!"vault"),
        (c!"target_uuid", c!"uuid:u2"), (c!"autostart", c!"True"), (c!"requested_target", c!"vault")]) := by decide

/-! ## C81: notifications -/

/-- **C81.** The notification shown for a call that was allowed or refused names exactly this call, its source and its
target, whatever characters they consist of. -/
theorem C81_shown (g : Str) (allowed : Bool) (service argument source target : Str) :
    ∃ data body, askMessage g c!"policy.Notify" (notifyJson allowed service argument source target) = some data ∧
      paHandle data = .notification body ∧
      Shows body (plain (if allowed then c!"Allowed " else c!"Denied ") ++
        strong (service ++ (if argument = c!"+" then [] else argument)) ++ plain c!" from " ++ strong source ++ plain c!" to " ++
        strong target) := by
  obtain ⟨data, h1, h2⟩ := askMessage_handled g c!"policy.Notify" (notifyJson_plain allowed service argument source target) (.inr rfl)
  have hb : ∃ body, notifyBody (if allowed then c!"allow" else c!"deny") service argument source target = .ok body := by
    cases allowed <;> exact ⟨_, rfl⟩
  obtain ⟨body, hb⟩ := hb
  refine ⟨data, body, h1, ?_, ?_⟩
  · rw [h2]
    unfold paDispatch
    rw [if_neg (by decide), if_pos rfl]
    have t1 : paText (notifyJson allowed service argument source target) c!"resolution" =
      some (if allowed then c!"allow" else c!"deny") := rfl
    have t2 : paText (notifyJson allowed service argument source target) c!"service" = some service := rfl
    have t3 : paText (notifyJson allowed service argument source target) c!"argument" = some argument := rfl
    have t4 : paText (notifyJson allowed service argument source target) c!"source" = some source := rfl
    have t5 : paText (notifyJson allowed service argument source target) c!"target" = some target := rfl
    rw [t1, t2, t3, t4, t5]
    dsimp only
    rw [hb]
  · have := C43_notify _ service argument source target body hb
    dsimp only at this
    cases allowed
    · rcases this with ⟨h, _⟩ | ⟨_, h⟩ | ⟨h, _⟩
      · cases h
      · simpa [plain, List.append_assoc] using h
      · cases h
    · rcases this with ⟨_, h⟩ | ⟨h, _⟩ | ⟨h, _⟩
      · simpa [plain, List.append_assoc] using h
      · cases h
      · cases h

example : ∃ data, askMessage c!"sys-gui" c!"policy.Notify" (notifyJson false c!"svc" c!"+" c!"<b>work" c!"vault") = some data ∧
    paHandle data = .notification c!"Denied <b>svc</b> from <b>&lt;b&gt;work</b> to <b>vault</b>" :=
  ⟨_, rfl, by decide⟩

end Qrexec
