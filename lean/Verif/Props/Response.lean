import Verif.Props.Answer

/-!
# C21, C46, and the totality of the frontend (C11)
-/
namespace Qrexec
open Spec

/-! ## C21 -/

theorem newline_append {a b : Str} (h1 : '\n' ∉ a) (h2 : '\n' ∉ b) : '\n' ∉ a ++ b := by
  simp [h1, h2]

theorem requestTarget_clean {req : Request} (hq : IsRequest req) (hc : NoNewlines req.info) :
    '\n' ∉ req.target.str := by
  obtain ⟨src, tgt, h⟩ := hq
  obtain ⟨_, _, _, _, _, ⟨tok, hp, hv⟩, _⟩ := mkRequest_ok h
  have hw : ∀ t, tok = t → tok.verify req.info = .ok req.target → '\n' ∉ req.target.str := by
    intro t ht hv
    unfold Token.verify at hv
    split at hv
    · split_ifs at hv with h1
      · rw [← Except.ok.inj hv]
        simp only [Info.has, Option.isSome_iff_exists] at h1
        obtain ⟨d, hd⟩ := h1
        exact (hc _ _ hd).1
      · rw [← Except.ok.inj hv]; simp [Token.str]
    · split at hv
      · simp at hv
      · rename_i d hd
        split_ifs at hv
        rw [← Except.ok.inj hv]
        exact newline_append (by decide) (hc _ _ hd).1
    · rename_i h1 h2
      rw [← Except.ok.inj hv]
      have := parseToken_ok hp
      generalize (if tgt.isEmpty = true then c!"@default" else tgt) = text at this
      clear hp hv
      cases this with
      | name => exact absurd rfl (h1 _)
      | dispvmTemplate => exact absurd rfl (h2 _)
      | wildcard h => simp at h
      | adminvm => simp [Token.str]
      | anyvm h => simp at h
      | default => simp [Token.str]
      | dispvm => simp [Token.str]
      | typeVM h => simp at h
      | tagVM h => simp at h
      | dispvmTag h => simp at h
  exact hw tok rfl hv

theorem userText_clean {u : Option Str} (h : ∀ x ∈ u, '\n' ∉ x) : '\n' ∉ userText u := by
  unfold userText
  split
  · decide
  · decide
  · exact h _ rfl

theorem pyBool_clean (b : Bool) : '\n' ∉ pyBool b := by cases b <;> decide

/-- **C21.** The answer for a granted target, read line by line, gives back exactly the decided
fields, and no key occurs twice: nothing in the request can add or override a field.  The strings
of the caller need no assumption, except that for a remote domain the service call must contain
no newline (see `C21_violated_remote`). -/
theorem C21_answer_reads_back_partial (req : Request) (user : Option Str) (autostart : Bool)
    (out : Str) (fs : List (Str × Str)) (ha : AnswerFor req user autostart out fs)
    (hq : IsRequest req) (hc : NoNewlines req.info) (hu : ∀ x ∈ user, '\n' ∉ x)
    (hrem : (∃ d, req.info.get? out = some d ∧ d.cls = c!"RemoteVM") →
      '\n' ∉ req.service ∧ '\n' ∉ req.argument) :
    readAnswer (answerText fs) = some fs ∧ (fs.map Prod.fst).Nodup := by
  have ht := requestTarget_clean hq hc
  have hsrc : req.requestedSource ≠ [] → '\n' ∉ req.source := by
    intro hne
    obtain ⟨_, _, h⟩ := hq
    obtain ⟨_, _, _, _, _, _, h⟩ := mkRequest_ok h
    rcases h with ⟨h, _⟩ | ⟨_, h, _, d, hd, _⟩
    · exact absurd h hne
    · rw [h]; exact (hc _ _ hd).1
  have hut := userText_clean hu
  have hb := pyBool_clean autostart
  have cons : ∀ {k v : Str} {l : List (Str × Str)}, '\n' ∉ k → '=' ∉ k → '\n' ∉ v →
      (∀ f ∈ l, '\n' ∉ f.1 ∧ '=' ∉ f.1 ∧ '\n' ∉ f.2) →
      ∀ f ∈ (k, v) :: l, '\n' ∉ f.1 ∧ '=' ∉ f.1 ∧ '\n' ∉ f.2 := by
    intro k v l h1 h2 h3 h4 f hf
    rcases List.mem_cons.1 hf with rfl | hf
    · exact ⟨h1, h2, h3⟩
    · exact h4 f hf
  have nil : ∀ f ∈ ([] : List (Str × Str)), '\n' ∉ f.1 ∧ '=' ∉ f.1 ∧ '\n' ∉ f.2 := by simp
  cases ha with
  | dom0 h0 hne =>
    refine ⟨readAnswer_answerText (by simp) ?_, ?_⟩
    · exact cons (by decide) (by decide) hut <| cons (by decide) (by decide) (by decide) <|
        cons (by decide) (by decide) (by decide) <| cons (by decide) (by decide) hb <|
        cons (by decide) (by decide) ht nil
    · change List.Nodup [c!"user", c!"result", c!"target", c!"autostart", c!"requested_target"]
      decide
  | @disposable t d u h1 hne hd hdu =>
    have ho : '\n' ∉ out := by rw [h1]; exact newline_append (by decide) (hc _ _ hd).1
    have huu : '\n' ∉ c!"@dispvm:uuid:" ++ u :=
      newline_append (by decide) ((hc _ _ hd).2.1 u hdu)
    split_ifs with hrs
    · refine ⟨readAnswer_answerText (by simp) ?_, ?_⟩
      · exact cons (by decide) (by decide) hut <| cons (by decide) (by decide) (by decide) <|
          cons (by decide) (by decide) ho <| cons (by decide) (by decide) huu <|
          cons (by decide) (by decide) hb <| cons (by decide) (by decide) ht nil
      · change List.Nodup [c!"user", c!"result", c!"target", c!"target_uuid", c!"autostart",
          c!"requested_target"]
        decide
    · refine ⟨readAnswer_answerText (by simp) ?_, ?_⟩
      · exact cons (by decide) (by decide) hut <| cons (by decide) (by decide) (by decide) <|
          cons (by decide) (by decide) ho <| cons (by decide) (by decide) huu <|
          cons (by decide) (by decide) hb <| cons (by decide) (by decide) ht <|
          cons (by decide) (by decide) (hsrc hrs) nil
      · change List.Nodup [c!"user", c!"result", c!"target", c!"target_uuid", c!"autostart",
          c!"requested_target", c!"policy_source"]
        decide
  | @plain d u h1 hne hd hcls hdu =>
    have ho : '\n' ∉ out := (hc _ _ hd).1
    have huu : '\n' ∉ c!"uuid:" ++ u := newline_append (by decide) ((hc _ _ hd).2.1 u hdu)
    split_ifs with hrs
    · refine ⟨readAnswer_answerText (by simp) ?_, ?_⟩
      · exact cons (by decide) (by decide) hut <| cons (by decide) (by decide) (by decide) <|
          cons (by decide) (by decide) ho <| cons (by decide) (by decide) huu <|
          cons (by decide) (by decide) hb <| cons (by decide) (by decide) ht nil
      · change List.Nodup [c!"user", c!"result", c!"target", c!"target_uuid", c!"autostart",
          c!"requested_target"]
        decide
    · refine ⟨readAnswer_answerText (by simp) ?_, ?_⟩
      · exact cons (by decide) (by decide) hut <| cons (by decide) (by decide) (by decide) <|
          cons (by decide) (by decide) ho <| cons (by decide) (by decide) huu <|
          cons (by decide) (by decide) hb <| cons (by decide) (by decide) ht <|
          cons (by decide) (by decide) (hsrc hrs) nil
      · change List.Nodup [c!"user", c!"result", c!"target", c!"target_uuid", c!"autostart",
          c!"requested_target", c!"policy_source"]
        decide
  | @remote d relay rd u transport h1 hne hd hcls hrel _ htr _ hrd hdu =>
    have ho : '\n' ∉ relay := (hc _ _ hrd).1
    have huu : '\n' ∉ c!"uuid:" ++ u := newline_append (by decide) ((hc _ _ hrd).2.1 u hdu)
    obtain ⟨hs1, hs2⟩ := hrem ⟨d, hd, hcls⟩
    have hsl : '\n' ∉ transport ++ c!"+" ++ req.target.str ++ c!"+" ++ req.service ++
        req.argument :=
      newline_append (newline_append (newline_append (newline_append (newline_append
        ((hc _ _ hd).2.2.2.1 _ htr) (by decide)) ht) (by decide)) hs1) hs2
    split_ifs with hrs
    · refine ⟨readAnswer_answerText (by simp) ?_, ?_⟩
      · exact cons (by decide) (by decide) (by decide) <| cons (by decide) (by decide) (by decide) <|
          cons (by decide) (by decide) ho <| cons (by decide) (by decide) huu <|
          cons (by decide) (by decide) hb <| cons (by decide) (by decide) ht <|
          cons (by decide) (by decide) hsl nil
      · change List.Nodup [c!"user", c!"result", c!"target", c!"target_uuid", c!"autostart",
          c!"requested_target", c!"service"]
        decide
    · refine ⟨readAnswer_answerText (by simp) ?_, ?_⟩
      · exact cons (by decide) (by decide) (by decide) <| cons (by decide) (by decide) (by decide) <|
          cons (by decide) (by decide) ho <| cons (by decide) (by decide) huu <|
          cons (by decide) (by decide) hb <| cons (by decide) (by decide) ht <|
          cons (by decide) (by decide) hsl <| cons (by decide) (by decide) (hsrc hrs) nil
      · change List.Nodup [c!"user", c!"result", c!"target", c!"target_uuid", c!"autostart",
          c!"requested_target", c!"service", c!"policy_source"]
        decide

theorem granted_rule {rules : List Rule} {req : Request} {mode : Mode} {agent : Agent}
    {r : Rule} {user : Option Str} {autostart : Bool} {out : Str}
    (hg : Granted rules req mode agent r user autostart out) : r ∈ rules ∧
      ((∃ t n, r.action = .allow t user n autostart) ∨
       ∃ t d n, r.action = .ask t d user n autostart) := by
  cases hg with
  | byRule hf ha => exact ⟨by rw [hf.split]; simp, Or.inl ⟨_, _, ha⟩⟩
  | byUser hf ha => exact ⟨by rw [hf.split]; simp, Or.inr ⟨_, _, _, ha⟩⟩
  | byMode hf ha => exact ⟨by rw [hf.split]; simp, Or.inr ⟨_, _, _, ha⟩⟩

/-- **C21.** Every answer of the frontend reads back: as exactly `result=deny`, exactly
`result=allow` (evaluation only), or exactly the fields decided for the granted target, each key
once.  The request strings are arbitrary, except that the service call contains no newline (it
cannot when it comes through the daemon protocol). -/
theorem C21_every_answer_reads_back (sys : Option Info) (policy : Except Err (List Rule))
    (agent : Agent) (mode : Mode) (source target sa rs : Str)
    (hn : ∀ info, sys = some info → OrdinaryNames info ∧ NoNewlines info)
    (hrules : ∀ rules, policy = .ok rules → ∀ r ∈ rules, IsRule r ∧
      ∀ u t d n b, (r.action = .allow t (some u) n b ∨ r.action = .ask t d (some u) n b) →
        '\n' ∉ u)
    (hsa : '\n' ∉ sa) (evs : List Event) (s : Str)
    (h : handleRequest sys policy agent mode source target sa rs = (evs, .ok s)) :
    ∃ fs, readAnswer s = some fs ∧ (fs.map Prod.fst).Nodup ∧
      (fs = [(c!"result", c!"deny")] ∨
       (mode.justEvaluate = true ∧ fs = [(c!"result", c!"allow")]) ∨
       ∃ info rules req r user autostart out, sys = some info ∧ policy = .ok rules ∧
        requestOf sa source target info rs = .ok req ∧
        Granted rules req mode agent r user autostart out ∧ AnswerFor req user autostart out fs) := by
  by_cases hs : s = denyAnswer
  · subst hs
    exact ⟨[(c!"result", c!"deny")], by decide, by decide, Or.inl rfl⟩
  obtain ⟨info, rules, req, r, user, autostart, out, hsys, hpol, hreq, hg, hans⟩ :=
    C04_no_allow_without_grant sys policy agent mode source target sa rs
      (fun i hi => (hn i hi).1) (fun rs hrs r hr => (hrules rs hrs r hr).1) evs s h hs
  rcases hans with ⟨hje, rfl⟩ | ⟨_, fs, hans, rfl⟩
  · exact ⟨[(c!"result", c!"allow")], by decide, by decide, Or.inr (Or.inl ⟨hje, rfl⟩)⟩
  obtain ⟨hmem, hact⟩ := granted_rule hg
  obtain ⟨hi1, hi2, hi, _⟩ := mkRequest_ok hreq
  have hsplit : '\n' ∉ req.service ∧ '\n' ∉ req.argument := by
    rw [hi1, hi2]
    rcases splitServiceArg_spec sa with ⟨_, h⟩ | ⟨s, a, _, h1, h⟩ <;> rw [h]
    · exact ⟨hsa, by simp⟩
    · rw [h1] at hsa
      simp only [List.mem_append, List.mem_cons, not_or] at hsa
      simp only [List.mem_cons, not_or]
      exact ⟨hsa.1, by decide, hsa.2.2⟩
  obtain ⟨h1, h2⟩ := C21_answer_reads_back_partial req user autostart out fs hans
    (isRequest_of hreq) (by rw [hi]; exact (hn _ hsys).2) (by
      rintro u rfl
      rcases hact with ⟨t, n, ha⟩ | ⟨t, d, n, ha⟩
      · exact (hrules _ hpol _ hmem).2 u t none n autostart (Or.inl ha)
      · exact (hrules _ hpol _ hmem).2 u t d n autostart (Or.inr ha)) (fun _ => hsplit)
  exact ⟨fs, h1, h2, Or.inr (Or.inr ⟨info, rules, req, r, user, autostart, out, hsys, hpol, hreq,
    hg, hans⟩)⟩

theorem exInfo_clean : NoNewlines exInfo := by
  intro k d h
  have : ∀ x ∈ exInfo, '\n' ∉ x.1 ∧ (∀ u ∈ x.2.uuid, '\n' ∉ u) ∧
    (∀ y ∈ x.2.relayvm, '\n' ∉ y) ∧ (∀ y ∈ x.2.transportRpc, '\n' ∉ y) ∧
    ∀ y ∈ x.2.defaultDispvm, '\n' ∉ y := by decide
  exact this _ (get?_mem h)

example : ∃ evs s, handleRequest (some exInfo) (.ok [exAsk]) exAgent {} c!"work" c!"x\nresult=allow"
    c!"svc+arg" [] = (evs, .ok s) ∧ s ≠ denyAnswer :=
  ⟨_, _, rfl, by decide⟩

/-- A caller-chosen argument with a newline forges a field of the answer, if the target is a
remote domain (and the caller of `handle_request` lets newlines through). -/
theorem C21_violated_remote :
    (handleRequest (some exInfo2) (.ok [exAllowAll]) exAgent {} c!"work" c!"far"
      c!"svc+\npolicy_source=dom0" []).2 =
      .ok (answerText [(c!"user", c!"DEFAULT"), (c!"result", c!"allow"), (c!"target", c!"relay"),
        (c!"target_uuid", c!"uuid:u1"), (c!"autostart", c!"True"),
        (c!"requested_target", c!"far"), (c!"service", c!"tr+far+svc+"),
        (c!"policy_source", c!"dom0")]) := by decide

/-! ## C46 -/

/-- What an allowed request notifies: the GUI domain of the source, if the rule says so. -/
def allowEvents (res : AllowRes) : List Event → Prop := fun evs =>
  (∀ g, res.rule.action.notify = true → GuiOf res.request.info res.request.source g →
    evs = [.notify g true res.request.service res.request.argument res.request.source res.target]) ∧
  ((res.rule.action.notify = false ∨ ∀ g, ¬ GuiOf res.request.info res.request.source g) → evs = [])

theorem execAllow_events (res : AllowRes) :
    allowEvents res (execAllow {} res).1 ∧ (execAllow {} res).2 = res.execute := by
  unfold execAllow
  simp only [Bool.false_eq_true, if_false, and_true]
  have hgui : ∀ g, GuiOf res.request.info res.request.source g ↔
      lookupGui res.request.info res.request.source = some g := by
    intro g
    unfold GuiOf lookupGui
    cases res.request.info.get? res.request.source with
    | none => simp
    | some d => simp [truthy_eq_some]
  generalize lookupGui res.request.info res.request.source = og at hgui
  constructor
  · intro g h1 h2
    rw [(hgui g).1 h2]
    simp [h1]
  · rintro (h1 | h1)
    · cases og <;> simp [h1]
    · cases og with
      | none => rfl
      | some g => exact absurd ((hgui g).2 rfl) (h1 g)

/-- **C46.** An allowed request notifies exactly if the rule says `notify=yes` and the source has
a GUI domain; mere evaluation never notifies. -/
theorem C46_allowed_partial (info : Info) (rules : List Rule) (agent : Agent) (source target sa rs : Str)
    (req : Request) (res : AllowRes) (hreq : requestOf sa source target info rs = .ok req)
    (hev : evaluate rules req = .ok (.allow res)) (evs : List Event) (s : Str)
    (h : handleRequest (some info) (.ok rules) agent {} source target sa rs = (evs, .ok s))
    (hs : s ≠ denyAnswer) : allowEvents res evs := by
  rcases handleRequest_ok h with h | ⟨info', rules', req', res', hsys, hpol, hreq', hev', hex⟩
  · exact absurd h hs
  cases hsys; cases hpol
  rw [show req' = req from Except.ok.inj (hreq'.symm.trans hreq)] at hev'
  rw [hev] at hev'; cases hev'
  have := (execAllow_events res).1
  simp only [execResolution] at hex
  rw [hex] at this
  exact this

/-- **C46.** Evaluation only: no event whatsoever, whatever the outcome. -/
theorem C46_just_evaluate (sys : Option Info) (policy : Except Err (List Rule)) (agent : Agent)
    (mode : Mode) (hm : mode.justEvaluate = true) (source target sa rs : Str) :
    (handleRequest sys policy agent mode source target sa rs).1 = [] := by
  have hal : ∀ r, (execAllow mode r).1 = [] := by
    intro r
    unfold execAllow
    rw [if_pos hm]
  have htr : ∀ info, (tryRequest policy mode agent (splitServiceArg sa).1
      (splitServiceArg sa).2 source target info rs).1 = [] := by
    intro info
    unfold tryRequest
    split
    · rfl
    · split
      · rfl
      · split
        · rfl
        · rename_i res _
          cases res with
          | allow r => exact hal r
          | ask a =>
            simp only [execResolution]
            unfold execAsk
            rw [hm]
            split
            · split
              · exact hal _
              · rfl
            · rfl
  unfold handleRequest
  split
  · rfl
  · rename_i info
    have := htr info
    simp only
    split
    · exact this
    · exact this
    · split_ifs
      · unfold onDenied
        rw [hm]
        simp only [Bool.not_true, Bool.and_false, Bool.false_eq_true, if_false]
        exact this
      · exact this

/-- **C46.** A question answered with `deny`: the refusal is notified exactly if the ask rule says
`notify=yes`. -/
theorem C46_user_denied (info : Info) (rules : List Rule) (agent : Agent)
    (source target sa : Str) (req : Request) (a : AskRes) (g : Str)
    (hn : OrdinaryNames info) (hreq : requestOf sa source target info [] = .ok req)
    (hev : evaluate rules req = .ok (.ask a)) (hg : GuiOf info source g)
    (hag : agent g (questionOf a) = .ok c!"deny") :
    handleRequest (some info) (.ok rules) agent {} source target sa [] =
      (.ask g (questionOf a) :: (if a.rule.action.notify then
        [.notify g false (splitServiceArg sa).1 (splitServiceArg sa).2 source target] else []),
       .ok denyAnswer) := by
  obtain ⟨_, _, hi, _, _, _, hso⟩ := mkRequest_ok hreq
  have hsource : req.source = source := by
    rcases hso with ⟨_, h, _⟩ | ⟨h, _⟩
    · exact h
    · exact absurd rfl h
  obtain ⟨har, _⟩ := evaluate_ask (by rw [hi]; exact hn) hev
  obtain ⟨d, hd, hg1, hg2⟩ := hg
  have hgt : truthy d.guivm = some g := truthy_eq_some.2 ⟨hg1, hg2⟩
  have hq : questionOf a =
      ⟨source, req.service, req.argument, a.targetsForAsk, a.defaultTarget.getD []⟩ := by
    unfold questionOf; rw [har, hsource]
  have hx : execResolution {} agent (.ask a) =
      ([.ask g (questionOf a)], .error (.accessDenied a.rule.action.notify)) := by
    have hag' := hag
    rw [hq] at hag'
    simp only [execResolution, execAsk, Bool.false_eq_true, if_false, har, hi, hsource, hd, hgt,
      hag', beq_self_eq_true, if_true, hq]
  rw [handleRequest_exec_denied hreq hev hx]
  unfold onDenied
  simp only [hd, hgt, Bool.not_false, Bool.and_true]
  split_ifs <;> rfl

/-- A loopback call under an `allow notify=yes` rule: the user is notified of an allowed call and
of a denied one, and the answer is deny. -/
theorem C46_violated_loopback :
    handleRequest (some exInfo) (.ok [{ exAllowAll with action := .allow none none true true }])
      exAgent {} c!"work" c!"work" c!"svc" [] =
      ([.notify c!"dom0" true c!"svc" c!"+" c!"work" c!"work",
        .notify c!"dom0" false c!"svc" c!"+" c!"work" c!"work"], .ok denyAnswer) := by decide

/-- A syntax error in the policy is never notified. -/
example : handleRequest (some exInfo) (.error .policySyntax) exAgent {} c!"work" c!"vault" c!"svc" []
    = ([], .ok denyAnswer) := by decide

/-! ## C11 at the frontend -/

theorem fields_total {r : AllowRes} (hs : SystemInfo r.request.info)
    (hrel : ∀ k d x, r.request.info.get? k = some d → d.cls = c!"RemoteVM" → d.relayvm = some x →
      x ≠ [] → ∃ rd, r.request.info.get? x = some rd)
    (ht : Dom0 r.target ∨ (∃ t d, r.target = c!"@dispvm:" ++ t ∧ r.request.info.get? t = some d) ∨
      ∃ d, r.request.info.get? r.target = some d) :
    (∃ s, r.execute = .ok s) ∨ r.execute = .error (.accessDenied true) := by
  have hf : (∃ fs, r.fields = .ok fs) ∨ r.fields = .error (.accessDenied true) := by
    unfold AllowRes.fields
    split_ifs with h1 h2 h3
    · exact Or.inr rfl
    · exact Or.inl ⟨_, rfl⟩
    · obtain ⟨t, htt⟩ := startsWith_iff.1 h3
      have hex : ∃ d, r.request.info.get? t = some d := by
        rcases ht with h | ⟨t', d, h, hd⟩ | ⟨d, hd⟩
        · exact absurd ((isDom0_iff _).2 h) h2
        · rw [htt] at h
          rw [List.append_cancel_left h]; exact ⟨d, hd⟩
        · rw [htt] at hd; exact absurd rfl (hs.ordinary _ _ hd).2.1
      obtain ⟨d, hd⟩ := hex
      obtain ⟨u, hu, _⟩ := hs.uuid_of t d hd
      have hdrop : r.target.drop 8 = t := by rw [htt]; rfl
      rw [hdrop, lookup_eq_ok.2 hd]
      simp only [ok_bind, getUuid_eq_ok.2 hu]
      exact Or.inl ⟨_, rfl⟩
    · have hex : ∃ d, r.request.info.get? r.target = some d := by
        rcases ht with h | ⟨t', d, h, hd⟩ | ⟨d, hd⟩
        · exact absurd ((isDom0_iff _).2 h) h2
        · rw [h] at h3; exact absurd (startsWith_append _ _) h3
        · exact ⟨d, hd⟩
      obtain ⟨d, hd⟩ := hex
      obtain ⟨u, hu, _⟩ := hs.uuid_of _ d hd
      rw [lookup_eq_ok.2 hd]
      simp only [ok_bind]
      split_ifs with h4
      · unfold AllowRes.remoteFields
        split
        · exact Or.inr rfl
        · rename_i relay hre
          split
          · exact Or.inr rfl
          · obtain ⟨a1, a2⟩ := truthy_eq_some.1 hre
            obtain ⟨rd, hrd⟩ := hrel _ d relay hd (by simpa using h4) a1 a2
            obtain ⟨u', hu', _⟩ := hs.uuid_of _ rd hrd
            rw [lookup_eq_ok.2 hrd]
            simp only [ok_bind, getUuid_eq_ok.2 hu']
            exact Or.inl ⟨_, rfl⟩
      · simp only [getUuid_eq_ok.2 hu, ok_bind]
        exact Or.inl ⟨_, rfl⟩
  unfold AllowRes.execute
  rcases hf with ⟨fs, hf⟩ | hf <;> rw [hf]
  · exact Or.inl ⟨_, rfl⟩
  · exact Or.inr rfl

/-- A target whose answer can be computed. -/
def Resolvable (info : Info) (t : Str) : Prop :=
  Dom0 t ∨ (∃ v d, t = c!"@dispvm:" ++ v ∧ info.get? v = some d) ∨ ∃ d, info.get? t = some d

theorem execAllow_total {mode : Mode} {r : AllowRes} (hs : SystemInfo r.request.info)
    (hrel : ∀ k d x, r.request.info.get? k = some d → d.cls = c!"RemoteVM" → d.relayvm = some x →
      x ≠ [] → ∃ rd, r.request.info.get? x = some rd)
    (ht : Resolvable r.request.info r.target) :
    (∃ s, (execAllow mode r).2 = .ok s) ∨
      ∃ e, (execAllow mode r).2 = .error e ∧ e.isAccessDenied = true := by
  unfold execAllow
  by_cases h : mode.justEvaluate = true
  · rw [if_pos h]; exact Or.inl ⟨_, rfl⟩
  · rw [if_neg h]
    rcases fields_total hs hrel ht with ⟨s, hf⟩ | hf
    · exact Or.inl ⟨s, hf⟩
    · exact Or.inr ⟨_, hf, rfl⟩

theorem offered_resolvable {rules : List Rule} {req : Request} {a : AskRes}
    (hs : SystemInfo req.info)
    (hask : ∀ r ∈ rules, ∀ t d u n b, r.action = .ask (some t) d u n b → Resolvable req.info t.str)
    (hev : evaluate rules req = .ok (.ask a)) :
    ∀ t ∈ a.targetsForAsk, Resolvable req.info t := by
  intro t hmem
  by_cases hr : ∀ t d u n a', a.rule.action ≠ .ask (some t) d u n a'
  · obtain ⟨k, d, hd, _, h⟩ := (C14_offered_targets_valid rules req hs a hev hr t hmem).1
    rcases h with rfl | rfl
    · exact Or.inr (Or.inr ⟨d, hd⟩)
    · exact Or.inr (Or.inl ⟨k, d, rfl, hd⟩)
  · obtain ⟨_, pre, post, _, _, _, hf, _⟩ := evaluate_ask hs.ordinary hev
    have hmr : a.rule ∈ rules := by rw [hf.split]; simp
    unfold evaluate at hev
    obtain ⟨r, _, hev⟩ := bind_eq_ok.1 hev
    unfold evalAction at hev
    split at hev
    · simp at hev
    · obtain ⟨_, _, hev⟩ := map_eq_ok.1 hev; simp at hev
    · rename_i t' d u n b hact
      obtain ⟨_, h1, h2⟩ := map_eq_ok.1 hev
      cases h2
      obtain ⟨_, ts0, ts, dt, h0, hfl, _, _, rfl⟩ := evalAsk_ok h1
      have hm := ((autostartFilter_ok hs.ordinary hfl t).1 hmem).1
      cases t' with
      | none => exact absurd (fun t d u n a' => by rw [hact]; simp) hr
      | some t' =>
        simp only [askTargets, Except.ok.injEq] at h0
        subst h0
        split_ifs at hm with h0
        · simp only [List.mem_singleton] at hm; subst hm; exact Or.inl (Or.inl rfl)
        · simp only [List.mem_singleton] at hm; subst hm
          exact hask _ hmr _ _ _ _ _ hact

theorem handleUserResponse_total {a : AskRes} (hs : SystemInfo a.request.info)
    (hall : ∀ t ∈ a.targetsForAsk, Resolvable a.request.info t) (t : Str) :
    (t ∈ a.targetsForAsk ∧ a.handleUserResponse true t = .ok (approved a t)) ∨
      a.handleUserResponse true t = .error (.accessDenied true) := by
  unfold AskRes.handleUserResponse
  by_cases h : t ∈ a.targetsForAsk
  · refine Or.inl ⟨h, ?_⟩
    have hcon : (!a.targetsForAsk.contains t) = false := by simpa using h
    rw [hcon]
    simp only [Bool.not_true, Bool.false_eq_true, if_false]
    unfold AllowRes.fromAsk
    split_ifs with hsw
    · obtain ⟨v, rfl⟩ := startsWith_iff.1 hsw
      have : ∃ d, a.request.info.get? v = some d := by
        rcases hall _ h with h0 | ⟨v', d, hv, hd⟩ | ⟨d, hd⟩
        · simp [Dom0] at h0
        · rw [List.append_cancel_left hv]; exact ⟨d, hd⟩
        · exact absurd rfl (hs.ordinary _ _ hd).2.1
      obtain ⟨d, hd⟩ := this
      have ho := hs.ordinary _ _ hd
      rw [show List.drop 8 (c!"@dispvm:" ++ v) = v from rfl, mkDispvmTemplate_of ho.1 ho.2.1]
      rfl
    · rfl
  · exact Or.inr (by simp [h])

/-- **C11 (part).** In a consistent state the frontend answers every request of an existing domain
(with a requested source of its own relayed domain, or none), if
* the provisos of `C11_total_partial` hold for the request,
* every configured relay exists, and `target=` of ask rules names dom0, an existing domain or a
  disposable of an existing domain (see `C11_violated_ask_dispvm`),
* the GUI agent can be reached. -/
theorem C11_frontend_partial (info : Info) (rules : List Rule) (agent : Agent) (mode : Mode)
    (source target sa rs : Str) (hs : SystemInfo info) (hsrc : ∃ d, info.get? source = some d)
    (hrules : ∀ r ∈ rules, IsRule r)
    (hd : ∀ req, requestOf sa source target info rs = .ok req → DispvmReady req)
    (hex : ∀ r ∈ rules, ∀ v, AboutTarget r (.dispvmTemplate v) → ∃ d, info.get? v = some d)
    (hask : ∀ r ∈ rules, ∀ t d u n a, r.action = .ask (some t) d u n a → Resolvable info t.str)
    (hrel : ∀ k d x, info.get? k = some d → d.cls = c!"RemoteVM" → d.relayvm = some x → x ≠ [] →
      ∃ rd, info.get? x = some rd)
    (hag : ∀ g q, ∃ resp, agent g q = .ok resp) :
    ∃ s, (handleRequest (some info) (.ok rules) agent mode source target sa rs).2 = .ok s := by
  -- the run inside the try block ends with an answer or an `AccessDenied`
  have key : (∃ s, (tryRequest (.ok rules) mode agent (splitServiceArg sa).1 (splitServiceArg sa).2
      source target info rs).2 = .ok s) ∨
      ∃ e, (tryRequest (.ok rules) mode agent (splitServiceArg sa).1 (splitServiceArg sa).2
      source target info rs).2 = .error e ∧ e.isAccessDenied = true := by
    unfold tryRequest
    simp only
    cases hreq : mkRequest (splitServiceArg sa).1 (splitServiceArg sa).2 source target info rs with
    | error e =>
      refine Or.inr ⟨e, rfl, ?_⟩
      unfold mkRequest at hreq
      simp only [bind_eq_error, require_eq_error, splitServiceArg_plus, Bool.true_eq_false,
        false_and, false_or] at hreq
      obtain ⟨_, _, hreq⟩ := hreq
      rcases hreq with h1 | ⟨tok, _, h1 | ⟨tok2, _, h1⟩⟩
      · rw [parseToken_error h1]; rfl
      · unfold Token.verify at h1
        split at h1
        · split_ifs at h1
        · split at h1
          · simp at h1; rw [← h1]; rfl
          · split_ifs at h1
            simp at h1; rw [← h1]; rfl
        · simp at h1
      · unfold applyRequestedSource at h1
        split_ifs at h1
        split at h1
        · simp at h1; rw [← h1]; rfl
        · split_ifs at h1 <;> (simp at h1; rw [← h1]; rfl)
    | ok req =>
      obtain ⟨_, _, hi, _, _, _, hso⟩ := mkRequest_ok hreq
      have hsi : SystemInfo req.info := by rw [hi]; exact hs
      have hq := isRequest_of hreq
      have hsr : ∃ d, req.info.get? req.source = some d := by
        rw [hi]
        rcases hso with ⟨_, h, _⟩ | ⟨_, h, _, d, hd, _⟩
        · rw [h]; exact hsrc
        · rw [h]; exact ⟨d, hd⟩
      have htot := C11_total_partial rules req hsi hrules hq (hd req hreq) hsr
        (by rw [hi]; exact hex) (by
          intro r hr t d u n ha
          rw [hi]
          rcases hask r hr t d u n false ha with h | ⟨v, _, h, _⟩ | ⟨d, h⟩
          · exact Or.inl h
          · exact Or.inr (Or.inl ⟨':' :: v, h⟩)
          · exact Or.inr (Or.inr (by rw [h]; simp)))
      rcases htot with ⟨res, hev⟩ | ⟨e, hev, he⟩
      · simp only [hev]
        have hrel' : ∀ k d x, req.info.get? k = some d → d.cls = c!"RemoteVM" →
            d.relayvm = some x → x ≠ [] → ∃ rd, req.info.get? x = some rd := by
          rw [hi]; exact hrel
        cases res with
        | allow r =>
          obtain ⟨hrr, hg⟩ := evaluate_granted_allow hsi.ordinary hrules hq hev mode agent
          simp only [execResolution]
          refine execAllow_total (by rw [hrr]; exact hsi) (by rw [hrr]; exact hrel') ?_
          rw [hrr]
          cases hg with
          | byRule _ _ h =>
            generalize r.target = out at h
            cases h with
            | adminvm => exact Or.inl (Or.inl rfl)
            | dispvm _ hdd =>
              obtain ⟨ds, h1, h2⟩ := hdd
              obtain ⟨d', h3, _⟩ := hsi.default_exists _ _ _ h1 h2
              exact Or.inr (Or.inl ⟨_, d', rfl, h3⟩)
            | template _ h => exact Or.inr (Or.inl ⟨_, _, rfl, h⟩)
            | name _ h => exact Or.inr (Or.inr ⟨_, h⟩)
          | byUser _ _ _ hev' => rw [hev] at hev'; simp at hev'
          | byMode _ _ _ hev' => rw [hev] at hev'; simp at hev'
        | ask a =>
          obtain ⟨har, _⟩ := evaluate_ask hsi.ordinary hev
          have hall := offered_resolvable hsi (by rw [hi]; exact hask) hev
          have hall' : ∀ t ∈ a.targetsForAsk, Resolvable a.request.info t := by
            rw [har]; exact hall
          have hsa : SystemInfo a.request.info := by rw [har]; exact hsi
          have hap : ∀ t ∈ a.targetsForAsk, (∃ s, (execAllow mode (approved a t)).2 = .ok s) ∨
              ∃ e, (execAllow mode (approved a t)).2 = .error e ∧ e.isAccessDenied = true := by
            intro t ht
            refine execAllow_total hsa ?_ (hall' t ht)
            simp only [approved, har]
            exact hrel'
          obtain ⟨ds, hds⟩ := hsr
          simp only [execResolution]
          unfold execAsk
          split_ifs with h1 h2
          · rcases handleUserResponse_total hsa hall' a.request.target.str with ⟨ht, h⟩ | h
            · rw [h]; exact hap _ ht
            · rw [h]; exact Or.inr ⟨_, rfl, rfl⟩
          · exact Or.inl ⟨_, rfl⟩
          · rw [har, hds]
            simp only
            split
            · exact Or.inr ⟨_, rfl, rfl⟩
            · split
              · rename_i e he
                obtain ⟨resp, hresp⟩ := hag _ _
                rw [hresp] at he; simp at he
              · rename_i resp _
                split_ifs with h3 h4
                · exact Or.inr ⟨_, rfl, rfl⟩
                · rcases handleUserResponse_total hsa hall' (resp.drop 6) with ⟨ht, h⟩ | h
                  · rw [h]
                    simp only
                    exact hap _ ht
                  · rw [h]; exact Or.inr ⟨_, rfl, rfl⟩
                · exact Or.inr ⟨_, rfl, rfl⟩
      · simp only [hev]
        exact Or.inr ⟨e, rfl, he⟩
  unfold handleRequest
  simp only
  rcases key with ⟨s, hk⟩ | ⟨e, hk, he⟩
  · rw [hk]; exact ⟨s, rfl⟩
  · rw [hk]
    cases e <;> first
      | exact ⟨_, rfl⟩
      | exact ⟨_, onDenied_answer hsrc⟩
      | exact absurd he Bool.false_ne_true

/-- `ask target=@dispvm` offers the bare keyword; approving it raises `KeyError` and the call is
never answered. -/
theorem C11_violated_ask_dispvm :
    (handleRequest (some exInfo)
      (.ok [{ exAsk with action := .ask (some .dispvm) none none false true }])
      (fun _ _ => .ok c!"allow:@dispvm") {} c!"work" c!"vault" c!"svc" []).2 =
      .error .keyError := by decide

/-- A refused call of a domain qubesd does not know is never answered. -/
theorem C11_violated_unknown_source :
    (handleRequest (some exInfo) (.ok []) exAgent {} c!"nosuch" c!"vault" c!"svc" []).2 =
      .error .keyError := by decide

end Qrexec
