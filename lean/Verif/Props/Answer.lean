import Verif.Props.Exec

/-!
# C16, C18, C19, C20, C21, C46, and the totality of the frontend (C11)
-/
namespace Qrexec
open Spec

/-! ## C16 -/

theorem handleRequest_eval {info : Info} {rules : List Rule} {agent : Agent} {mode : Mode}
    {source target sa rs : Str} {req : Request} {res : Resolution}
    (hreq : requestOf sa source target info rs = .ok req) (hev : evaluate rules req = .ok res) :
    tryRequest (.ok rules) mode agent (splitServiceArg sa).1 (splitServiceArg sa).2 source target
      info rs = execResolution mode agent res := by
  have hreq' : mkRequest (splitServiceArg sa).1 (splitServiceArg sa).2 source target info rs =
    .ok req := hreq
  unfold tryRequest
  simp only [hreq', hev]

theorem handleRequest_exec {info : Info} {rules : List Rule} {agent : Agent} {mode : Mode}
    {source target sa rs : Str} {req : Request} {res : Resolution} {evs : List Event} {s : Str}
    (hreq : requestOf sa source target info rs = .ok req) (hev : evaluate rules req = .ok res)
    (hex : execResolution mode agent res = (evs, .ok s)) :
    handleRequest (some info) (.ok rules) agent mode source target sa rs = (evs, .ok s) := by
  unfold handleRequest
  simp only [handleRequest_eval hreq hev, hex]

theorem handleRequest_exec_denied {info : Info} {rules : List Rule} {agent : Agent} {mode : Mode}
    {source target sa rs : Str} {req : Request} {res : Resolution} {evs : List Event} {n : Bool}
    (hreq : requestOf sa source target info rs = .ok req) (hev : evaluate rules req = .ok res)
    (hex : execResolution mode agent res = (evs, .error (.accessDenied n))) :
    handleRequest (some info) (.ok rules) agent mode source target sa rs =
      onDenied info mode n (splitServiceArg sa).1 (splitServiceArg sa).2 source target evs := by
  unfold handleRequest
  simp only [handleRequest_eval hreq hev, hex]
  rfl

theorem onDenied_answer {info : Info} {mode : Mode} {n : Bool} {service argument source target : Str}
    {evs : List Event} (hsrc : ∃ d, info.get? source = some d) :
    (onDenied info mode n service argument source target evs).2 = .ok denyAnswer := by
  obtain ⟨d, hd⟩ := hsrc
  unfold onDenied
  split_ifs
  · simp only [hd]; split <;> rfl
  · rfl

/-- **C16.** An ask that was put to the user and not refused: the reply was exactly `allow:T` for
one of the offered targets `T`, and the answer is the one for `T`. -/
theorem C16_only_offered (info : Info) (rules : List Rule) (agent : Agent)
    (source target sa rs : Str) (req : Request) (a : AskRes)
    (hreq : requestOf sa source target info rs = .ok req)
    (hev : evaluate rules req = .ok (.ask a)) (evs : List Event) (s : Str)
    (h : handleRequest (some info) (.ok rules) agent {} source target sa rs = (evs, .ok s))
    (hs : s ≠ denyAnswer) :
    ∃ t g fs, t ∈ a.targetsForAsk ∧ GuiOf info a.request.source g ∧
      agent g (questionOf a) = .ok (c!"allow:" ++ t) ∧
      AnswerFor a.request a.user a.autostart t fs ∧ s = answerText fs := by
  rcases handleRequest_ok h with h | ⟨info', rules', req', res, hsys, hpol, hreq', hev', hex⟩
  · exact absurd h hs
  cases hsys; cases hpol
  rw [show req' = req from Except.ok.inj (hreq'.symm.trans hreq)] at hev'
  rw [hev] at hev'; cases hev'
  have hi : a.request.info = info := by
    have : a.request = req := by
      unfold evaluate at hev
      obtain ⟨r, _, hev⟩ := bind_eq_ok.1 hev
      unfold evalAction at hev
      split at hev
      · simp at hev
      · obtain ⟨_, _, hev⟩ := map_eq_ok.1 hev; simp at hev
      · obtain ⟨_, h1, h2⟩ := map_eq_ok.1 hev
        cases h2
        obtain ⟨_, _, _, _, _, _, _, _, rfl⟩ := evalAsk_ok h1
        rfl
    rw [this]; exact (mkRequest_ok hreq).2.2.1
  rcases execAsk_ok hex with ⟨_, h2, _⟩ | ⟨t, evs', ht, hwho, hex2⟩
  · simp at h2
  rcases hwho with ⟨h1, _⟩ | ⟨_, _, g, hg, hag, _⟩
  · simp at h1
  rcases execAllow_ok hex2 with ⟨h1, _⟩ | ⟨_, fs, hfs, rfl⟩
  · simp at h1
  rw [hi] at hg
  exact ⟨t, g, fs, ht, hg, hag, hfs, rfl⟩

/-- **C16.** Every other reply (`deny`, malformed, an unknown target) is a refusal, and so is a
missing GUI domain. -/
theorem C16_other_replies_refused (info : Info) (rules : List Rule) (agent : Agent)
    (source target sa : Str) (req : Request) (a : AskRes)
    (hsrc : ∃ d, info.get? source = some d)
    (hreq : requestOf sa source target info [] = .ok req)
    (hn : OrdinaryNames info)
    (hev : evaluate rules req = .ok (.ask a))
    (hrep : (∀ g, ¬ GuiOf info source g) ∨
      ∃ g resp, GuiOf info source g ∧ agent g (questionOf a) = .ok resp ∧
        ∀ t ∈ a.targetsForAsk, resp ≠ c!"allow:" ++ t) :
    (handleRequest (some info) (.ok rules) agent {} source target sa []).2 = .ok denyAnswer := by
  obtain ⟨_, _, hi, _, _, _, hso⟩ := mkRequest_ok hreq
  have hsource : req.source = source := by
    rcases hso with ⟨_, h, _⟩ | ⟨h, _⟩
    · exact h
    · exact absurd rfl h
  obtain ⟨har, _⟩ := evaluate_ask (by rw [hi]; exact hn) hev
  obtain ⟨d, hd⟩ := hsrc
  have hgui : ∀ g, GuiOf info source g ↔ truthy d.guivm = some g := by
    intro g
    rw [truthy_eq_some]
    constructor
    · rintro ⟨d', h1, h2⟩; rw [hd] at h1; cases h1; exact h2
    · exact fun h => ⟨d, hd, h⟩
  have hden : ∃ evs n, execResolution {} agent (.ask a) = (evs, .error (.accessDenied n)) := by
    simp only [execResolution, execAsk, Bool.false_eq_true, if_false, har, hi, hsource, hd]
    cases hg : truthy d.guivm with
    | none => exact ⟨_, _, rfl⟩
    | some g =>
      simp only
      rcases hrep with hrep | ⟨g', resp, hg', hag, hall⟩
      · exact absurd ((hgui g).2 hg) (hrep g)
      · have : g' = g := by
          have := (hgui g').1 hg'
          rw [hg] at this; exact (Option.some.inj this).symm
        subst this
        have hq : questionOf a =
          ⟨source, req.service, req.argument, a.targetsForAsk, a.defaultTarget.getD []⟩ := by
          unfold questionOf; rw [har, hsource]
        rw [hq] at hag
        simp only [hag]
        by_cases h1 : (resp == c!"deny") = true
        · rw [if_pos h1]; exact ⟨_, _, rfl⟩
        · rw [if_neg h1]
          by_cases h2 : startsWith c!"allow:" resp = true
          · rw [if_pos h2]
            obtain ⟨t, rfl⟩ := startsWith_iff.1 h2
            have h3 : t ∉ a.targetsForAsk := fun h => hall t h rfl
            have h4 : a.handleUserResponse true (List.drop 6 (c!"allow:" ++ t)) =
                .error (.accessDenied true) := by
              unfold AskRes.handleUserResponse
              rw [show List.drop 6 (c!"allow:" ++ t) = t from rfl]
              simp [h3]
            rw [h4]
            exact ⟨_, _, rfl⟩
          · rw [if_neg h2]; exact ⟨_, _, rfl⟩
  obtain ⟨evs, n, hex⟩ := hden
  rw [handleRequest_exec_denied hreq hev hex]
  exact onDenied_answer ⟨d, hd⟩

/-- **C16.** Conversely, approving an offered plain target leads to the answer for exactly this
target (when it is not the caller and not a remote domain). -/
theorem C16_approved (info : Info) (rules : List Rule) (agent : Agent)
    (source target sa : Str) (req : Request) (a : AskRes) (t g : Str) (d : Dom)
    (hs : SystemInfo info)
    (hreq : requestOf sa source target info [] = .ok req)
    (hev : evaluate rules req = .ok (.ask a)) (ht : t ∈ a.targetsForAsk)
    (hd : info.get? t = some d) (hcls : d.cls ≠ c!"RemoteVM") (hts : t ≠ source)
    (hg : GuiOf info source g) (hag : agent g (questionOf a) = .ok (c!"allow:" ++ t)) :
    ∃ evs fs, handleRequest (some info) (.ok rules) agent {} source target sa [] =
      (evs, .ok (answerText fs)) ∧ AnswerFor req a.user a.autostart t fs := by
  obtain ⟨_, _, hi, _, hrs, _, hso⟩ := mkRequest_ok hreq
  have hsource : req.source = source := by
    rcases hso with ⟨_, h, _⟩ | ⟨h, _⟩
    · exact h
    · exact absurd rfl h
  obtain ⟨har, _⟩ := evaluate_ask (by rw [hi]; exact hs.ordinary) hev
  obtain ⟨u, hu, _⟩ := hs.uuid_of t d hd
  have hfields : ∃ fs, (approved a t).fields = .ok fs := by
    unfold AllowRes.fields
    simp only [approved, har, hsource, hi]
    have h1 : (source == t) = false := by simpa using Ne.symm hts
    rw [h1]
    simp only [Bool.false_eq_true, if_false]
    split_ifs with h2 h3
    · exact ⟨_, rfl⟩
    · obtain ⟨t0, rfl⟩ := startsWith_iff.1 h3
      exact absurd rfl (hs.ordinary _ _ hd).2.1
    · have hl : info.lookup t = .ok d := lookup_eq_ok.2 hd
      have hgu : d.getUuid = .ok u := getUuid_eq_ok.2 hu
      have h4 : (d.cls == c!"RemoteVM") = false := by simpa using hcls
      simp only [hl, ok_bind, h4, Bool.false_eq_true, if_false, hgu]
      exact ⟨_, rfl⟩
  obtain ⟨fs, hfs⟩ := hfields
  have hans : AnswerFor req a.user a.autostart t fs := by
    have := fields_ok hfs
    simp only [approved, har] at this
    exact this
  have hhur : a.handleUserResponse true t = .ok (approved a t) := by
    unfold AskRes.handleUserResponse AllowRes.fromAsk
    have hnd : startsWith c!"@dispvm:" t = false := by
      rw [startsWith_false]
      rintro ⟨t0, rfl⟩
      exact absurd rfl (hs.ordinary _ _ hd).2.1
    simp [ht, hnd, approved]
  have hex : ∃ evs, execResolution {} agent (.ask a) = (evs, .ok (answerText fs)) := by
    obtain ⟨ds, hds, hds1, hds2⟩ := hg
    have hgt : truthy ds.guivm = some g := truthy_eq_some.2 ⟨hds1, hds2⟩
    have hq : questionOf a =
          ⟨source, req.service, req.argument, a.targetsForAsk, a.defaultTarget.getD []⟩ := by
      unfold questionOf; rw [har, hsource]
    rw [hq] at hag
    simp only [execResolution, execAsk, Bool.false_eq_true, if_false, har, hi, hsource, hds, hgt,
      hag]
    have h1 : ¬ ((c!"allow:" ++ t) == c!"deny") = true := by
      simp
    rw [if_neg h1, if_pos (startsWith_append _ _),
      show List.drop 6 (c!"allow:" ++ t) = t from rfl, hhur]
    have hx : (approved a t).execute = .ok (answerText fs) := by
      unfold AllowRes.execute; rw [hfs]; rfl
    simp only [execAllow, Bool.false_eq_true, if_false, hx]
    exact ⟨_, rfl⟩
  obtain ⟨evs, hex⟩ := hex
  exact ⟨evs, fs, handleRequest_exec hreq hev hex, hans⟩

theorem fields_complete {r : AllowRes} {fs : List (Str × Str)} (ho : OrdinaryNames r.request.info)
    (h : AnswerFor r.request r.user r.autostart r.target fs) : r.fields = .ok fs := by
  have src : r.target ≠ r.request.source → ¬ (r.request.source == r.target) = true := by
    intro h hh; exact h (by simpa using hh : r.request.source = r.target).symm
  unfold AllowRes.fields
  cases h with
  | dom0 h1 h2 => rw [if_neg (src h2), if_pos ((isDom0_iff _).2 h1)]
  | @disposable t d u h1 h2 h3 h4 =>
    have h5 : ¬ Dom0 r.target := by
      rw [h1]
      rintro (h | h | h) <;> cases h
    rw [if_neg (src h2), if_neg (fun h => h5 ((isDom0_iff _).1 h)), if_pos (startsWith_iff.2 ⟨t, h1⟩)]
    simp only [bind_eq_ok, pure_ok, Except.ok.injEq, lookup_eq_ok, getUuid_eq_ok]
    refine ⟨d, ?_, u, h4, ?_⟩
    · rw [h1]; exact h3
    · rw [policySourceLine_eq]
  | @plain d u h1 h2 h3 h4 h5 =>
    rw [if_neg (src h2), if_neg (fun h => h1 ((isDom0_iff _).1 h)), if_neg]
    · simp only [bind_eq_ok, lookup_eq_ok]
      refine ⟨d, h3, ?_⟩
      rw [if_neg (by simpa using h4)]
      simp only [bind_eq_ok, pure_ok, Except.ok.injEq, getUuid_eq_ok]
      exact ⟨u, h5, by rw [policySourceLine_eq]⟩
    · intro hh
      obtain ⟨t, ht⟩ := startsWith_iff.1 hh
      have := (ho _ _ h3).2.1
      rw [ht] at this
      exact this rfl
  | @remote d relay rd u transport h1 h2 h3 h4 h5 h6 h7 h8 h9 h10 =>
    rw [if_neg (src h2), if_neg (fun h => h1 ((isDom0_iff _).1 h)), if_neg]
    · simp only [bind_eq_ok, lookup_eq_ok]
      refine ⟨d, h3, ?_⟩
      rw [if_pos (by simpa using h4)]
      unfold AllowRes.remoteFields
      rw [truthy_eq_some.2 ⟨h5, h6⟩, truthy_eq_some.2 ⟨h7, h8⟩]
      simp only [bind_eq_ok, pure_ok, Except.ok.injEq, lookup_eq_ok, getUuid_eq_ok]
      exact ⟨rd, h9, u, h10, by rw [policySourceLine_eq]⟩
    · intro hh
      obtain ⟨t, ht⟩ := startsWith_iff.1 hh
      have := (ho _ _ h3).2.1
      rw [ht] at this
      exact this rfl

/-- **C16, approved.** Approving an offered target of any kind leads to the answer for exactly this target, if there is one. -/
theorem C16_approved_any (info : Info) (rules : List Rule) (agent : Agent)
    (source target sa : Str) (req : Request) (a : AskRes) (t g : Str) (fs : List (Str × Str))
    (ho : OrdinaryNames info)
    (hreq : requestOf sa source target info [] = .ok req)
    (hev : evaluate rules req = .ok (.ask a)) (ht : t ∈ a.targetsForAsk)
    (hans : AnswerFor req a.user a.autostart t fs)
    (hg : GuiOf info source g) (hag : agent g (questionOf a) = .ok (c!"allow:" ++ t)) :
    ∃ evs, handleRequest (some info) (.ok rules) agent {} source target sa [] = (evs, .ok (answerText fs)) := by
  obtain ⟨_, _, hi, _, hrs, _, hso⟩ := mkRequest_ok hreq
  have hsource : req.source = source := by
    rcases hso with ⟨_, h, _⟩ | ⟨h, _⟩
    · exact h
    · exact absurd rfl h
  obtain ⟨har, _⟩ := evaluate_ask (by rw [hi]; exact ho) hev
  have hfs : (approved a t).fields = .ok fs := by
    refine fields_complete (r := approved a t) ?_ ?_
    · simp only [approved, har, hi]; exact ho
    · simp only [approved, har]; exact hans
  have hhur : a.handleUserResponse true t = .ok (approved a t) := by
    unfold AskRes.handleUserResponse AllowRes.fromAsk
    rw [if_neg (by simp), if_neg (by simp [ht])]
    by_cases hd : startsWith c!"@dispvm:" t = true
    · obtain ⟨k, rfl⟩ := startsWith_iff.1 hd
      have hk : k ≠ [] ∧ k.head? ≠ some '@' := by
        generalize hz : c!"@dispvm:" ++ k = z at hans
        cases hans with
        | dom0 h1 h2 =>
          rw [← hz] at h1
          rcases h1 with h | h | h <;> cases h
        | @disposable t' d u h1 h2 h3 h4 =>
          rw [← hz] at h1
          have := List.append_cancel_left h1
          subst this
          rw [hi] at h3
          exact ⟨(ho _ _ h3).1, (ho _ _ h3).2.1⟩
        | plain h1 h2 h3 => rw [hi] at h3; rw [← hz] at h3; exact absurd rfl (ho _ _ h3).2.1
        | remote h1 h2 h3 => rw [hi] at h3; rw [← hz] at h3; exact absurd rfl (ho _ _ h3).2.1
      rw [if_pos hd, show (c!"@dispvm:" ++ k).drop 8 = k from rfl]
      unfold mkDispvmTemplate
      rw [if_neg (by simpa using hk.1), if_neg]
      · rfl
      · intro hh
        obtain ⟨x, rfl⟩ := startsWith_iff.1 hh
        exact hk.2 rfl
    · rw [if_neg hd]
      rfl
  have hex : ∃ evs, execResolution {} agent (.ask a) = (evs, .ok (answerText fs)) := by
    obtain ⟨ds, hds, hds1, hds2⟩ := hg
    have hgt : truthy ds.guivm = some g := truthy_eq_some.2 ⟨hds1, hds2⟩
    have hq : questionOf a =
          ⟨source, req.service, req.argument, a.targetsForAsk, a.defaultTarget.getD []⟩ := by
      unfold questionOf; rw [har, hsource]
    rw [hq] at hag
    simp only [execResolution, execAsk, Bool.false_eq_true, if_false, har, hi, hsource, hds, hgt,
      hag]
    have h1 : ¬ ((c!"allow:" ++ t) == c!"deny") = true := by
      simp
    rw [if_neg h1, if_pos (startsWith_append _ _),
      show List.drop 6 (c!"allow:" ++ t) = t from rfl, hhur]
    have hx : (approved a t).execute = .ok (answerText fs) := by
      unfold AllowRes.execute; rw [hfs]; rfl
    simp only [execAllow, Bool.false_eq_true, if_false, hx]
    exact ⟨_, rfl⟩
  obtain ⟨evs, hex⟩ := hex
  exact ⟨evs, handleRequest_exec hreq hev hex⟩

example : (handleRequest (some exInfo) (.ok [exAsk]) (fun _ _ => .ok c!"allow:work") {} c!"work"
    c!"vault" c!"svc" []).2 = .ok denyAnswer := by decide

example : requestOf c!"svc" c!"work" c!"vault" exInfo [] = .ok (exReq c!"work" (.name c!"vault")) ∧
    (∃ a, evaluate [exAsk] (exReq c!"work" (.name c!"vault")) = .ok (.ask a) ∧
      c!"vault" ∈ a.targetsForAsk) ∧ GuiOf exInfo c!"work" c!"dom0" := by
  refine ⟨by decide, ⟨_, rfl, by decide⟩, _, rfl, rfl, by decide⟩

/-! ## C18 -/

theorem granted_not_adminvm {rules : List Rule} {req : Request} {mode : Mode} {agent : Agent}
    {r : Rule} {user : Option Str} {autostart : Bool} {out : Str} (hs : SystemInfo req.info)
    (hg : Granted rules req mode agent r user autostart out) : out ≠ c!"@adminvm" := by
  have hask : ∀ a, evaluate rules req = .ok (.ask a) → out ∈ a.targetsForAsk →
      out ≠ c!"@adminvm" := by
    intro a hev hmem
    by_cases hr : ∀ t d u n a', a.rule.action ≠ .ask (some t) d u n a'
    · exact (C14_offered_targets_valid rules req hs a hev hr out hmem).2.2.2.1
    · unfold evaluate at hev
      obtain ⟨r, _, hev⟩ := bind_eq_ok.1 hev
      unfold evalAction at hev
      split at hev
      · simp at hev
      · obtain ⟨_, _, hev⟩ := map_eq_ok.1 hev; simp at hev
      · rename_i t d u n b hact
        obtain ⟨_, h1, h2⟩ := map_eq_ok.1 hev
        cases h2
        obtain ⟨_, ts0, ts, dt, h0, hf, _, _, rfl⟩ := evalAsk_ok h1
        have hm := ((autostartFilter_ok hs.ordinary hf out).1 hmem).1
        cases t with
        | none => exact absurd (fun t d u n a' => by rw [hact]; simp) hr
        | some t =>
          simp only [askTargets, Except.ok.injEq] at h0
          subst h0
          split_ifs at hm with h0
          · simp only [List.mem_singleton] at hm; subst hm; simp
          · simp only [List.mem_singleton] at hm; subst hm
            intro h
            rw [h] at h0
            exact h0 rfl
  cases hg with
  | byRule _ _ h _ =>
    cases h with
    | adminvm => simp
    | dispvm => simp
    | template => simp
    | name _ h => rintro rfl; exact absurd rfl (hs.ordinary _ _ h).2.1
  | byUser _ _ _ hev hmem => exact hask _ hev hmem
  | byMode _ _ _ hev hmem => exact hask _ hev hmem

/-- **C18 (part).** The answer for a granted target never names the calling domain as target,
when the target is given by name (not by UUID) and is not a remote domain.
The full claim fails in both excluded cases: `C18_violated_uuid`, `C18_violated_relay`. -/
theorem C18_no_loopback_partial (rules : List Rule) (req : Request) (mode : Mode) (agent : Agent)
    (r : Rule) (user : Option Str) (autostart : Bool) (out : Str) (hs : SystemInfo req.info)
    (hg : Granted rules req mode agent r user autostart out) (fs : List (Str × Str))
    (ha : AnswerFor req user autostart out fs) (hu : ¬ IsUuid out)
    (hr : ∀ d, req.info.get? out = some d → d.cls ≠ c!"RemoteVM") :
    ∀ t, (c!"target", t) ∈ fs → t ≠ req.source := by
  have h0 := granted_not_adminvm hs hg
  intro t ht
  cases ha with
  | dom0 hd hne =>
    have : out = c!"dom0" := by
      rcases hd with h | h | h
      · exact h
      · exact absurd h h0
      · exact absurd ⟨c!"00000000-0000-0000-0000-000000000000", h⟩ hu
    subst this
    simp at ht; subst ht; exact hne
  | disposable h1 hne =>
    split_ifs at ht <;> (simp at ht; subst ht; exact hne)
  | plain _ hne =>
    split_ifs at ht <;> (simp at ht; subst ht; exact hne)
  | remote _ _ h1 h2 => exact absurd h2 (hr _ h1)

/-- A state with a remote domain `far` reached through `relay`. -/
def exJson2 : List (Str × Dom) :=
  [ (c!"dom0", { name := c!"dom0", uuid := some c!"00000000-0000-0000-0000-000000000000",
                 cls := c!"AdminVM", powerState := c!"Running" }),
    (c!"relay", { name := c!"relay", uuid := some c!"u1", powerState := c!"Running",
                  guivm := some c!"dom0" }),
    (c!"work", { name := c!"work", uuid := some c!"u2", powerState := c!"Running" }),
    (c!"far", { name := c!"far", uuid := some c!"u3", cls := c!"RemoteVM",
                relayvm := some c!"relay", transportRpc := some c!"tr" }),
    (c!"far2", { name := c!"far2", uuid := some c!"u4", cls := c!"RemoteVM",
                 relayvm := some c!"relay", transportRpc := some c!"tr" }),
    (c!"lost", { name := c!"lost", uuid := some c!"u5", cls := c!"RemoteVM" }) ]

def exInfo2 : Info := getSystemInfo exJson2

theorem exInfo2_system : SystemInfo exInfo2 := by
  apply systemInfo_of_json
  constructor
  · constructor <;> decide
  all_goals decide

def exAllowAll : Rule :=
  { service := none, argument := none, source := .wildcard, target := .wildcard,
    action := .allow none none false true }

/-- A domain calling itself by UUID is allowed to. -/
theorem C18_violated_uuid :
    (handleRequest (some exInfo2) (.ok [exAllowAll]) exAgent {} c!"work" c!"uuid:u2" c!"svc" []).2 =
      .ok (answerText [(c!"user", c!"DEFAULT"), (c!"result", c!"allow"), (c!"target", c!"uuid:u2"),
        (c!"target_uuid", c!"uuid:u2"), (c!"autostart", c!"True"),
        (c!"requested_target", c!"uuid:u2")]) := by decide

/-- A relay calling a domain it relays for is connected to itself. -/
theorem C18_violated_relay :
    (handleRequest (some exInfo2) (.ok [exAllowAll]) exAgent {} c!"relay" c!"far" c!"svc" []).2 =
      .ok (answerText [(c!"user", c!"DEFAULT"), (c!"result", c!"allow"), (c!"target", c!"relay"),
        (c!"target_uuid", c!"uuid:u1"), (c!"autostart", c!"True"),
        (c!"requested_target", c!"far"), (c!"service", c!"tr+far+svc+")]) := by decide

/-- A plain loopback call is refused. -/
example : (handleRequest (some exInfo2) (.ok [exAllowAll]) exAgent {} c!"relay" c!"relay" c!"svc"
    []).2 = .ok denyAnswer := by decide

/-! ## C19 -/

/-- **C19.** A request with a requested source is accepted only if that source is an existing
remote domain whose relay is the sender, and then it is evaluated with the remote domain as
source.  Without one, the source is the sender. -/
theorem C19_source_of_request (sa source target rs : Str) (info : Info) (req : Request)
    (h : requestOf sa source target info rs = .ok req) :
    (rs = [] → req.source = source) ∧
    (rs ≠ [] → req.source = rs ∧
      ∃ d, info.get? rs = some d ∧ d.cls = c!"RemoteVM" ∧ d.relayvm = some source) := by
  obtain ⟨_, _, _, _, _, _, h⟩ := mkRequest_ok h
  rcases h with ⟨rfl, h, _⟩ | ⟨hne, h, _, hd⟩
  · exact ⟨fun _ => h, fun h => absurd rfl h⟩
  · exact ⟨fun h => absurd h hne, fun _ => ⟨h, hd⟩⟩

/-- **C19.** Otherwise the frontend refuses, whatever the policy says. -/
theorem C19_otherwise_refused (info : Info) (rules : List Rule) (agent : Agent) (mode : Mode)
    (source target sa rs : Str) (hsrc : ∃ d, info.get? source = some d) (hrs : rs ≠ [])
    (h : ¬ ∃ d, info.get? rs = some d ∧ d.cls = c!"RemoteVM" ∧ d.relayvm = some source) :
    (handleRequest (some info) (.ok rules) agent mode source target sa rs).2 = .ok denyAnswer := by
  cases hreq : requestOf sa source target info rs with
  | ok req => exact absurd ((C19_source_of_request _ _ _ _ _ _ hreq).2 hrs).2 h
  | error e =>
    have hreq' : mkRequest (splitServiceArg sa).1 (splitServiceArg sa).2 source target info rs =
      .error e := hreq
    have he : e = .policySyntax ∨ e = .requestError ∨ ∃ n, e = .accessDenied n := by
      unfold mkRequest at hreq'
      simp only [bind_eq_error, require_eq_error, splitServiceArg_plus, Bool.true_eq_false,
        false_and, false_or] at hreq'
      obtain ⟨_, _, hreq'⟩ := hreq'
      rcases hreq' with h1 | ⟨tok, _, h1 | ⟨tok2, _, h1⟩⟩
      · exact Or.inl (parseToken_error h1)
      · unfold Token.verify at h1
        split at h1
        · split_ifs at h1
        · split at h1
          · simp at h1; exact Or.inr (Or.inr ⟨_, h1.symm⟩)
          · split_ifs at h1
            simp at h1; exact Or.inr (Or.inr ⟨_, h1.symm⟩)
        · simp at h1
      · unfold applyRequestedSource at h1
        split_ifs at h1
        split at h1
        · simp at h1; exact Or.inr (Or.inl h1.symm)
        · split_ifs at h1 <;> (simp at h1; exact Or.inr (Or.inl h1.symm))
    unfold handleRequest tryRequest
    simp only [hreq']
    rcases he with rfl | rfl | ⟨n, rfl⟩
    · rfl
    · exact onDenied_answer hsrc
    · exact onDenied_answer hsrc

example : (handleRequest (some exInfo2) (.ok [exAllowAll]) exAgent {} c!"work" c!"dom0" c!"svc"
    c!"far").2 = .ok denyAnswer := by decide
example : ∃ req, requestOf c!"svc" c!"relay" c!"dom0" exInfo2 c!"far" = .ok req ∧
    req.source = c!"far" := ⟨_, rfl, rfl⟩

/-! ## C20 -/

/-- **C20 (part).** When the granted target is a remote domain, the answer names its relay, with
the relay's UUID, user `DEFAULT` and the service line `transport+TARGET+service+argument`.
Missing: `TARGET` is the *requested* target of the call, which is the granted one only if the rule
has no redirect, see `C20_violated_redirect`. -/
theorem C20_through_relay_partial (req : Request) (user : Option Str) (autostart : Bool) (out : Str)
    (d : Dom) (fs : List (Str × Str)) (ha : AnswerFor req user autostart out fs)
    (ho : OrdinaryNames req.info)
    (h0 : ¬ Dom0 out) (hd : req.info.get? out = some d) (hc : d.cls = c!"RemoteVM") :
    ∃ relay transport rd u, d.relayvm = some relay ∧ d.transportRpc = some transport ∧
      req.info.get? relay = some rd ∧ rd.uuid = some u ∧
      (c!"user", c!"DEFAULT") ∈ fs ∧ (c!"target", relay) ∈ fs ∧
      (c!"target_uuid", c!"uuid:" ++ u) ∈ fs ∧
      (req.target.str = out →
        (c!"service", transport ++ c!"+" ++ out ++ c!"+" ++ req.service ++ req.argument) ∈ fs) := by
  cases ha with
  | dom0 h => exact absurd h h0
  | disposable h => subst h; exact absurd rfl (ho _ _ hd).2.1
  | plain _ _ h1 h2 => rw [hd] at h1; cases h1; exact absurd hc h2
  | @remote d' relay rd u transport _ _ h1 h2 h3 h4 h5 h6 h7 h8 =>
    rw [hd] at h1; cases h1
    refine ⟨relay, transport, rd, u, h3, h5, h7, h8, by simp, by simp, by simp, ?_⟩
    rintro rfl
    simp

/-- **C20.** If the remote domain has no relay or no transport, the call is refused. -/
theorem C20_no_relay_refused (info : Info) (rules : List Rule) (agent : Agent)
    (source target sa rs : Str) (req : Request) (res : AllowRes) (d : Dom)
    (hsrc : ∃ d, info.get? source = some d) (ho : OrdinaryNames info)
    (hreq : requestOf sa source target info rs = .ok req)
    (hev : evaluate rules req = .ok (.allow res))
    (h0 : ¬ Dom0 res.target) (hd : info.get? res.target = some d) (hc : d.cls = c!"RemoteVM")
    (hmiss : d.relayvm = none ∨ d.relayvm = some [] ∨ d.transportRpc = none ∨
      d.transportRpc = some []) :
    (handleRequest (some info) (.ok rules) agent {} source target sa rs).2 = .ok denyAnswer := by
  have hi : res.request = req := by
    unfold evaluate at hev
    obtain ⟨r, _, hev⟩ := bind_eq_ok.1 hev
    unfold evalAction at hev
    split at hev
    · simp at hev
    · obtain ⟨a, ha, h2⟩ := map_eq_ok.1 hev
      cases h2
      unfold evalAllow at ha
      simp only [bind_eq_ok, pure_ok, Except.ok.injEq] at ha
      obtain ⟨_, _, _, _, _, _, _, _, _, _, _, _, _, _, rfl⟩ := ha
      rfl
    · obtain ⟨_, _, hev⟩ := map_eq_ok.1 hev; simp at hev
  have hinfo := (mkRequest_ok hreq).2.2.1
  have hf : res.fields = .error (.accessDenied true) := by
    unfold AllowRes.fields
    split_ifs with h1 h2 h3
    · rfl
    · exact absurd ((isDom0_iff _).1 h2) h0
    · obtain ⟨t, ht⟩ := startsWith_iff.1 h3
      rw [ht] at hd
      exact absurd rfl (ho _ _ hd).2.1
    · rw [hi, hinfo, lookup_eq_ok.2 hd]
      simp only [ok_bind]
      rw [if_pos (by simpa using hc)]
      unfold AllowRes.remoteFields
      split
      · rfl
      · rename_i relay hrel
        split
        · rfl
        · rename_i tr htr
          obtain ⟨a1, a2⟩ := truthy_eq_some.1 hrel
          obtain ⟨b1, b2⟩ := truthy_eq_some.1 htr
          rw [a1, b1] at hmiss
          simp only [reduceCtorEq, Option.some.injEq, false_or] at hmiss
          rcases hmiss with h | h
          · exact absurd h a2
          · exact absurd h b2
  have hx : ∃ evs, execResolution {} agent (.allow res) = (evs, .error (.accessDenied true)) := by
    have : res.execute = .error (.accessDenied true) := by unfold AllowRes.execute; rw [hf]; rfl
    simp only [execResolution, execAllow, Bool.false_eq_true, if_false, this]
    exact ⟨_, rfl⟩
  obtain ⟨evs, hx⟩ := hx
  rw [handleRequest_exec_denied hreq hev hx]
  exact onDenied_answer hsrc

example : (handleRequest (some exInfo2) (.ok [exAllowAll]) exAgent {} c!"work" c!"far" c!"svc+a"
    []).2 = .ok (answerText [(c!"user", c!"DEFAULT"), (c!"result", c!"allow"),
      (c!"target", c!"relay"), (c!"target_uuid", c!"uuid:u1"), (c!"autostart", c!"True"),
      (c!"requested_target", c!"far"), (c!"service", c!"tr+far+svc+a")]) := by decide

example : (handleRequest (some exInfo2) (.ok [exAllowAll]) exAgent {} c!"work" c!"lost" c!"svc+a"
    []).2 = .ok denyAnswer := by decide

/-- A rule redirecting to the remote domain `far2`: the service line names the requested `far`. -/
theorem C20_violated_redirect :
    (handleRequest (some exInfo2)
      (.ok [{ exAllowAll with action := .allow (some (.name c!"far2")) none false true }]) exAgent {}
      c!"work" c!"far" c!"svc+a" []).2 =
      .ok (answerText [(c!"user", c!"DEFAULT"), (c!"result", c!"allow"),
      (c!"target", c!"relay"), (c!"target_uuid", c!"uuid:u1"), (c!"autostart", c!"True"),
      (c!"requested_target", c!"far"), (c!"service", c!"tr+far+svc+a")]) := by decide

end Qrexec
