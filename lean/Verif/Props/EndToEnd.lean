import Verif.Model.EndToEnd
import Verif.Spec.EndToEnd
import Verif.Props.DoExec
import Verif.Props.Trigger
import Verif.Props.ExecVm
import Verif.Props.ClientVm

/-!
# C94: a call from qube to qube, from end to end
-/
namespace Qrexec
open Spec

theorem first_sep {sep : Char} {a b x y : Str} (ha : sep ∉ a) (hb : sep ∉ b) (h : a ++ sep :: x = b ++ sep :: y) :
    a = b ∧ x = y := by
  have h1 := splitOnce_append (b := x) ha
  rw [h, splitOnce_append hb] at h1
  cases h1
  exact ⟨rfl, rfl⟩

theorem Spec.Word.append {a b : Str} (ha : Word a) (hb : Word b) : Word (a ++ b) := by
  unfold Word at *
  simp only [List.mem_append, not_or]
  exact ⟨⟨ha.1, hb.1⟩, ha.2, hb.2⟩

/-- What the agent makes of the text of a service call. -/
theorem rpc_inv (load : RpcService → Option SvcConf) (u svc src : Str) (c : RpcCmd) (conf : SvcConf) (hu : ':' ∉ u)
    (hsv : ' ' ∉ svc) (hsrc : ' ' ∉ src)
    (h : vaParse load (u ++ c!":QUBESRPC " ++ svc ++ c!" " ++ src) = some (c, conf)) :
    ∃ sv, c.service = some sv ∧ load sv = some conf ∧ sv.source = src ∧
      (sv.descriptor = svc ∨ '+' ∉ svc ∧ sv.descriptor = svc ++ c!"+") ∧ c.command = svc ++ c!" " ++ src ∧
      c.username = some (conf.user.getD u) ∧ svc ≠ [] ∧ src ≠ [] := by
  unfold vaParse at h
  cases hp : parseRpcCommand true (u ++ c!":QUBESRPC " ++ svc ++ c!" " ++ src) with
  | none => rw [hp] at h; cases h
  | some c0 =>
    rw [hp] at h
    dsimp only at h
    obtain ⟨rest, text, h1, h2, h3⟩ := (C50_parse true _ c0).1 hp
    rw [if_pos rfl] at h1
    obtain ⟨u', hu1, hu2, hline⟩ := h1
    have hline : u ++ ':' :: (c!"QUBESRPC " ++ svc ++ c!" " ++ src) = u' ++ ':' :: rest := by
      rw [show u' ++ ':' :: rest = u' ++ c!":" ++ rest by simp, ← hline]
      show _ = u ++ (':' :: c!"QUBESRPC ") ++ svc ++ c!" " ++ src
      simp only [List.append_assoc, List.cons_append]
    obtain ⟨rfl, hrest⟩ := first_sep hu hu2 hline
    have ht : rest = text := by
      rcases h2 with ⟨_, h2⟩ | ⟨_, h2, _⟩
      · rw [h2] at hrest
        exact absurd (congrArg List.head? hrest) (by simp)
      · exact h2
    subst ht
    rcases h3 with ⟨sv, hs1, hs2, hs3⟩ | ⟨_, _, h3⟩
    · rw [hs1] at h
      dsimp only at h
      have hcmd : c0.command = svc ++ c!" " ++ src := by
        rw [hs2, List.append_assoc, List.append_assoc] at hrest
        have := List.append_cancel_left hrest
        rw [← this, List.append_assoc]
      cases hl : load sv with
      | none => rw [hl] at h; cases h
      | some conf' =>
        rw [hl] at h
        cases h
        have hname : (match conf.user with | some u => some u | none => c0.username) = some (conf.user.getD u) := by
          cases conf.user with
          | none => exact hu1
          | some _ => rfl
        rw [hcmd] at hs3
        refine ⟨sv, rfl, hl, ?_, ?_, hcmd, hname, ?_⟩
        all_goals
          generalize hz : svc ++ c!" " ++ src = z at hs3
          have key : ∀ n s' tail : Str, ' ' ∉ n → n ++ c!" " ++ s' ++ tail = z → (tail = [] ∨ ∃ t, tail = ' ' :: t) →
              svc = n ∧ src = s' := by
            intro n s' tail hn he htl
            have he : svc ++ ' ' :: src = n ++ ' ' :: (s' ++ tail) := by
              rw [show svc ++ ' ' :: src = svc ++ c!" " ++ src by simp, hz, ← he]; simp
            obtain ⟨e1, e2⟩ := first_sep hsv hn he
            refine ⟨e1, ?_⟩
            rcases htl with rfl | ⟨t, rfl⟩
            · rw [e2, List.append_nil]
            · rw [e2] at hsrc
              exact absurd (by simp) hsrc
          cases hs3 with
          | noArg name s' tail g1 g2 g3 g4 g5 g6 g7 =>
            obtain ⟨e1, e2⟩ := key name s' tail g1 rfl g7
            subst e1; subst e2
            first
              | rfl
              | exact .inr ⟨g2, rfl⟩
              | exact ⟨(by rintro rfl; simp at g3), g5⟩
          | arg name a s' tail g1 g2 g3 g4 g5 g6 g7 g8 g9 =>
            obtain ⟨e1, e2⟩ := key (name ++ c!"+" ++ a) s' tail (by simp [g1, g8]) rfl g7
            subst e1; subst e2
            first
              | rfl
              | exact .inl rfl
              | exact ⟨(by intro h; have := congrArg List.length h; simp at this), g5⟩
    · exact absurd (by rw [← hrest]; exact ⟨' ' :: (svc ++ c!" " ++ src), by simp⟩) h3

theorem tok_two {a b : Str} (ha : ' ' ∉ a) (hb : ' ' ∉ b) (ha0 : a ≠ []) (hb0 : b ≠ []) :
    strtokSpace (a ++ c!" " ++ b) = [a, b] := by
  unfold strtokSpace
  rw [show a ++ c!" " ++ b = a ++ ' ' :: b by simp, splitOn_append ha, splitOn_of_not_mem hb]
  cases a with
  | nil => exact absurd rfl ha0
  | cons x a => cases b with
    | nil => exact absurd rfl hb0
    | cons y b => rfl

/-- The program for such a request. -/
theorem job_runs (w : DeWorld) (sw : StartWorld) (c : RpcCmd) (conf : SvcConf) (root : w.creds.uid = 0)
    (r : List DeEvent × DeEnd) (hr : jobProcess w sw (some (c, conf)) = some r) (s : RunProg) (hs : .started s ∈ r.1)
    (sv : RpcService) (svc src acct : Str) (h1 : c.service = some sv) (h2 : c.command = svc ++ c!" " ++ src)
    (h3 : c.username = some acct) (g1 : ' ' ∉ svc) (g2 : ' ' ∉ src) (g3 : svc ≠ []) (g4 : src ≠ []) :
    ∃ p pw gs script, LoginOk w acct pw gs ∧ s.creds = ⟨pw.uid, pw.gid, gs⟩ ∧
      FirstPlace true sw.fs (servicePlaces (pathDirs sw.pathList) sv) p ∧ FileAt true sw.fs p (.other true) ∧
      script ∈ shellScripts ∧ s.call.path = c!"/bin/sh" ∧
      s.call.argv = [c!"/bin/sh", c!"-lc", script, c!"sh", p, svc, src, ((splitOnce '+' svc).map Prod.snd).getD []] := by
  unfold jobProcess at hr
  dsimp only at hr
  cases hq : procOf sw c conf.sendDescriptor with
  | none => rw [hq] at hr; cases hr
  | some prog =>
    rw [hq] at hr
    dsimp only at hr
    cases hr
    rw [h3] at hs
    have hs : .started s ∈ (agentDoExec w prog c.command acct).1 := hs
    obtain ⟨pw, gs, hl, hc, _, _⟩ := C84_creds w prog c.command acct root s hs
    obtain ⟨_, _, _, _, env, _, _, hm⟩ := (C84_started w prog c.command acct root s.call).1 ⟨s, hs, rfl⟩
    unfold procOf at hq
    by_cases hf : (!sw.forks) = true
    · rw [if_pos hf] at hq; cases hq
    rw [if_neg hf, h1] at hq
    dsimp only at hq
    have hspec := C65_service sw.fs sw.bufSize sw.pathList true conf.sendDescriptor sw.connects c.command sv
    cases hfs : findService sw.fs sw.bufSize sw.pathList true conf.sendDescriptor sw.connects c.command sv with
    | exec p =>
      rw [hfs] at hq hspec
      cases hq
      have hm : execQubesRpc2 p c.command env true = some s.call := hm
      obtain ⟨full, remote, target, script, hw, hscr, hpath, _, hargv, _⟩ := C64_shell p c.command env s.call hm
      rw [h2, tok_two g1 g2 g3 g4] at hw
      cases target with
      | none =>
        cases hw
        exact ⟨p, pw, gs, script, hl, hc, hspec.1, hspec.2, hscr, hpath, by rw [hargv]; rfl⟩
      | some q => cases hw
    | notFound => rw [hfs] at hq; cases hq
    | failed => rw [hfs] at hq; cases hq
    | unix p f => rw [hfs] at hq; cases hq
    | tcp h p f => rw [hfs] at hq; cases hq

/-- What the daemon of the caller sends to that of the target. -/
theorem exec_command {qube : Str} {autostart : Bool} {rid : Nat} {cmd : Wire} {ident : Str} {just wait uuid : Bool}
    {w : ExWorld} {ty d : Nat} {buf : Wire}
    (h : .command ty d buf ∈ (executeVm qube autostart rid cmd ident just wait uuid w).1) :
    ty = (if just then msgJustExec else msgExec) ∧ d = rid ∧ buf = cmd := by
  have talk : ∀ {dd t j wt conn}, ExAct.command ty d buf ∈ (exTalk dd t rid cmd ident j wt w conn).1 →
      ty = (if j then msgJustExec else msgExec) ∧ d = rid ∧ buf = cmd := by
    intro dd t j wt conn h
    rcases exTalk_mem h with ⟨_, h⟩ | ⟨_, h | ⟨_, _, _, h | ⟨_, h⟩ | ⟨_, h⟩⟩⟩ <;> cases h
    exact ⟨rfl, rfl, rfl⟩
  have run : ∀ {dd t a j wt}, ExAct.command ty d buf ∈ (exRun dd t a rid cmd ident j wt w).1 →
      ty = (if j then msgJustExec else msgExec) ∧ d = rid ∧ buf = cmd := by
    intro dd t a j wt h
    have hf : ∀ x, x ∈ (if dd then [] else [ExAct.connect t]) → x = .connect t := by
      intro x hx
      cases dd
      · simpa using hx
      · simp at hx
    unfold exRun at h
    dsimp only at h
    generalize (if dd = true then [] else [ExAct.connect t]) = first at h hf
    generalize (if dd = true then Conn.notRunning else w.connect1) = conn at h
    split at h
    · cases hq : qubesdReply w.start with
      | none =>
        rw [hq] at h
        simp only [List.mem_append, List.mem_singleton] at h
        rcases h with h | h
        · have := hf _ h; cases this
        · cases h
      | some b =>
        rw [hq] at h
        dsimp only at h
        split at h
        · simp only [List.mem_append, List.mem_cons, List.not_mem_nil, or_false] at h
          rcases h with (h | h | h) | h
          · have := hf _ h; cases this
          · cases h
          · cases h
          · exact talk h
        · simp only [List.mem_append, List.mem_singleton] at h
          rcases h with h | h
          · have := hf _ h; cases this
          · cases h
    · rcases List.mem_append.1 h with h | h
      · have := hf _ h; cases this
      · exact talk h
  unfold executeVm at h
  split at h
  · simp at h
  split at h
  · split at h
    · simp at h
    split at h
    · simp at h
    dsimp only at h
    cases hq : qubesdReply w.create with
    | none => rw [hq] at h; simp at h
    | some b =>
      rw [hq] at h
      dsimp only at h
      cases hn : disposableName uuid b with
      | none => rw [hn] at h; simp at h
      | some name =>
        rw [hn] at h
        dsimp only at h
        rcases List.mem_cons.1 h with h | h
        · cases h
        · exact run h
  · exact run h

theorem target_word {sa source target rs : Str} {info : Info} {req : Request}
    (h : requestOf sa source target info rs = .ok req) (hc : WordNames info) : Word req.target.str := by
  obtain ⟨_, _, hi, _, _, ⟨tok, hp, hv⟩, _⟩ := mkRequest_ok h
  unfold Token.verify at hv
  split at hv
  · split_ifs at hv with h1
    · rw [← Except.ok.inj hv]
      simp only [Info.has, Option.isSome_iff_exists] at h1
      obtain ⟨d, hd⟩ := h1
      exact (hc _ _ hd).1
    · rw [← Except.ok.inj hv]; exact ⟨by decide, by decide⟩
  · split at hv
    · simp at hv
    · rename_i d hd
      split_ifs at hv
      rw [← Except.ok.inj hv]
      exact Word.append ⟨by decide, by decide⟩ (hc _ _ hd).1
  · rename_i h1 h2
    rw [← Except.ok.inj hv]
    have := parseToken_ok hp
    generalize (if target.isEmpty = true then c!"@default" else target) = text at this
    clear hp hv
    cases this with
    | name => exact absurd rfl (h1 _)
    | dispvmTemplate => exact absurd rfl (h2 _)
    | wildcard h => simp at h
    | adminvm => exact ⟨by decide, by decide⟩
    | anyvm h => simp at h
    | default => exact ⟨by decide, by decide⟩
    | dispvm => exact ⟨by decide, by decide⟩
    | typeVM h => simp at h
    | tagVM h => simp at h
    | dispvmTag h => simp at h

theorem plain_word {extra : List Char} {s : Str} (he : ' ' ∉ plainChars ++ extra ∧ '\x00' ∉ plainChars ++ extra)
    (h : ∀ c ∈ s, c ∈ plainChars ++ extra) : Word s := ⟨fun hc => he.1 (h _ hc), fun hc => he.2 (h _ hc)⟩

/-- The text the target's daemon passes on for such a command. -/
theorem sent_call (dflt : Str) (user : Option Str) (x : Str) (hu : ∀ u ∈ user, ':' ∉ u) :
    sentText dflt 0x200 (userText user ++ c!":QUBESRPC " ++ x) = accountOf dflt user ++ c!":QUBESRPC " ++ x := by
  have hne : ∀ u : Str, ':' ∉ u → u ≠ c!"DEFAULT" → ¬ c!"DEFAULT:" <+: u ++ c!":QUBESRPC " ++ x := by
    rintro u h1 h2 ⟨t, ht⟩
    have : c!"DEFAULT" ++ ':' :: t = u ++ ':' :: (c!"QUBESRPC " ++ x) := by
      rw [show c!"DEFAULT" ++ ':' :: t = c!"DEFAULT:" ++ t from rfl, ht, List.append_assoc]; rfl
    exact h2 (first_sep (by decide) h1 this).1.symm
  have hd : ∀ u, u = c!"DEFAULT" → sentText dflt 0x200 (u ++ c!":QUBESRPC " ++ x) = dflt ++ c!":QUBESRPC " ++ x := by
    rintro u rfl
    unfold sentText
    rw [if_pos ⟨by decide, ⟨c!"QUBESRPC " ++ x, rfl⟩⟩]
    show dflt ++ c!":" ++ (c!"QUBESRPC " ++ x) = dflt ++ (c!":" ++ c!"QUBESRPC ") ++ x
    simp only [List.append_assoc]
  cases user with
  | none => exact hd _ rfl
  | some u =>
    by_cases h0 : u = []
    · subst h0; exact hd _ rfl
    by_cases h1 : u = c!"DEFAULT"
    · subst h1; exact hd _ rfl
    have e1 : userText (some u) = u := by
      cases u with
      | nil => exact absurd rfl h0
      | cons => rfl
    have e2 : accountOf dflt (some u) = u := by
      show (if u = [] ∨ u = c!"DEFAULT" then dflt else u) = u
      rw [if_neg (by simp only [not_or]; exact ⟨h0, h1⟩)]
    rw [e1, e2]
    unfold sentText
    rw [if_neg]
    rintro ⟨_, h⟩
    exact hne u (hu u rfl) h1 h

/-- **C94.** Whatever the agent of the qube `remote` sends: if in the end, in another qube, its agent starts a program for the
command that was sent because of this message, then the policy has granted the call of this qube (or of a remote domain it relays
for), the program is the service called, for the calling qube, the command was sent to the qube that was granted, and the
program runs as the user of the rule, or the user that the configuration of the service in the target says. -/
theorem C94_runs (info : Info) (rules : List Rule) (agent : Agent)
    -- the message in the daemon of the caller
    (proto kind : Nat) (data : Wire) (rs : Option Str) (t s : Str) (ident : Wire) (remote : Str)
    (h : triggerMsg proto kind data = .request rs t s ident)
    (hr : (∀ c ∈ remote, c.toNat < 128) ∧ '\n' ∉ remote ∧ remote.length ≤ 65000) (hrw : Word remote)
    (hn : OrdinaryNames info ∧ NoNewlines info ∧ WordNames info)
    (hrel : ∀ n d, info.get? n = some d → ∀ relay ∈ d.relayvm, ¬ Dom0 relay)
    (hrules : ∀ r ∈ rules, IsRule r ∧
      ∀ u t d n b, (r.action = .allow t (some u) n b ∨ r.action = .ask t d (some u) n b) →
        '\n' ∉ u ∧ ':' ∉ u ∧ '\x00' ∉ u)
    (answer : Wire) (hans : (handleClient (some info) (.ok rules) agent
      (requestText remote rs t s)).2 = some answer) (hnul : '\x00' ∉ answer)
    -- what its process does
    (qube : Str) (isUuid autostart : Bool) (cmd : Str)
    (hcall : agentCall (some info) (.ok rules) agent remote rs t s = .runVm qube isUuid autostart cmd)
    (rid : Nat) (id : Str) (wait : Bool) (w : ExWorld) (ty d : Nat) (buf : Wire)
    (hsent : .command ty d buf ∈ (executeVm qube autostart rid (cmd ++ ['\x00']) id false wait isUuid w).1)
    -- the daemon of the target
    (c : DConf) (hist : History) (st : DState) (hrun : DRun c hist st) (hdu : ':' ∉ c.defaultUser ∧ '\x00' ∉ c.defaultUser)
    (fd : Nat) (w' : Bool) (o : List DOut) (hin : (.clientMsg fd ty d 0 buf w', o) ∈ hist)
    (ty' len dom port : Nat) (text : Wire) (hout : .forward ty' len dom port text ∈ o)
    -- the agent of the target
    (load : RpcService → Option SvcConf) (dw : DeWorld) (root : dw.creds.uid = 0) (sw : StartWorld)
    (res : List DeEvent × DeEnd) (hp : jobProcess dw sw (vaJob load ty' dom port text).cmd = some res)
    (prog : RunProg) (hs : .started prog ∈ res.1) :
    dom = rid ∧
    ∃ req r user out svc user', requestOf s remote t info (rs.getD []) = .ok req ∧
      Granted rules req {} agent r user autostart out ∧ ¬ Dom0 out ∧ RunsAs info req out user qube svc user' ∧
      ∃ sv conf p pw gs script, sv.source = req.source ∧ sv.descriptor = svc ∧ load sv = some conf ∧
        LoginOk dw (conf.user.getD (accountOf c.defaultUser user')) pw gs ∧ prog.creds = ⟨pw.uid, pw.gid, gs⟩ ∧
        FirstPlace true sw.fs (servicePlaces (pathDirs sw.pathList) sv) p ∧ FileAt true sw.fs p (.other true) ∧
        script ∈ shellScripts ∧ prog.call.path = c!"/bin/sh" ∧
        prog.call.argv = [c!"/bin/sh", c!"-lc", script, c!"sh", p, svc, req.source,
          ((splitOnce '+' svc).map Prod.snd).getD []] := by
  obtain ⟨e1, e2, e3⟩ := exec_command hsent
  have e1 : ty = 0x200 := e1
  subst e1; subst e2; subst e3
  obtain ⟨fd', p', buf', w'', he, _, _, _, _, htext, _⟩ := C60_forward c hist st hrun _ _ hin _ _ _ _ _ hout
  cases he
  refine ⟨rfl, ?_⟩
  obtain ⟨hsw, _, hrsw, _⟩ := C53_safe _ _ _ _ _ _ _ h
  have hsw : Word s := plain_word ⟨by decide, by decide⟩ hsw
  rcases C57_executed_only_if_granted info rules agent proto kind data rs t s ident remote h hr ⟨hn.1, hn.2.1⟩
      (fun r hr => ⟨(hrules r hr).1, fun u t d n b hu => ((hrules r hr).2 u t d n b hu).1⟩) answer hans hnul with hno |
      ⟨req, r, user, autostart', out, fs, p, hreq, hg, ha, hh, hact⟩
  · rw [hno] at hcall; cases hcall
  rw [hact] at hcall
  have hi := (mkRequest_ok hreq).2.2.1
  have hsrc : Word req.source := by
    obtain ⟨g1, g2⟩ := C19_source_of_request _ _ _ _ _ _ hreq
    by_cases hrs : rs.getD [] = []
    · rw [g1 hrs]; exact hrw
    · rw [(g2 hrs).1]
      cases rs with
      | none => exact absurd rfl hrs
      | some x => exact plain_word ⟨by decide, by decide⟩ (hrsw x rfl).1
  have hsvc : Word (req.service ++ req.argument) := by
    rw [← withPlus_eq hreq]
    unfold withPlus
    split_ifs
    · exact hsw
    · exact Word.append hsw ⟨by decide, by decide⟩
  have huser : ∀ u ∈ user, ':' ∉ u ∧ '\x00' ∉ u := by
    intro u hu
    cases hu
    cases hg with
    | byRule hf hac => exact ((hrules r (by rw [hf.1]; simp)).2 _ _ none _ _ (.inl hac)).2
    | byUser hf hac => exact ((hrules r (by rw [hf.1]; simp)).2 _ _ _ _ _ (.inr hac)).2
    | byMode hf hac => exact ((hrules r (by rw [hf.1]; simp)).2 _ _ _ _ _ (.inr hac)).2
  have hplus : '+' ∈ req.argument := by
    have := (mkRequest_ok hreq).2.2.2.1
    rw [startsWith_iff] at this
    obtain ⟨x, hx⟩ := this
    rw [(mkRequest_ok hreq).2.1, hx]; simp
  -- the rest, for whatever service runs
  have fin : ∀ svc user', Word svc → '+' ∈ svc → (∀ u ∈ user', ':' ∉ u ∧ '\x00' ∉ u) →
      cmd = userText user' ++ c!":QUBESRPC " ++ svc ++ c!" " ++ req.source →
      ∃ sv conf p pw gs script, sv.source = req.source ∧ sv.descriptor = svc ∧ load sv = some conf ∧
        LoginOk dw (conf.user.getD (accountOf c.defaultUser user')) pw gs ∧ prog.creds = ⟨pw.uid, pw.gid, gs⟩ ∧
        FirstPlace true sw.fs (servicePlaces (pathDirs sw.pathList) sv) p ∧ FileAt true sw.fs p (.other true) ∧
        script ∈ shellScripts ∧ prog.call.path = c!"/bin/sh" ∧
        prog.call.argv = [c!"/bin/sh", c!"-lc", script, c!"sh", p, svc, req.source,
          ((splitOnce '+' svc).map Prod.snd).getD []] := by
    intro svc user' hw hpl hu' hcmd
    have hacc : ':' ∉ accountOf c.defaultUser user' ∧ '\x00' ∉ accountOf c.defaultUser user' := by
      unfold accountOf
      cases user' with
      | none => exact hdu
      | some u =>
        dsimp only
        split_ifs
        · exact hdu
        · exact hu' u rfl
    have hline : text = (accountOf c.defaultUser user' ++ c!":QUBESRPC " ++ svc ++ c!" " ++ req.source) ++ ['\x00'] := by
      rw [htext, hcmd]
      have := sent_call c.defaultUser user' (svc ++ c!" " ++ req.source ++ ['\x00']) (fun u hu => (hu' u hu).1)
      simp only [List.append_assoc] at this ⊢
      exact this
    have hz : '\x00' ∉ accountOf c.defaultUser user' ++ c!":QUBESRPC " ++ svc ++ c!" " ++ req.source := by
      simp only [List.mem_append, not_or]
      exact ⟨⟨⟨⟨hacc.2, by decide⟩, hw.2⟩, by decide⟩, hsrc.2⟩
    have hjob : (vaJob load 0x200 d port text).cmd =
        vaParse load (accountOf c.defaultUser user' ++ c!":QUBESRPC " ++ svc ++ c!" " ++ req.source) := by
      rw [hline]
      generalize accountOf c.defaultUser user' ++ c!":QUBESRPC " ++ svc ++ c!" " ++ req.source = line at hz
      have hl : cString (ensureNul (line ++ ['\x00'])) = line := by
        unfold ensureNul
        rw [List.length_append, List.length_singleton, Nat.add_sub_cancel, List.take_left]
        exact cString_nul (rest := []) hz
      unfold vaJob
      dsimp only
      rw [hl, if_neg (show ¬ 0x200 = msgConnect by decide)]
    rw [hjob] at hp
    cases hpar : vaParse load (accountOf c.defaultUser user' ++ c!":QUBESRPC " ++ svc ++ c!" " ++ req.source) with
    | none => rw [hpar] at hp; cases hp
    | some cc =>
      obtain ⟨rc, conf⟩ := cc
      rw [hpar] at hp
      obtain ⟨sv, g1, g2, g3, g4, g5, g6, g7, g8⟩ := rpc_inv load _ svc req.source rc conf hacc.1 hw.1 hsrc.1 hpar
      obtain ⟨p, pw, gs, script, f⟩ := job_runs dw sw rc conf root res hp prog hs sv svc req.source _ g1 g5 g6 hw.1 hsrc.1 g7 g8
      refine ⟨sv, conf, p, pw, gs, script, g3, ?_, g2, f⟩
      rcases g4 with g4 | ⟨g4, _⟩
      · exact g4
      · exact absurd hpl g4
  have hd0 : ¬ Dom0 out := by
    intro hd0
    cases ha with
    | dom0 _ _ =>
      have ht : p.target = some c!"dom0" := hh.target
      unfold childAction at hcall
      rw [ht] at hcall
      dsimp only at hcall
      rw [if_pos (show refersToDom0 ((some c!"dom0").getD []) = true from rfl)] at hcall
      split at hcall <;> cases hcall
    | disposable h1 =>
      subst h1
      rcases hd0 with h | h | h <;> exact absurd (congrArg (List.take 3) h) (by simp)
    | plain h => exact h hd0
    | remote h => exact h hd0
  have hac : ∀ x a b y, childAction remote s p = .runVm x a b y → qube = x ∧ autostart = b ∧ cmd = y := by
    intro x a b y hx
    rw [hx] at hcall
    cases hcall
    exact ⟨rfl, rfl, rfl⟩
  by_cases hrem : ∃ dd, info.get? out = some dd ∧ dd.cls = c!"RemoteVM"
  · obtain ⟨dd, hd1, hd2⟩ := hrem
    obtain ⟨relay, rd, u, tr, f1, f2, f3, f4, f5⟩ := C56_remote_command info remote t s (rs.getD []) req user autostart' out dd fs p
      hreq ha hh hd0 hn.1 hd1 hd2 (hrel _ _ hd1)
    obtain ⟨rfl, rfl, hcmd⟩ := hac _ _ _ _ f5
    have hwt : Word tr := (hn.2.2 _ _ hd1).2 tr f4
    refine ⟨req, r, user, out, _, none, hreq, hg, hd0, .remote hd1 hd2 f1 f2 f3 f4, fin _ none ?_ ?_ (by simp) ?_⟩
    · have := Word.append (Word.append hwt (b := c!"+") ⟨by decide, by decide⟩)
        (Word.append (target_word hreq hn.2.2) (Word.append (a := c!"+") ⟨by decide, by decide⟩ hsvc))
      simpa only [List.append_assoc] using this
    · simp
    · rw [hcmd]
      simp only [List.append_assoc]
      rfl
  · obtain ⟨uuid, hq, hx⟩ := C56_vm_command info remote t s (rs.getD []) req user autostart' out fs p hreq ha hh hd0
      (fun dd hd hc => hrem ⟨dd, hd, hc⟩)
    obtain ⟨rfl, rfl, hcmd⟩ := hac _ _ _ _ hx
    refine ⟨req, r, user, out, _, user, hreq, hg, hd0, ?_, fin _ user hsvc (by simp [hplus]) huser hcmd⟩
    rcases hq with ⟨dd, u, q1, q2, rfl⟩ | ⟨tt, dd, u, q1, q2, q3, rfl⟩
    · exact .qube q1 (fun hc => hrem ⟨dd, q1, hc⟩) q2
    · exact .disposable q1 q2 q3

/-- **C94, the request arrives.** A program in the qube `remote` calls a service with `qrexec-client-vm target service` (names
as they can be, C72), and the policy does not refuse. Then the call was granted some target. If this is a qube (not dom0, not a
remote domain), the command goes to the daemon of this qube and no other, and the agent there gets - from whatever daemon with
whatever default user, at whatever port - exactly the request to run the service called, with its argument, for `remote`, as the
user of the rule (unless the configuration there names another), if the name of the service has at most 255 characters. -/
theorem C94_arrives (info : Info) (rules : List Rule) (agent : Agent) {fd : Nat} (hfd : fd < 2 ^ 31) (target service remote : Str)
    (h2 : ∀ c ∈ target, c ∈ plainChars ++ c!"@:") (l2 : target.length ≤ 63)
    (h3 : ∀ c ∈ service, c ∈ plainChars ++ c!"+")
    (h4 : service ≠ []) (h5 : service.head? ≠ some '+') (h6 : service.length < 65000)
    (hr : (∀ c ∈ remote, c.toNat < 128) ∧ '\n' ∉ remote ∧ remote.length ≤ 65000) (hrw : Word remote) (hr0 : remote ≠ [])
    (hn : OrdinaryNames info ∧ NoNewlines info)
    (hrules : ∀ r ∈ rules, IsRule r ∧
      ∀ u t d n b, (r.action = .allow t (some u) n b ∨ r.action = .ask t d (some u) n b) →
        '\n' ∉ u ∧ ':' ∉ u ∧ '\x00' ∉ u)
    (answer : Wire) (hans : (handleRequest (some info) (.ok rules) agent {} remote target service []).2 = .ok answer)
    (hasc : ∀ c ∈ answer, c.toNat < 128) (hnul : '\x00' ∉ answer) (hdeny : answer ≠ denyAnswer) :
    ∃ type len body b req r user autostart out, cvMessage none target service = (type, len, body) ∧
      vaTrigger fd (some (type, len)) (some body) = [.forward 0x213 len b] ∧
      triggerMsg 4 4 b = .request (some []) target service (cvIdent fd) ∧
      requestOf service remote target info [] = .ok req ∧ req.source = remote ∧
      Granted rules req {} agent r user autostart out ∧
      (¬ Dom0 out → (∀ d, info.get? out = some d → d.cls ≠ c!"RemoteVM") →
        ∃ qube cmd name arg, RunsAs info req out user qube (name ++ c!"+" ++ arg) user ∧
          (service = name ++ c!"+" ++ arg ∨ service = name ∧ arg = []) ∧ '+' ∉ name ∧
          agentCall (some info) (.ok rules) agent remote (some []) target service = .runVm qube true autostart cmd ∧
          ∀ dflt load d port, ':' ∉ dflt → '\x00' ∉ dflt → name.length ≤ 255 →
            (vaJob load 0x200 d port (sentText dflt 0x200 (cmd ++ ['\x00']))).cmd =
              (load ⟨name ++ c!"+" ++ arg, name, some arg, remote⟩).map fun conf =>
                (⟨some (conf.user.getD (accountOf dflt user)), false, name ++ c!"+" ++ arg ++ c!" " ++ remote,
                  some ⟨name ++ c!"+" ++ arg, name, some arg, remote⟩⟩, conf)) := by
  obtain ⟨type, len, body, b, e1, e2, e3⟩ := C72_exact hfd none target service (by simp) (by simp) h2 l2 h3 h4 h5 h6
  have e3 : triggerMsg 4 4 b = .request (some []) target service (cvIdent fd) := e3
  have hcl := (C53_evaluated (some info) (.ok rules) agent _ _ _ _ _ _ _ remote e3 hr answer).2 ⟨hans, hasc⟩
  have hsw : Word service := plain_word ⟨by decide, by decide⟩ h3
  have hsn : '\n' ∉ service := fun hc => (plain_ascii c!"+" (by decide) _ (h3 _ hc)).2 rfl
  have hrules' : ∀ r ∈ rules, IsRule r ∧
      ∀ u t d n b, (r.action = .allow t (some u) n b ∨ r.action = .ask t d (some u) n b) → '\n' ∉ u :=
    fun r hr => ⟨(hrules r hr).1, fun u t d n b hu => ((hrules r hr).2 u t d n b hu).1⟩
  rcases C22_engine_answer_understood (some info) (.ok rules) agent {} remote target service []
      (fun i hi => by cases hi; exact hn) (fun x hx => by cases hx; exact hrules') hsn rfl _ answer
      (Prod.ext rfl hans) hnul with ⟨hd, _⟩ | ⟨info', rules', req, r, user, autostart, out, fs, p, q1, q2, hreq, hg, ha, _, _, hpr, hh⟩
  · exact absurd hd hdeny
  cases q1; cases q2
  have hact : agentCall (some info) (.ok rules) agent remote (some []) target service = childAction remote service p := by
    unfold agentCall
    rw [hcl]
    unfold serviceChild connectDaemon
    simp only [Option.getD_some, hpr]
  have hsrc : req.source = remote := (C19_source_of_request _ _ _ _ _ _ hreq).1 rfl
  refine ⟨type, len, body, b, req, r, user, autostart, out, e1, e2, e3, hreq, hsrc, hg, ?_⟩
  intro hd0 hrem
  obtain ⟨qube, hq, hx⟩ := C56_vm_command info remote target service [] req user autostart out fs p hreq ha hh hd0 hrem
  have huser : ∀ u ∈ user, ':' ∉ u ∧ '\x00' ∉ u := by
    intro u hu
    cases hu
    cases hg with
    | byRule hf hac => exact ((hrules r (by rw [hf.1]; simp)).2 _ _ none _ _ (.inl hac)).2
    | byUser hf hac => exact ((hrules r (by rw [hf.1]; simp)).2 _ _ _ _ _ (.inr hac)).2
    | byMode hf hac => exact ((hrules r (by rw [hf.1]; simp)).2 _ _ _ _ _ (.inr hac)).2
  obtain ⟨name, arg, hsa, hnp, hargw⟩ : ∃ name arg, req.service = name ∧ req.argument = c!"+" ++ arg ∧ '+' ∉ name ∧
      (service = name ++ c!"+" ++ arg ∨ service = name ∧ arg = []) ∧ name ≠ [] := by
    obtain ⟨g1, g2, _⟩ := mkRequest_ok hreq
    unfold splitServiceArg at g1 g2
    cases hsp : splitOnce '+' service with
    | none =>
      rw [hsp] at g1 g2
      exact ⟨service, [], g1, g2, splitOnce_none.1 hsp, .inr ⟨rfl, rfl⟩, h4⟩
    | some ab =>
      obtain ⟨a, b⟩ := ab
      rw [hsp] at g1 g2
      obtain ⟨g3, g4⟩ := splitOnce_eq_some.1 hsp
      refine ⟨a, b, g1, g2, g4, .inl (by rw [g3]; simp), ?_⟩
      rintro rfl
      rw [g3] at h5
      exact h5 rfl
  obtain ⟨hnp, hsvc, hn0⟩ := hargw
  have hfull : req.service ++ req.argument = name ++ c!"+" ++ arg := by rw [hsa, ‹req.argument = _›, List.append_assoc]
  have hw : Word (name ++ c!"+" ++ arg) := by
    rcases hsvc with h | ⟨h, rfl⟩
    · rw [← h]; exact hsw
    · rw [← h]; simpa using Word.append hsw (b := c!"+") ⟨by decide, by decide⟩
  have hlen : name.length + 1 + arg.length ≤ 65000 := by
    rcases hsvc with h | ⟨h, rfl⟩
    · rw [h] at h6; simp at h6; omega
    · rw [h] at h6; simp; omega
  refine ⟨qube, _, name, arg, ?_, hsvc, hnp, hact.trans hx, ?_⟩
  · rw [← hfull]
    rcases hq with ⟨dd, u, q1, q2, rfl⟩ | ⟨tt, dd, u, q1, q2, q3, rfl⟩
    · exact .qube q1 (hrem _ q1) q2
    · exact .disposable q1 q2 q3
  intro dflt load d port hdf hdz hnl
  have hacc : ':' ∉ accountOf dflt user ∧ '\x00' ∉ accountOf dflt user := by
    unfold accountOf
    cases user with
    | none => exact ⟨hdf, hdz⟩
    | some u =>
      dsimp only
      split_ifs
      · exact ⟨hdf, hdz⟩
      · exact huser u rfl
  have hline : sentText dflt 0x200 (userText user ++ c!":QUBESRPC " ++ (req.service ++ req.argument) ++ c!" " ++ req.source ++ ['\x00']) =
      (accountOf dflt user ++ c!":QUBESRPC " ++ (name ++ (c!"+" ++ arg)) ++ c!" " ++ remote) ++ ['\x00'] := by
    rw [hfull, hsrc]
    have := sent_call dflt user (name ++ (c!"+" ++ arg) ++ c!" " ++ remote ++ ['\x00']) (fun u hu => (huser u hu).1)
    simp only [List.append_assoc] at this ⊢
    exact this
  have hz : '\x00' ∉ accountOf dflt user ++ c!":QUBESRPC " ++ (name ++ (c!"+" ++ arg)) ++ c!" " ++ remote := by
    rw [List.append_assoc] at hw
    have h1 := hw.2
    have h2 := hrw.2
    have h3 := hacc.2
    generalize name ++ (c!"+" ++ arg) = x at h1
    simp only [List.mem_append, not_or]
    exact ⟨⟨⟨⟨h3, by decide⟩, h1⟩, by decide⟩, h2⟩
  rw [hline]
  have hpar := C50_from_daemon (accountOf dflt user) name arg remote hacc.1 (fun h => hw.1 (by simp [h])) hnp
    (by cases name; exact absurd rfl hn0; simp) hnl (fun h => hw.1 (by simp [h])) hr0 hrw.1 hlen
  generalize accountOf dflt user ++ c!":QUBESRPC " ++ (name ++ (c!"+" ++ arg)) ++ c!" " ++ remote = line at hz hpar
  have hl : cString (ensureNul (line ++ ['\x00'])) = line := by
    unfold ensureNul
    rw [List.length_append, List.length_singleton, Nat.add_sub_cancel, List.take_left]
    exact cString_nul (rest := []) hz
  unfold vaJob
  dsimp only
  rw [hl, if_neg (show ¬ 0x200 = msgConnect by decide)]
  unfold vaParse
  rw [hpar]
  dsimp only
  cases load ⟨name ++ c!"+" ++ arg, name, some arg, remote⟩ with
  | none => rfl
  | some conf =>
    cases hu : conf.user with
    | none => simp [hu]
    | some u => simp [hu]

/-- **C94, the connection.** When the target's daemon has assigned a port to the command and its caller has told it to the daemon
of the calling qube, and the two daemons have passed this on, then the client that asked - the one at the descriptor in the
identifier of the request - is told the domain that the target's daemon named and exactly the port at which the target's agent
serves the command. -/
theorem C94_connection {n : Nat} (hn : n < 2 ^ 31) (qube : Str) (autostart : Bool) (rid : Nat) (cmd : Wire) (wait uuid : Bool)
    (w : ExWorld) (ty d dom port : Nat) (buf f : Wire)
    (hcmd : .command ty d buf ∈ (executeVm qube autostart rid cmd (c!"SOCKET" ++ printDec n) false wait uuid w).1)
    (htold : .serviceConnect dom port f ∈ (executeVm qube autostart rid cmd (c!"SOCKET" ++ printDec n) false wait uuid w).1)
    -- the daemon of the target
    (cB : DConf) (hB : History) (sB : DState) (rB : DRun cB hB sB) (fdB : Nat) (wB : Bool) (oB : List DOut)
    (inB : (.clientMsg fdB ty d 0 buf wB, oB) ∈ hB) (tyB lenB domB portB : Nat) (textB : Wire)
    (outB : .forward tyB lenB domB portB textB ∈ oB)
    (replyB : ∀ dom' p', w.negotiate = some (dom', p') → .portReply fdB p' ∈ oB)
    -- the daemon of the caller
    (cA : DConf) (hA : History) (sA : DState) (rA : DRun cA hA sA) (fdA : Nat) (wA : Bool) (oA : List DOut)
    (inA : (.clientMsg fdA 0x202 dom port f wA, oA) ∈ hA) (tyA lenA domA portA : Nat) (textA : Wire)
    (outA : .forward tyA lenA domA portA textA ∈ oA)
    -- the agent of the caller
    (load : RpcService → Option SvcConf) (s : VaState) (t : VaTry) (session : Option Nat) (hb : t.badFd = false) :
    (∃ dom', w.negotiate = some (dom', portB) ∧ dom = dom') ∧
    (vaInit load s tyA domA portA textA t session).2 = [.toClient n dom portB] := by
  obtain ⟨e1, e2, e3⟩ := exec_command hcmd
  have e1 : ty = 0x200 := e1
  subst e1; subst e2; subst e3
  have hneg : w.negotiate = some (dom, port) ∧ f = identField (c!"SOCKET" ++ printDec n) := by
    rcases C61_told qube autostart d buf (c!"SOCKET" ++ printDec n) false wait uuid w with ⟨_, h⟩ |
      ⟨_, _, q, dom', port', pre, rest, _, h1, h2, h3, h4⟩
    · exact absurd rfl (h _ htold _ _ _)
    · rw [h2] at htold
      rcases List.mem_append.1 htold with hm | hm
      · rcases h3 _ hm with ⟨_, _, h⟩ | h | h <;> cases h
      · simp only [List.mem_cons, reduceCtorEq, false_or, ExAct.serviceConnect.injEq] at hm
        rcases hm with ⟨rfl, rfl, rfl⟩ | hm
        · exact ⟨h1, rfl⟩
        · rcases h4 _ hm with h | h <;> cases h
  obtain ⟨hneg, hf⟩ := hneg
  obtain ⟨fd', p', buf', w'', he, _, _, _, _, _, _, _, _, _, hrep, hlen⟩ := C60_forward cB hB sB rB _ _ inB _ _ _ _ _ outB
  cases he
  have hport : port = portB := by
    have m1 := replyB _ _ hneg
    have m2 := hrep rfl
    match oB, hlen with
    | [], _ => simp at outB
    | [x], _ =>
      simp only [List.mem_singleton] at outB m1
      rw [← outB] at m1; cases m1
    | [x, y], _ =>
      simp only [List.mem_cons, List.not_mem_nil, or_false] at outB m1 m2
      rcases outB with rfl | rfl <;> rcases m1 with m1 | m1 <;> rcases m2 with m2 | m2 <;>
        first
          | cases m1; done
          | cases m2; done
          | (rw [← m1] at m2; cases m2; rfl)
    | _ :: _ :: _ :: _, h => simp at h
  subst hport
  refine ⟨⟨dom, hneg, rfl⟩, ?_⟩
  obtain ⟨fd', p', buf', w'', he, _, _, _, _, htext, _, hp1, _, hp2, _⟩ := C60_forward cA hA sA rA _ _ inA _ _ _ _ _ outA
  cases he
  have h0 : port ≠ 0 := by
    rename_i hB1 hB2 _ _ _
    omega
  rw [hp2 h0] at *
  have hbody : ∃ rest, textA = (c!"SOCKET" ++ printDec n) ++ '\x00' :: rest := by
    rw [htext]
    unfold sentText
    rw [if_neg (by simp), hf]
    unfold identField
    have hl := (ident_text hn).2
    generalize c!"SOCKET" ++ printDec n = x at hl
    rw [List.take_of_length_le (by omega), show 32 - x.length = (31 - x.length) + 1 by omega, List.replicate_succ]
    exact ⟨_, rfl⟩
  obtain ⟨rest, rfl⟩ := hbody
  rw [C69_connect s hn rest _ _ t session hb]


/-- The daemon of `relay` in the example: its third event is the command of the call. -/
def exTargetEvents : List DEv :=
  [.newClient 5 true, .clientHello 5 true, .clientMsg 5 0x200 3 0 c!"DEFAULT:QUBESRPC svc+a work\x00" true]

/-- The daemon of `work` in the example: it is told domain and port. -/
def exSourceEvents : List DEv :=
  [.trigger c!"SOCKET7" 100, .newClient 6 true, .clientHello 6 true, .clientMsg 6 0x202 9 513 (identField c!"SOCKET7") true]

/-- The target's daemon answers at once; its domain is 9. -/
def exRunning : ExWorld where
  create := none
  connect1 := .ok
  start := none
  connect2 := .failed
  negotiate := some (9, 513)
  source := true
  send := true

set_option maxRecDepth 100000 in
/-- The hypotheses of `C94_runs` and `C94_connection` are met, one after the other: `work` calls "svc+a" in `relay`; the command
reaches the agent of `relay`, which runs /etc/qubes-rpc/svc as "user" and serves it at port 513, and the client in `work` is told
this port and domain 9. -/
theorem C94_example :
    agentCall (some exInfo2) (.ok [exAllowAll]) exAgent c!"work" none c!"relay" c!"svc+a" =
      .runVm c!"uuid:u1" true true c!"DEFAULT:QUBESRPC svc+a work" ∧
    (executeVm c!"uuid:u1" true 3 c!"DEFAULT:QUBESRPC svc+a work\x00" c!"SOCKET7" false false true exRunning).1 =
      [.connect c!"uuid:u1", .command 0x200 3 c!"DEFAULT:QUBESRPC svc+a work\x00", .connectSource 3,
        .serviceConnect 9 513 (identField c!"SOCKET7")] ∧
    (drive ⟨9, c!"user"⟩ DState.start exTargetEvents).map (fun r => r.2.map Prod.snd) = some
      [[], [], [.portReply 5 513, .forward 0x200 33 3 513 c!"user:QUBESRPC svc+a work\x00"]] ∧
    (jobProcess exDe ⟨exFs, 4096, c!"/etc/qubes-rpc", true, true, true, none⟩
        (vaJob (fun _ => some {}) 0x200 3 513 c!"user:QUBESRPC svc+a work\x00").cmd).map
      (fun r => r.1.filterMap fun e => match e with | .started p => some (p.call.argv.drop 3, p.creds) | _ => none) =
      some [([c!"sh", c!"/etc/qubes-rpc/svc", c!"svc+a", c!"work", c!"a"], ⟨1000, 1000, [1000, 98]⟩)] ∧
    (drive exConf DState.start exSourceEvents).map (fun r => r.2.map Prod.snd) = some
      [[], [], [], [.forward 0x202 40 9 513 (identField c!"SOCKET7")]] := by decide

end Qrexec
