import Verif.Spec.Outcome
import Verif.Lemmas.Eval
import Verif.Lemmas.Grammar

namespace Qrexec
open Spec

theorem isRequest_targetExists {req : Request} (h : IsRequest req) : TargetExists req := by
  obtain ⟨_, _, h⟩ := h
  exact mkRequest_targetExists h

/-- The target of a constructed request is an intended-target token. -/
theorem isRequest_target {req : Request} (h : IsRequest req) :
    TokenText .intended req.target.str req.target := by
  obtain ⟨_, _, h⟩ := h
  obtain ⟨_, _, _, _, _, ⟨tok, hp, hv⟩, _⟩ := mkRequest_ok h
  have ht := parseToken_ok hp
  have hs := tokenText_str ht
  unfold Token.verify at hv
  split at hv
  · split_ifs at hv
    · simp at hv; rw [← hv]; rw [hs]; exact ht
    · simp at hv; rw [← hv]; exact .default (Or.inr rfl)
  · split at hv
    · simp at hv
    · split_ifs at hv
      simp at hv; rw [← hv]; rw [hs]; exact ht
  · simp at hv; rw [← hv]; rw [hs]; exact ht

theorem mkRule_ok {service argument : Option Str} {source target action : Str}
    {params filepath : List Str} {r : Rule}
    (h : mkRule service argument source target action params filepath = .ok r) :
    ∃ sa act, validateServiceAndArgument service argument = .ok sa ∧
      parseToken .source source = .ok r.source ∧ parseToken .target target = .ok r.target ∧
      parseAction action params = .ok act ∧ r.action = act ∧ r.service = sa.1 ∧
      r.argument = sa.2 ∧ r.filepath = filepath ∧
      ¬ (r.target = .default ∧ allowWithoutTarget act = true) := by
  unfold mkRule at h
  simp only [bind_eq_ok, require_eq_ok, exists_const, pure_ok, Except.ok.injEq] at h
  obtain ⟨sa, h1, s, h2, t, h3, a, h4, h5, rfl⟩ := h
  refine ⟨sa, a, h1, h2, h3, h4, rfl, rfl, rfl, rfl, ?_⟩
  rintro ⟨h6, h7⟩
  simp only at h6
  rw [h6, h7] at h5
  simp at h5

theorem parseRedirect_ok {s : Option Str} {t : Token} (h : parseRedirect s = .ok (some t)) :
    TokenText .redirect t.str t := by
  cases s with
  | none => simp [parseRedirect] at h
  | some s =>
    simp only [parseRedirect, bind_eq_ok, pure_ok, Except.ok.injEq, Option.some.injEq] at h
    obtain ⟨t', h1, rfl⟩ := h
    have := parseToken_ok h1
    rw [tokenText_str this]; exact this

/-- The redirect tokens of an action that came from the parser. -/
theorem parseAction_redirects {action : Str} {params : List Str} {a : Action}
    (h : parseAction action params = .ok a) :
    (∀ t u n s, a = .allow (some t) u n s → TokenText .redirect t.str t) ∧
    (∀ t d u n s, a = .ask (some t) d u n s → TokenText .redirect t.str t) ∧
    (∀ t d u n s, a = .ask t (some d) u n s → TokenText .redirect d.str d) := by
  unfold parseAction at h
  simp only [bind_eq_ok, pure_ok, Except.ok.injEq] at h
  obtain ⟨_, _, kw, _, n, _, s, _, _, _, t, ht, d, hd, rfl⟩ := h
  refine ⟨?_, ?_, ?_⟩
  · intro t' u' n' s' h
    split_ifs at h
    cases h
    exact parseRedirect_ok ht
  · intro t' d' u' n' s' h
    split_ifs at h
    cases h
    exact parseRedirect_ok ht
  · intro t' d' u' n' s' h
    split_ifs at h
    cases h
    exact parseRedirect_ok hd

theorem redirect_intended {s : Str} {t : Token} (h : TokenText .redirect s t) :
    TokenText .intended s t := by
  cases h with
  | name h1 h2 => exact .name h1 h2
  | wildcard h => simp at h
  | adminvm => exact .adminvm
  | anyvm h => simp at h
  | default h => simp at h
  | dispvm h => exact .dispvm (by simp)
  | typeVM h => simp at h
  | tagVM h => simp at h
  | dispvmTemplate h => exact .dispvmTemplate h
  | dispvmTag h => simp at h

/-- The token an allow rule decides on is a well-formed intended target. -/
theorem isRule_redirect {r : Rule} (h : IsRule r) {t : Option Token} {u : Option Str} {n a : Bool}
    (ha : r.action = .allow t u n a) {req : Request} (hr : IsRequest req) :
    TokenText .intended (t.getD req.target).str (t.getD req.target) := by
  obtain ⟨_, _, _, _, _, _, _, h⟩ := h
  obtain ⟨sa, act, _, _, _, hact, heq, _⟩ := mkRule_ok h
  cases t with
  | none => exact isRequest_target hr
  | some t => exact redirect_intended ((parseAction_redirects hact).1 t u n a (heq ▸ ha))

theorem actualTarget_of {redirect : Option Token} {intended : Token}
    (h : TokenText .intended (redirect.getD intended).str (redirect.getD intended)) :
    actualTarget redirect intended = .ok (redirect.getD intended) := parseToken_of h

theorem not_isDom0_dispvm (t : Str) : ¬ Dom0 (c!"@dispvm:" ++ t) := by
  simp [Dom0]

theorem noStartNeeded_iff {info : Info} {target : Str} {b : Bool} (hn : OrdinaryNames info)
    (h : allowNoAutostart info target = .ok b) : b = true ↔ NoStartNeeded info target := by
  unfold allowNoAutostart at h
  unfold NoStartNeeded
  split_ifs at h with h1 h2
  · cases h; simp [(isDom0_iff _).1 h1]
  · cases h
    obtain ⟨t, rfl⟩ := startsWith_iff.1 h2
    simp only [Bool.false_eq_true, false_iff, not_or, not_exists, not_and]
    refine ⟨fun h => h1 ((isDom0_iff _).2 h), ?_⟩
    intro d hd
    exact absurd rfl (hn _ _ hd).2.1
  · have h1' : ¬ Dom0 target := fun h => h1 ((isDom0_iff _).2 h)
    split at h
    · rename_i d hd
      cases h
      simp [h1', hd]
    · simp at h

theorem allowNoAutostart_total {info : Info} {target : Str}
    (h : Dom0 target ∨ (∃ t, target = c!"@dispvm" ++ t) ∨ info.get? target ≠ none) :
    ∃ b, allowNoAutostart info target = .ok b := by
  unfold allowNoAutostart
  split_ifs with h1 h2
  · exact ⟨_, rfl⟩
  · exact ⟨_, rfl⟩
  · rcases h with h | ⟨t, rfl⟩ | h
    · exact absurd ((isDom0_iff _).2 h) h1
    · exact absurd (startsWith_append _ _) h2
    · cases hg : info.get? target with
      | none => exact absurd hg h
      | some d => exact ⟨_, rfl⟩

/-- The steps of `evalAllow` before the autostart check. -/
theorem allow_target_iff {req : Request} {redirect : Option Token}
    (hw : TokenText .intended (redirect.getD req.target).str (redirect.getD req.target))
    {out : Str} :
    (∃ t, actualTarget redirect req.target = .ok t ∧ ∃ t', t.verify req.info = .ok t' ∧
      t'.str ≠ c!"@default" ∧ resolveKeyword req t' = .ok out) ↔
    AllowedTarget req redirect out := by
  rw [actualTarget_of hw]
  generalize ht : redirect.getD req.target = t at hw
  constructor
  · rintro ⟨t0, h0, t', hv, hne, hk⟩
    cases h0
    cases t with
    | name s =>
      simp only [Token.verify] at hv
      split_ifs at hv with hh
      · cases hv
        cases hw with
        | name h1 h2 =>
          have : ¬ s = c!"@adminvm" := by rintro rfl; exact h1.2 rfl
          simp [resolveKeyword, Token.str, this] at hk
          subst hk
          rw [Info.has, Option.isSome_iff_exists] at hh
          obtain ⟨d, hd⟩ := hh
          exact .name ht hd
      · cases hv; exact absurd rfl hne
    | dispvmTemplate v =>
      simp only [Token.verify] at hv
      split at hv
      · simp at hv
      · rename_i d hd
        split_ifs at hv with h1
        cases hv
        simp [resolveKeyword, Token.str] at hk
        subst hk
        exact .template ht hd h1
    | adminvm =>
      cases hv
      simp [resolveKeyword, Token.str] at hk
      subst hk
      exact .adminvm ht
    | dispvm =>
      cases hv
      simp only [resolveKeyword] at hk
      split at hk
      · simp at hk
      · simp at hk
      · rename_i t hg
        cases hk
        obtain ⟨w, rfl, hd⟩ := getDispvmTemplate_some hg
        have hg' := hg
        unfold getDispvmTemplate at hg'
        obtain ⟨d, h1, h2⟩ := hd
        rw [h1] at hg'
        simp only [h2, bind_eq_ok] at hg'
        obtain ⟨t2, h3, h4⟩ := hg'
        obtain ⟨_, h5, h6⟩ := mkDispvmTemplate_ok h3
        exact .dispvm ht ⟨d, h1, h2⟩ h5 h6
    | default => cases hv; exact absurd rfl hne
    | wildcard => cases hw with | wildcard h => simp at h
    | anyvm => cases hw with | anyvm h => simp at h
    | typeVM v => cases hw with | typeVM h => simp at h
    | tagVM v => cases hw with | tagVM h => simp at h
    | dispvmTag v => cases hw with | dispvmTag h => simp at h
  · intro h
    refine ⟨t, rfl, ?_⟩
    cases h with
    | adminvm h =>
      rw [ht] at h; subst h
      exact ⟨.adminvm, rfl, by simp [Token.str], by simp [resolveKeyword, Token.str]⟩
    | dispvm h h1 h2 h3 =>
      rw [ht] at h; subst h
      refine ⟨.dispvm, rfl, by simp [Token.str], ?_⟩
      simp [resolveKeyword, getDispvmTemplate_of h1 h2 h3, Token.str]
    | @template v d h h1 h2 =>
      rw [ht] at h; subst h
      refine ⟨.dispvmTemplate v, by simp [Token.verify, h1, h2], by simp [Token.str], ?_⟩
      simp [resolveKeyword, Token.str]
    | @name _ d h h1 =>
      rw [ht] at h; subst h
      cases hw with
      | name h2 h3 =>
      refine ⟨.name out, by simp [Token.verify, Info.has, h1], ?_, ?_⟩
      · simp only [Token.str]; rintro rfl; exact h2.2 rfl
      · have : ¬ out = c!"@adminvm" := by rintro rfl; exact h2.2 rfl
        simp [resolveKeyword, Token.str, this]

theorem allowedTarget_auto {req : Request} {redirect : Option Token} {out : Str}
    (h : AllowedTarget req redirect out) :
    Dom0 out ∨ (∃ t, out = c!"@dispvm" ++ t) ∨ req.info.get? out ≠ none := by
  cases h with
  | adminvm => exact Or.inl (Or.inl rfl)
  | @dispvm t => exact Or.inr (Or.inl ⟨':' :: t, rfl⟩)
  | @template t => exact Or.inr (Or.inl ⟨':' :: t, rfl⟩)
  | name _ h => exact Or.inr (Or.inr (by simp [h]))

theorem evalAllow_iff {r : Rule} {req : Request} {t : Option Token} {u : Option Str} {n a : Bool}
    (hn : OrdinaryNames req.info) (hr : IsRule r) (hq : IsRequest req)
    (ha : r.action = .allow t u n a) (hm : r.isMatch req = .ok true) {res : AllowRes} :
    evalAllow r t u n a req = .ok res ↔
      ∃ out, res = { rule := r, request := req, user := u, target := out, autostart := a } ∧
        AllowedTarget req t out ∧ (a = false → NoStartNeeded req.info out) := by
  have hw := isRule_redirect hr ha hq
  unfold evalAllow
  simp only [bind_eq_ok, require_eq_ok, exists_const, pure_ok, Except.ok.injEq, hm, bne_iff_ne]
  have auto : ∀ out, AllowedTarget req t out →
      (checkAutostart req.info out a n = .ok () ↔ (a = false → NoStartNeeded req.info out)) := by
    intro out ho
    unfold checkAutostart
    cases a with
    | true => simp
    | false =>
      obtain ⟨b, hb⟩ := allowNoAutostart_total (allowedTarget_auto ho)
      simp [hb, require_eq_ok, noStartNeeded_iff hn hb]
  constructor
  · rintro ⟨x, rfl, hx, t1, h1, t2, h2, hne, out, h3, ⟨⟩, h4, rfl⟩
    have := (allow_target_iff hw).1 ⟨t1, h1, t2, h2, hne, h3⟩
    exact ⟨out, rfl, this, (auto out this).1 h4⟩
  · rintro ⟨out, rfl, ho, hs⟩
    obtain ⟨t1, h1, t2, h2, hne, h3⟩ := (allow_target_iff hw).2 ho
    exact ⟨true, rfl, rfl, t1, h1, t2, h2, hne, out, h3, (), (auto out ho).2 hs, rfl⟩

/-- All errors of an allow rule are refusals. -/
theorem evalAllow_error {r : Rule} {req : Request} {t : Option Token} {u : Option Str} {n a : Bool}
    (hr : IsRule r) (hq : IsRequest req)
    (ha : r.action = .allow t u n a) (hm : r.isMatch req = .ok true) {e : Err}
    (h : evalAllow r t u n a req = .error e) : e.isAccessDenied = true := by
  have hw := isRule_redirect hr ha hq
  unfold evalAllow at h
  simp only [bind_eq_error, hm, Except.ok.injEq, reduceCtorEq, false_or, require_eq_error] at h
  obtain ⟨x, rfl, h⟩ := h
  rcases h with ⟨h, _⟩ | ⟨_, _, h⟩
  · simp at h
  rcases h with h | ⟨t1, h1, h⟩
  · rw [actualTarget_of hw] at h; simp at h
  rcases h with h | ⟨t2, h2, h⟩
  · unfold Token.verify at h
    split at h
    · split_ifs at h
    · split at h
      · cases h; rfl
      · split_ifs at h; cases h; rfl
    · simp at h
  rcases h with ⟨_, rfl⟩ | ⟨_, hne, h⟩
  · rfl
  simp only [require_eq_ok, bne_iff_ne] at hne
  rcases h with h | ⟨out, h3, h⟩
  · unfold resolveKeyword at h
    split at h
    · split at h
      · rename_i e' hg
        cases h
        unfold getDispvmTemplate at hg
        split at hg
        · simp at hg
        · split at hg
          · simp at hg
          · simp only [bind_eq_error, pure_ok, reduceCtorEq, and_false, exists_false, or_false] at hg
            unfold mkDispvmTemplate at hg
            split_ifs at hg <;> (cases hg; rfl)
      · cases h; rfl
      · simp at h
    · simp at h
  have ho := (allow_target_iff hw).1 ⟨t1, h1, t2, h2, hne, h3⟩
  simp only [pure_ok, reduceCtorEq, and_false, exists_false, or_false] at h
  unfold checkAutostart at h
  split_ifs at h
  obtain ⟨b, hb⟩ := allowNoAutostart_total (allowedTarget_auto ho)
  rw [hb] at h
  simp only [require_eq_error] at h
  obtain ⟨_, rfl⟩ := h
  rfl

end Qrexec
