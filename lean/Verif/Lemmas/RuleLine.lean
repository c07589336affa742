import Verif.Lemmas.Words
import Verif.Lemmas.Grammar
import Verif.Lemmas.Exec
import Mathlib.Tactic.Tauto

namespace Qrexec
open Spec

theorem char_ofNat_toNat (c : Char) : Char.ofNat c.toNat = c := Char.ofNat_toNat c

theorem rpcNameChar_lt {c : Char} (h : rpcNameChar c = true) : c.toNat < 128 := by
  simp only [rpcNameChar, Bool.or_eq_true, Bool.and_eq_true, decide_eq_true_eq, beq_iff_eq,
    Char.le_def, UInt32.le_iff_toNat_le] at h
  change c.val.toNat < 128
  rcases h with ((((((h | h) | h) | h) | h) | h) | h)
  · have : ('Z' : Char).val.toNat = 90 := rfl
    omega
  · have : ('z' : Char).val.toNat = 122 := rfl
    omega
  · have : ('9' : Char).val.toNat = 57 := rfl
    omega
  all_goals subst h; decide

theorem nameChar_iff (c : Char) : rpcNameChar c = true ↔ NameChar c := by
  constructor
  · intro h
    have key : ∀ n : Fin 128, rpcNameChar (Char.ofNat n.1) = true → Char.ofNat n.1 ∈
        c!"ABCDEFGHIJKLMNOPQRSTUVWXYZabcdefghijklmnopqrstuvwxyz0123456789+-._" := by decide
    have := key ⟨c.toNat, rpcNameChar_lt h⟩
    simp only [char_ofNat_toNat] at this
    exact this h
  · intro h
    have key : ∀ c ∈ c!"ABCDEFGHIJKLMNOPQRSTUVWXYZabcdefghijklmnopqrstuvwxyz0123456789+-._",
      rpcNameChar c = true := by decide
    exact key c h

theorem splitOnce_eq_some {sep : Char} {s a b : Str} :
    splitOnce sep s = some (a, b) ↔ s = a ++ sep :: b ∧ sep ∉ a := by
  constructor
  · intro h
    induction s generalizing a b with
    | nil => simp [splitOnce] at h
    | cons c cs ih =>
      by_cases hc : c = sep
      · simp [splitOnce, hc] at h
        obtain ⟨rfl, rfl⟩ := h
        simp [hc]
      · simp only [splitOnce, if_neg hc, Option.map_eq_some_iff] at h
        obtain ⟨⟨a', b'⟩, h1, h2⟩ := h
        simp only [Prod.mk.injEq] at h2
        obtain ⟨rfl, rfl⟩ := h2
        obtain ⟨rfl, hn⟩ := ih h1
        exact ⟨rfl, by simp [Ne.symm hc, hn]⟩
  · rintro ⟨rfl, h⟩
    exact splitOnce_append h

theorem parseParams_ok {ps : List Str} {acc kwds : List (Str × Str)} :
    parseParams ps acc = .ok kwds ↔ ∃ kvs, ParamWords ps kvs ∧ (kvs.map Prod.fst).Nodup ∧
      (∀ k ∈ kvs.map Prod.fst, k ∉ acc.map Prod.fst) ∧ kwds = kvs.reverse ++ acc := by
  induction ps generalizing acc with
  | nil =>
    simp only [parseParams, Except.ok.injEq]
    constructor
    · rintro rfl; exact ⟨[], by simp [ParamWords]⟩
    · rintro ⟨kvs, ⟨h, _⟩, _, _, rfl⟩
      cases kvs with
      | nil => rfl
      | cons a as => simp at h
  | cons p ps ih =>
    simp only [parseParams]
    rcases Option.eq_none_or_eq_some (splitOnce '=' p) with hp | ⟨⟨k, v⟩, hp⟩
    · rw [hp]
      simp only [reduceCtorEq, false_iff]
      rintro ⟨kvs, ⟨h, hk⟩, _⟩
      cases kvs with
      | nil => simp at h
      | cons a as =>
        simp only [List.map_cons, List.cons.injEq] at h
        have := splitOnce_append (b := a.2) (hk a (by simp))
        rw [← h.1, hp] at this
        simp at this
    · rw [hp]
      have hp' := splitOnce_eq_some.1 hp
      simp only
      by_cases hc : ((acc.map Prod.fst).contains k) = true
      · rw [if_pos hc]
        simp only [reduceCtorEq, false_iff]
        rintro ⟨kvs, ⟨h, hk⟩, _, hd, _⟩
        cases kvs with
        | nil => simp at h
        | cons a as =>
          simp only [List.map_cons, List.cons.injEq] at h
          have := splitOnce_append (b := a.2) (hk a (by simp))
          rw [← h.1, hp] at this
          simp only [Option.some.injEq, Prod.mk.injEq] at this
          have := hd a.1 (by simp)
          simp_all
      · rw [if_neg hc, ih]
        have hc' : k ∉ acc.map Prod.fst := by simpa using hc
        constructor
        · rintro ⟨kvs, ⟨h, hk⟩, hn, hd, rfl⟩
          refine ⟨(k, v) :: kvs, ⟨?_, ?_⟩, ?_, ?_, ?_⟩
          · rw [List.map_cons, ← h, hp'.1]
          · intro kv hkv
            rcases List.mem_cons.1 hkv with rfl | hkv
            · exact hp'.2
            · exact hk kv hkv
          · rw [List.map_cons, List.nodup_cons]
            refine ⟨fun hm => ?_, hn⟩
            exact hd k hm (by simp)
          · intro x hx
            rcases List.mem_cons.1 hx with rfl | hx
            · exact hc'
            · exact fun hm => hd x hx (by rw [List.map_cons]; exact List.mem_cons_of_mem _ hm)
          · simp
        · rintro ⟨kvs, ⟨h, hk⟩, hn, hd, rfl⟩
          cases kvs with
          | nil => simp at h
          | cons a as =>
            simp only [List.map_cons, List.cons.injEq] at h
            have := splitOnce_append (b := a.2) (hk a (by simp))
            rw [← h.1, hp] at this
            simp only [Option.some.injEq, Prod.mk.injEq] at this
            rw [List.map_cons, List.nodup_cons] at hn
            refine ⟨as, ⟨h.2, fun kv hkv => hk kv (by simp [hkv])⟩, hn.2, ?_, ?_⟩
            · intro x hx hm
              rw [List.map_cons] at hm
              rcases List.mem_cons.1 hm with rfl | hm
              · exact hn.1 (this.1 ▸ hx)
              · exact hd x (by simp only [List.map_cons]; exact List.mem_cons_of_mem _ hx) hm
            · obtain ⟨a1, a2⟩ := a
              simp_all

theorem parseParams_error {ps : List Str} {acc : List (Str × Str)} {e : Err}
    (h : parseParams ps acc = .error e) : e = .policySyntax := by
  induction ps generalizing acc with
  | nil => simp [parseParams] at h
  | cons p ps ih =>
    simp only [parseParams] at h
    rcases Option.eq_none_or_eq_some (splitOnce '=' p) with hp | ⟨⟨k, v⟩, hp⟩
    · rw [hp] at h; simpa using h.symm
    · rw [hp] at h
      simp only at h
      split_ifs at h
      · simpa using h.symm
      · exact ih h

theorem kwGet_eq_some {l : List (Str × Str)} (hn : (l.map Prod.fst).Nodup) {k v : Str} :
    kwGet l k = some v ↔ (k, v) ∈ l := by
  induction l with
  | nil => simp [kwGet]
  | cons a as ih =>
    obtain ⟨k', v'⟩ := a
    rw [List.map_cons, List.nodup_cons] at hn
    by_cases h : k' = k
    · subst h
      simp only [kwGet, if_true, Option.some.injEq, List.mem_cons, Prod.mk.injEq, true_and]
      constructor
      · rintro rfl; exact Or.inl rfl
      · rintro (rfl | hm)
        · rfl
        · exact absurd (List.mem_map_of_mem (f := Prod.fst) hm) hn.1
    · simp only [kwGet, if_neg h, List.mem_cons, Prod.mk.injEq]
      rw [ih hn.2]
      constructor
      · exact Or.inr
      · rintro (⟨rfl, _⟩ | hm)
        · exact absurd rfl h
        · exact hm

theorem kwGet_eq_none {l : List (Str × Str)} {k : Str} :
    kwGet l k = none ↔ ∀ v, (k, v) ∉ l := by
  induction l with
  | nil => simp [kwGet]
  | cons a as ih =>
    obtain ⟨k', v'⟩ := a
    by_cases h : k' = k
    · subst h
      simp only [kwGet, if_true, reduceCtorEq, List.mem_cons, Prod.mk.injEq, true_and, false_iff]
      intro h; exact h v' (Or.inl rfl)
    · simp only [kwGet, if_neg h, List.mem_cons, Prod.mk.injEq]
      rw [ih]
      constructor
      · rintro hx v (⟨rfl, _⟩ | hm)
        · exact h rfl
        · exact hx v hm
      · intro hx v hm; exact hx v (Or.inr hm)

theorem kwBool_flag {kvs : List (Str × Str)} (hn : (kvs.map Prod.fst).Nodup) {key : Str}
    {dflt b : Bool} :
    (∃ o, kwBool kvs key = .ok o ∧ o.getD dflt = b) ↔ Flag kvs key dflt b := by
  unfold kwBool Flag
  rcases Option.eq_none_or_eq_some (kwGet kvs key) with h | ⟨v, h⟩
  · rw [h]
    have h' := kwGet_eq_none.1 h
    simp only [Except.ok.injEq, exists_eq_left', Option.getD_none]
    constructor
    · rintro rfl; exact Or.inl ⟨h', rfl⟩
    · rintro (⟨_, rfl⟩ | ⟨hm, _⟩ | ⟨hm, _⟩)
      · rfl
      · exact absurd hm (h' _)
      · exact absurd hm (h' _)
  · rw [h]
    have h' := (kwGet_eq_some hn).1 h
    simp only [beq_iff_eq]
    by_cases h1 : v = c!"yes"
    · subst h1
      simp only [if_true, Except.ok.injEq, exists_eq_left', Option.getD_some]
      constructor
      · rintro rfl; exact Or.inr (Or.inl ⟨h', rfl⟩)
      · rintro (⟨hx, _⟩ | ⟨_, rfl⟩ | ⟨hm, _⟩)
        · exact absurd h' (hx _)
        · rfl
        · rw [(kwGet_eq_some hn).2 hm] at h; simp at h
    · rw [if_neg h1]
      by_cases h2 : v = c!"no"
      · subst h2
        simp only [if_true, Except.ok.injEq, exists_eq_left', Option.getD_some]
        constructor
        · rintro rfl; exact Or.inr (Or.inr ⟨h', rfl⟩)
        · rintro (⟨hx, _⟩ | ⟨hm, _⟩ | ⟨_, rfl⟩)
          · exact absurd h' (hx _)
          · rw [(kwGet_eq_some hn).2 hm] at h; simp at h
          · rfl
      · rw [if_neg h2]
        simp only [reduceCtorEq, false_and, exists_false, false_iff]
        rintro (⟨hx, _⟩ | ⟨hm, _⟩ | ⟨hm, _⟩)
        · exact absurd h' (hx _)
        · rw [(kwGet_eq_some hn).2 hm] at h; simp at h; exact h1 h.symm
        · rw [(kwGet_eq_some hn).2 hm] at h; simp at h; exact h2 h.symm

theorem kwBool_error {kvs : List (Str × Str)} {key : Str} {e : Err}
    (h : kwBool kvs key = .error e) : e = .policySyntax := by
  unfold kwBool at h
  split at h
  · simp at h
  · split_ifs at h; simpa using h.symm

theorem kwGet_text {kvs : List (Str × Str)} (hn : (kvs.map Prod.fst).Nodup) {key : Str}
    {o : Option Str} : kwGet kvs key = o ↔ Text kvs key o := by
  unfold Text
  cases o with
  | none => simp [kwGet_eq_none]
  | some v => simp [kwGet_eq_some hn]

theorem parseRedirect_param {kvs : List (Str × Str)} (hn : (kvs.map Prod.fst).Nodup) {key : Str}
    {o : Option Token} :
    parseRedirect (kwGet kvs key) = .ok o ↔ RedirectParam kvs key o := by
  unfold RedirectParam
  rcases Option.eq_none_or_eq_some (kwGet kvs key) with h | ⟨v, h⟩
  · rw [h]
    have h' := kwGet_eq_none.1 h
    simp only [parseRedirect, Except.ok.injEq]
    constructor
    · rintro rfl; exact Or.inl ⟨h', rfl⟩
    · rintro (⟨_, rfl⟩ | ⟨v, t, hm, _⟩)
      · rfl
      · exact absurd hm (h' _)
  · rw [h]
    have h' := (kwGet_eq_some hn).1 h
    simp only [parseRedirect, bind_eq_ok, pure_ok, Except.ok.injEq]
    constructor
    · rintro ⟨t, ht, rfl⟩
      exact Or.inr ⟨v, t, h', parseToken_ok ht, rfl⟩
    · rintro (⟨hx, _⟩ | ⟨v', t, hm, ht, rfl⟩)
      · exact absurd h' (hx _)
      · rw [(kwGet_eq_some hn).2 hm] at h
        simp only [Option.some.injEq] at h
        subst h
        exact ⟨t, parseToken_of ht, rfl⟩

theorem parseRedirect_error {o : Option Str} {e : Err} (h : parseRedirect o = .error e) :
    e = .policySyntax := by
  cases o with
  | none => simp [parseRedirect] at h
  | some v =>
    simp only [parseRedirect, bind_eq_error, pure_ok, reduceCtorEq, and_false, exists_false,
      or_false] at h
    exact parseToken_error h

theorem actionParams_ok {action : Str} {l : List Str} (h : actionParams action = .ok l) (k : Str) :
    k ∈ l ↔ KnownParam action k := by
  unfold actionParams at h
  simp only [beq_iff_eq] at h
  by_cases h1 : action = c!"allow"
  · rw [if_pos h1] at h; subst h1
    rw [← Except.ok.inj h]
    constructor
    · intro hk; exact KnownParam.allow (by simpa using hk)
    · intro hk; cases hk with | allow hk => simpa using hk
  · rw [if_neg h1] at h
    by_cases h2 : action = c!"deny"
    · rw [if_pos h2] at h; subst h2
      rw [← Except.ok.inj h]
      constructor
      · intro hk
        have : k = c!"notify" := by simpa using hk
        subst this; exact KnownParam.deny
      · intro hk; cases hk with | deny => simp
    · rw [if_neg h2] at h
      by_cases h3 : action = c!"ask"
      · rw [if_pos h3] at h; subst h3
        rw [← Except.ok.inj h]
        constructor
        · intro hk; exact KnownParam.ask (by simpa using hk)
        · intro hk; cases hk with | ask hk => simpa using hk
      · rw [if_neg h3] at h; simp at h

theorem actionText_actionParams {kvs : List (Str × Str)} {action : Str} {act : Action}
    (h : ActionText kvs action act) : ∃ l, actionParams action = .ok l := by
  cases h
  · exact ⟨_, rfl⟩
  · exact ⟨_, rfl⟩
  · exact ⟨_, rfl⟩

theorem flag_mono {a b : List (Str × Str)} (h : ∀ x, x ∈ a ↔ x ∈ b) {k : Str} {d v : Bool} :
    Flag a k d v ↔ Flag b k d v := by simp [Flag, h]

theorem flag_absent {kvs : List (Str × Str)} {key : Str} {o : Option Bool}
    (h : ∀ v, (key, v) ∉ kvs) : kwBool kvs key = .ok o ↔ o = none := by
  unfold kwBool
  rw [kwGet_eq_none.2 h]
  simp only [Except.ok.injEq]
  constructor <;> (intro h; exact h.symm)

theorem nodup_rev {α : Type} {l : List α} (h : l.Nodup) : l.reverse.Nodup :=
  (List.reverse_perm l).nodup_iff.2 h

theorem parseAction_ok {action : Str} {params : List Str} {act : Action} :
    parseAction action params = .ok act ↔ ∃ kvs, ParamWords params kvs ∧
      (kvs.map Prod.fst).Nodup ∧ (∀ kv ∈ kvs, KnownParam action kv.1) ∧
      ActionText kvs action act := by
  unfold parseAction
  simp only [bind_eq_ok, require_eq_ok, pure_ok, List.all_eq_true, List.contains_iff_mem]
  constructor
  · rintro ⟨allowed, ha, kwds, hk, notify, hnot, auto, haut, _, hall, t, ht, d, hd, h⟩
    obtain ⟨kvs, hpw, hnd, _, rfl⟩ := parseParams_ok.1 hk
    simp only [List.append_nil] at *
    have hnd' : (kvs.reverse.map Prod.fst).Nodup := by
      rw [List.map_reverse]; exact nodup_rev hnd
    have hmem : ∀ x, x ∈ kvs.reverse ↔ x ∈ kvs := by simp
    have hkn : ∀ kv ∈ kvs, KnownParam action kv.1 := by
      intro kv hkv
      exact (actionParams_ok ha _).1
        (hall kv.1 (List.mem_map_of_mem (f := Prod.fst) ((hmem _).2 hkv)))
    refine ⟨kvs, hpw, hnd, hkn, ?_⟩
    have hT := (parseRedirect_param hnd').1 ht
    have hD := (parseRedirect_param hnd').1 hd
    have hU := (kwGet_text hnd' (key := c!"user") (o := kwGet kvs.reverse c!"user")).1 rfl
    simp only [RedirectParam, Text, hmem] at hT hD hU
    have hN : ∀ b, Flag kvs c!"notify" b (notify.getD b) := fun b =>
      (flag_mono hmem).1 ((kwBool_flag hnd').1 ⟨notify, hnot, rfl⟩)
    have hA : ∀ b, Flag kvs c!"autostart" b (auto.getD b) := fun b =>
      (flag_mono hmem).1 ((kwBool_flag hnd').1 ⟨auto, haut, rfl⟩)
    simp only [beq_iff_eq, Except.ok.injEq] at h
    unfold actionParams at ha
    simp only [beq_iff_eq] at ha
    by_cases h1 : action = c!"deny"
    · rw [if_pos h1] at h; subst h1; rw [← h]; exact ActionText.deny (hN _)
    · rw [if_neg h1] at h
      by_cases h2 : action = c!"allow"
      · rw [if_pos h2] at h; subst h2; rw [← h]; exact ActionText.allow hT hU (hN _) (hA _)
      · rw [if_neg h2] at h ha
        rw [if_neg h1] at ha
        by_cases h3 : action = c!"ask"
        · subst h3; rw [← h]; exact ActionText.ask hT hD hU (hN _) (hA _)
        · rw [if_neg h3] at ha; simp at ha
  · rintro ⟨kvs, hpw, hnd, hkn, hact⟩
    obtain ⟨allowed, ha⟩ := actionText_actionParams hact
    have hnd' : (kvs.reverse.map Prod.fst).Nodup := by
      rw [List.map_reverse]; exact nodup_rev hnd
    have hmem : ∀ x, x ∈ kvs.reverse ↔ x ∈ kvs := by simp
    have hall : ∀ k ∈ List.map Prod.fst (kvs.reverse ++ []), k ∈ allowed := by
      intro k hk
      simp only [List.append_nil, List.mem_map, List.mem_reverse] at hk
      obtain ⟨kv, hkv, rfl⟩ := hk
      exact (actionParams_ok ha _).2 (hkn kv hkv)
    have habs : ∀ key, ¬ KnownParam action key → ∀ v, (key, v) ∉ kvs.reverse := fun key hk v hm =>
      hk (hkn _ ((hmem _).1 hm))
    refine ⟨allowed, ha, kvs.reverse ++ [], parseParams_ok.2 ⟨kvs, hpw, hnd, by simp, rfl⟩, ?_⟩
    simp only [List.append_nil] at hall ⊢
    cases hact with
    | deny hn =>
      obtain ⟨o, ho, hb⟩ := (kwBool_flag hnd').2 ((flag_mono hmem).2 hn)
      refine ⟨o, ho, none, (flag_absent (habs _ ?_)).2 rfl, (), hall, none, ?_, none, ?_, ?_⟩
      · intro h; cases h
      · exact (parseRedirect_param hnd').2 (Or.inl ⟨habs _ (by intro h; cases h), rfl⟩)
      · exact (parseRedirect_param hnd').2 (Or.inl ⟨habs _ (by intro h; cases h), rfl⟩)
      · rw [hb]; rfl
    | allow ht hu hn hau =>
      obtain ⟨o, ho, hb⟩ := (kwBool_flag hnd').2 ((flag_mono hmem).2 hn)
      obtain ⟨o2, ho2, hb2⟩ := (kwBool_flag hnd').2 ((flag_mono hmem).2 hau)
      simp only [RedirectParam, Text, ← hmem] at ht hu
      refine ⟨o, ho, o2, ho2, (), hall, _, (parseRedirect_param hnd').2 ht, none, ?_, ?_⟩
      · exact (parseRedirect_param hnd').2 (Or.inl ⟨habs _ (by intro h; cases h; simp at *), rfl⟩)
      · rw [hb, hb2, (kwGet_text hnd').2 hu]; rfl
    | ask ht hd hu hn hau =>
      obtain ⟨o, ho, hb⟩ := (kwBool_flag hnd').2 ((flag_mono hmem).2 hn)
      obtain ⟨o2, ho2, hb2⟩ := (kwBool_flag hnd').2 ((flag_mono hmem).2 hau)
      simp only [RedirectParam, Text, ← hmem] at ht hd hu
      refine ⟨o, ho, o2, ho2, (), hall, _, (parseRedirect_param hnd').2 ht, _,
        (parseRedirect_param hnd').2 hd, ?_⟩
      rw [hb, hb2, (kwGet_text hnd').2 hu]; rfl

theorem parseAction_error {action : Str} {params : List Str} {e : Err}
    (h : parseAction action params = .error e) : e = .policySyntax := by
  unfold parseAction at h
  simp only [bind_eq_error, require_eq_error, pure_ok, reduceCtorEq, and_false, exists_false,
    or_false] at h
  rcases h with h | ⟨_, _, h⟩
  · unfold actionParams at h; split_ifs at h; simpa using h.symm
  rcases h with h | ⟨_, _, h⟩
  · exact parseParams_error h
  rcases h with h | ⟨_, _, h⟩
  · exact kwBool_error h
  rcases h with h | ⟨_, _, h⟩
  · exact kwBool_error h
  rcases h with h | ⟨_, _, h⟩
  · exact h.2.symm
  rcases h with h | ⟨_, _, h⟩
  · exact parseRedirect_error h
  · exact parseRedirect_error h

theorem validateSA_error {s a : Option Str} {e : Err}
    (h : validateServiceAndArgument s a = .error e) : e = .policySyntax := by
  unfold validateServiceAndArgument at h
  simp only [bind_eq_error, require_eq_error, pure_ok, reduceCtorEq, and_false, exists_false,
    or_false] at h
  rcases h with h | ⟨_, _, h⟩
  · exact h.2.symm
  rcases h with h | ⟨_, _, h⟩
  · exact h.2.symm
  rcases h with h | ⟨_, _, h⟩
  · exact h.2.symm
  · exact h.2.symm

theorem validateSA_ok {s a : Str} {p : Option Str × Option Str} :
    validateServiceAndArgument (some s) (some a) = .ok p ↔
      ServiceText s p.1 ∧ ArgumentText a p.2 ∧ (p.1 = none → p.2 = none) := by
  obtain ⟨p1, p2⟩ := p
  unfold validateServiceAndArgument
  simp only [bind_eq_ok, require_eq_ok, pure_ok, Except.ok.injEq, Prod.mk.injEq,
    exists_and_left, exists_const, beq_iff_eq, Option.some.injEq, Bool.or_eq_true]
  have argOk : ∀ a : Str, a ≠ c!"*" →
      ((a.all rpcNameChar = true ∧ startsWith c!"+" a = true) ↔ ArgumentText a (some a)) := by
    intro a ha
    constructor
    · rintro ⟨h1, h2⟩
      obtain ⟨t, rfl⟩ := startsWith_iff.1 h2
      refine ArgumentText.arg (fun c hc => (nameChar_iff c).1 ?_)
      exact List.all_eq_true.1 h1 c (List.mem_cons_of_mem _ hc)
    · intro h
      cases h with
      | arg h =>
        refine ⟨?_, rfl⟩
        rw [List.all_eq_true]
        intro c hc
        rcases List.mem_cons.1 hc with rfl | hc
        · rfl
        · exact (nameChar_iff c).2 (h c hc)
  have svcOk : ∀ s : Str, s ≠ c!"*" → (validService s = true ↔ ServiceText s (some s)) := by
    intro s hs
    unfold validService
    rw [List.all_eq_true]
    constructor
    · intro h
      refine ServiceText.name hs (fun c hc => ?_)
      have := h c hc
      simp only [Bool.and_eq_true, bne_iff_ne, ne_eq] at this
      exact ⟨(nameChar_iff c).1 this.1, this.2⟩
    · intro h c hc
      cases h with
      | name _ h =>
        simp only [Bool.and_eq_true, bne_iff_ne, ne_eq]
        exact ⟨(nameChar_iff c).2 (h c hc).1, (h c hc).2⟩
  by_cases hs : s = c!"*"
  · subst hs
    simp only [if_true, Option.isSome_none, Bool.false_eq_true, or_false, true_and]
    by_cases ha : a = c!"*"
    · subst ha
      simp only [if_true, Option.isNone_none, true_and]
      constructor
      · rintro ⟨rfl, rfl⟩
        exact ⟨.any, .any, fun _ => rfl⟩
      · rintro ⟨h1, h2, h3⟩
        cases h1 with
        | any => exact ⟨rfl, (h3 rfl).symm⟩
        | name h => exact absurd rfl h
    · simp only [if_neg ha, Option.isNone_some, Bool.false_eq_true, false_and, and_false,
        false_iff]
      rintro ⟨h1, h2, h3⟩
      cases h1 with
      | any =>
        rw [h3 rfl] at h2
        cases h2; exact ha rfl
      | name h => exact absurd rfl h
  · simp only [if_neg hs, svcOk s hs, Option.isSome_some, or_true, true_and]
    by_cases ha : a = c!"*"
    · subst ha
      simp only [if_true, true_and]
      constructor
      · rintro ⟨h, rfl, rfl⟩
        exact ⟨h, .any, fun h => by simp at h⟩
      · rintro ⟨h1, h2, h3⟩
        cases h1 with
        | any => exact absurd rfl hs
        | name h hh =>
          cases h2
          exact ⟨.name h hh, rfl, rfl⟩
    · simp only [if_neg ha]
      constructor
      · rintro ⟨h1, h2, h3, rfl, rfl⟩
        exact ⟨h1, (argOk a ha).1 ⟨h2, h3⟩, fun h => by simp at h⟩
      · rintro ⟨h1, h2, h3⟩
        cases h1 with
        | any => exact absurd rfl hs
        | name h hh =>
          have h2' := h2
          cases h2 with
          | any => exact absurd rfl ha
          | arg => exact ⟨.name h hh, ((argOk _ ha).2 h2').1, ((argOk _ ha).2 h2').2, rfl, rfl⟩

theorem mkRule_error {s a : Option Str} {src tgt act : Str} {ps : List Str} {path : List Str}
    {e : Err} (h : mkRule s a src tgt act ps path = .error e) : e = .policySyntax := by
  unfold mkRule at h
  simp only [bind_eq_error, require_eq_error, pure_ok, reduceCtorEq, and_false, exists_false,
    or_false] at h
  rcases h with h | ⟨_, _, h⟩
  · exact validateSA_error h
  rcases h with h | ⟨_, _, h⟩
  · exact parseToken_error h
  rcases h with h | ⟨_, _, h⟩
  · exact parseToken_error h
  rcases h with h | ⟨_, _, h⟩
  · exact parseAction_error h
  · exact h.2.symm

theorem allowWithoutTarget_iff {act : Action} :
    allowWithoutTarget act = true ↔ ∃ u n b, act = .allow none u n b := by
  cases act with
  | deny n => simp [allowWithoutTarget]
  | ask t d u n a => simp [allowWithoutTarget]
  | allow t u n a => cases t <;> simp [allowWithoutTarget]

theorem ruleWords_iff {s a src tgt act : Str} {ps : List Str} {path : List Str} {r : Rule} :
    mkRule (some s) (some a) src tgt act ps path = .ok r ↔
      RuleWords path (s :: a :: src :: tgt :: act :: ps) r := by
  unfold mkRule
  simp only [bind_eq_ok, require_eq_ok, pure_ok, Except.ok.injEq]
  constructor
  · rintro ⟨sa, hsa, src', hsrc, tgt', htgt, act', hact, _, hd, rfl⟩
    obtain ⟨h1, h2, h3⟩ := validateSA_ok.1 hsa
    obtain ⟨kvs, hpw, hnd, hkn, hat⟩ := parseAction_ok.1 hact
    refine RuleWords.mk h1 h2 h3 (parseToken_ok hsrc) (parseToken_ok htgt) hpw hnd hkn hat ?_
    intro ht u n b he
    subst ht he
    simp [allowWithoutTarget] at hd
  · rintro h
    cases h with
    | @mk _ _ _ _ _ _ _ _ _ _ tt _ h1 h2 h3 hsrc htgt hpw hnd hkn hat hd =>
      refine ⟨(_, _), validateSA_ok.2 ⟨h1, h2, h3⟩, _, parseToken_of hsrc, _,
        parseToken_of htgt, _, parseAction_ok.2 ⟨_, hpw, hnd, hkn, hat⟩, (), ?_, rfl⟩
      rw [Bool.not_eq_true', Bool.and_eq_false_iff]
      by_cases ht : tt = Token.default
      · right
        rw [Bool.eq_false_iff]
        intro hx
        obtain ⟨u, n, b, he⟩ := allowWithoutTarget_iff.1 hx
        exact hd ht u n b he
      · left; simpa using ht

theorem ruleFromLine_error {line : Str} {path : List Str} {e : Err}
    (h : ruleFromLine line path = .error e) : e = .policySyntax := by
  unfold ruleFromLine at h
  split at h
  · exact mkRule_error h
  · simpa using h.symm

theorem ruleFromLineService_error {s a : Option Str} {line : Str} {path : List Str} {e : Err}
    (h : ruleFromLineService s a line path = .error e) : e = .policySyntax := by
  unfold ruleFromLineService at h
  split at h
  · split at h
    · exact mkRule_error h
    · simpa using h.symm
  · simpa using h.symm

end Qrexec
