import Verif.Lemmas.CResponse
import Verif.Props.Response
import Verif.Props.PolicyDaemon

/-! # C22, C55, C56: what the C daemon makes of the policy engine's answer -/
namespace Qrexec
open Spec

theorem mapM_splitOnce {lines : List Str} {fs : List (Str × Str)} :
    lines.mapM (splitOnce '=') = some fs ↔
      lines = fs.map (fun f => f.1 ++ '=' :: f.2) ∧ ∀ f ∈ fs, '=' ∉ f.1 := by
  induction lines generalizing fs with
  | nil =>
    rw [List.mapM_nil]
    constructor
    · intro h; cases h; simp
    · rintro ⟨h, _⟩
      rw [show fs = [] by simpa using h.symm]
      rfl
  | cons l ls ih =>
    rw [List.mapM_cons]
    constructor
    · intro h
      rcases hs : splitOnce '=' l with _ | ⟨k, v⟩
      · rw [hs] at h; simp at h
      · rw [hs] at h
        rcases hr : ls.mapM (splitOnce '=') with _ | fs'
        · rw [hr] at h; simp at h
        · rw [hr] at h
          have hfs : fs = (k, v) :: fs' := by injection h with h; exact h.symm
          subst hfs
          obtain ⟨h1, h2⟩ := ih.1 hr
          obtain ⟨h3, h4⟩ := splitOnce_eq_some.1 hs
          refine ⟨by rw [h1, h3]; simp, ?_⟩
          intro f hf
          rcases List.mem_cons.1 hf with rfl | hf
          · exact h4
          · exact h2 f hf
    · rintro ⟨h1, h2⟩
      cases fs with
      | nil => simp at h1
      | cons f fs' =>
        simp only [List.map_cons, List.cons.injEq] at h1
        obtain ⟨rfl, h1⟩ := h1
        rw [splitOnce_eq_some.2 ⟨rfl, h2 f (by simp)⟩, ih.2 ⟨h1, fun g hg => h2 g (by simp [hg])⟩]
        rfl

theorem answerText_last {fs : List (Str × Str)} (h : fs ≠ []) (hn : ∀ f ∈ fs, '\n' ∉ f.2) :
    (answerText fs).getLast? ≠ some '\n' := by
  unfold answerText
  induction fs with
  | nil => exact absurd rfl h
  | cons f fs ih =>
    cases fs with
    | nil =>
      simp only [List.map_cons, List.map_nil, joinWith]
      intro hc
      rw [List.getLast?_append] at hc
      rcases hv : f.2 with _ | ⟨c, cs⟩
      · rw [hv] at hc; simp at hc
      · have : ('=' :: f.2).getLast? = some '\n' := by
          rcases hl : ('=' :: f.2).getLast? with _ | x
          · simp at hl
          · rw [hl] at hc; simpa using hc
        have hm := List.mem_of_getLast? this
        rcases List.mem_cons.1 hm with h' | h'
        · exact absurd h' (by decide)
        · exact hn f (by simp) h'
    | cons g gs =>
      have := ih (by simp) fun f hf => hn f (by simp [hf])
      simp only [List.map_cons] at this ⊢
      rw [joinWith_cons (by simp)]
      intro hc
      rw [List.getLast?_append, List.getLast?_cons] at hc
      apply this
      rcases hl : (joinWith '\n' ((g.1 ++ '=' :: g.2) :: List.map (fun f => f.1 ++ '=' :: f.2) gs)).getLast? with _ | x
      · rw [List.getLast?_eq_none_iff] at hl
        exfalso
        have : ∀ (w : Str) (ws : List Str), w ≠ [] → joinWith '\n' (w :: ws) ≠ [] := by
          intro w ws hw
          cases ws with
          | nil => simpa [joinWith] using hw
          | cons a as => rw [joinWith_cons (by simp)]; simp
        exact this _ _ (by simp) hl
      · rw [hl] at hc ⊢
        simpa using hc

theorem nul_mem_answerText {fs : List (Str × Str)} :
    '\x00' ∉ answerText fs ↔ ∀ f ∈ fs, '\x00' ∉ f.1 ∧ '\x00' ∉ f.2 := by
  unfold answerText
  induction fs with
  | nil => simp [joinWith]
  | cons f fs ih =>
    have hl : '\x00' ∉ f.1 ++ '=' :: f.2 ↔ '\x00' ∉ f.1 ∧ '\x00' ∉ f.2 := by
      simp only [List.mem_append, List.mem_cons, not_or]
      have : ('\x00' : Char) ≠ '=' := by decide
      tauto
    cases fs with
    | nil =>
      simp only [List.map_cons, List.map_nil, joinWith, hl]
      simp
    | cons g gs =>
      rw [List.map_cons, joinWith_cons (by simp)]
      rw [List.mem_append, List.mem_cons, not_or, not_or, ih, hl]
      have : ('\x00' : Char) ≠ '\n' := by decide
      simp only [List.mem_cons, forall_eq_or_imp]
      tauto

/-- The lines the daemon reads are those of the fields. -/
theorem responseOf_iff {response : Wire} {fs : List (Str × Str)} (hne : response ≠ [])
    (hnul : '\x00' ∉ response) :
    ResponseOf response fs ↔
      (splitOn '\n' (chompOne response)).mapM (splitOnce '=') = some fs := by
  rw [mapM_splitOnce, splitOn_eq_iff]
  have hjoin : joinWith '\n' (fs.map fun f => f.1 ++ '=' :: f.2) = answerText fs := rfl
  rw [hjoin]
  have hline : ∀ f : Str × Str, '\n' ∉ f.1 ++ '=' :: f.2 ↔ '\n' ∉ f.1 ∧ '\n' ∉ f.2 := by
    intro f
    simp only [List.mem_append, List.mem_cons, not_or]
    have : ('\n' : Char) ≠ '=' := by decide
    tauto
  constructor
  · rintro ⟨h1, h2, h3⟩
    have hlast := answerText_last h1 fun f hf => (h2 f hf).2.2.1
    have hch : chompOne response = answerText fs := by
      unfold chompOne
      rcases h3 with rfl | rfl
      · rw [if_neg hlast]
      · rw [if_pos (by rw [List.getLast?_append]; rfl)]
        simp
    rw [hch]
    refine ⟨⟨by simpa using h1, rfl, ?_⟩, fun f hf => (h2 f hf).1⟩
    intro w hw
    obtain ⟨f, hf, rfl⟩ := List.mem_map.1 hw
    exact (hline f).2 ⟨(h2 f hf).2.1, (h2 f hf).2.2.1⟩
  · rintro ⟨⟨h1, h2, h3⟩, h4⟩
    have hr : response = answerText fs ∨ response = answerText fs ++ c!"\n" := by
      unfold chompOne at h2
      by_cases hl : response.getLast? = some '\n'
      · rw [if_pos hl] at h2
        right
        rw [← h2]
        obtain ⟨a, ha⟩ : ∃ a, response = a ++ c!"\n" := by
          rcases List.eq_nil_or_concat response with h | ⟨a, b, rfl⟩
          · exact absurd h hne
          · refine ⟨a, ?_⟩
            rw [List.concat_eq_append, List.getLast?_append] at hl
            simp at hl
            rw [List.concat_eq_append, hl]
        rw [ha]; simp
      · rw [if_neg hl] at h2
        exact Or.inl h2
    refine ⟨by simpa using h1, ?_, hr⟩
    intro f hf
    have hn := (hline f).1 (h3 _ (List.mem_map_of_mem hf))
    have h0 : '\x00' ∉ answerText fs := by
      rcases hr with h | h <;> rw [h] at hnul
      · exact hnul
      · intro hc; exact hnul (by simp [hc])
    have := nul_mem_answerText.1 h0 f hf
    exact ⟨h4 f hf, hn.1, hn.2, this.1, this.2⟩

theorem holds_iff {fs : List (Str × Str)} {p : PolicyAnswer} :
    Readable fs ∧ Holds fs p ↔
      (∀ k ∈ knownKeys, (fs.filter fun f => f.1 = k).length ≤ 1) ∧
      (∀ k ∈ knownKeys, ∀ v, valueOf fs k = some v → ValueOk k v) ∧
      ∀ k ∈ knownKeys, slot p k = valueOf fs k := by
  obtain ⟨a1, a2, a3, a4, a5, a6, a7, a8⟩ := p
  constructor
  · rintro ⟨⟨h1, h2, h3⟩, ⟨g1, g2, g3, g4, g5, g6, g7, g8⟩⟩
    refine ⟨h1, ?_, ?_⟩
    · intro k hk v hv
      refine ⟨?_, ?_⟩
      · rintro rfl; exact h2 v hv
      · rintro rfl; exact h3 v hv
    · intro k hk
      simp only [knownKeys, List.mem_cons, List.not_mem_nil, or_false] at hk
      simp only at g1 g2 g3 g4 g5 g6 g7 g8
      rcases hk with rfl | rfl | rfl | rfl | rfl | rfl | rfl | rfl
      · change a1.map _ = _
        rw [g1]
        rcases hv : valueOf fs c!"result" with _ | v
        · rfl
        · rcases h2 v hv with rfl | rfl <;> rfl
      · exact g2
      · exact g3
      · exact g4
      · change a5.map _ = _
        rw [g5]
        rcases hv : valueOf fs c!"autostart" with _ | v
        · rfl
        · rcases h3 v hv with rfl | rfl <;> rfl
      · exact g6
      · exact g7
      · exact g8
  · rintro ⟨h1, h2, h3⟩
    have hr := h3 c!"result" (by decide)
    have ha := h3 c!"autostart" (by decide)
    change a1.map _ = _ at hr
    change a5.map _ = _ at ha
    refine ⟨⟨h1, fun v hv => (h2 _ (by decide) v hv).1 rfl, fun v hv => (h2 _ (by decide) v hv).2 rfl⟩,
      ⟨?_, h3 c!"user" (by decide), h3 c!"target" (by decide), h3 c!"target_uuid" (by decide), ?_,
        h3 c!"requested_target" (by decide), h3 c!"service" (by decide),
        h3 c!"policy_source" (by decide)⟩⟩
    · rw [← hr]; rcases a1 with _ | ⟨_ | _⟩ <;> rfl
    · rw [← ha]; rcases a5 with _ | ⟨_ | _⟩ <;> rfl

theorem slot_empty (k : Str) : slot {} k = none := by
  unfold slot
  split_ifs <;> rfl

theorem parseResponse_iff {response : Wire} {v : Verdict} {p : PolicyAnswer} (hv : v ≠ .malformed) :
    parseResponse none response = (v, p) ↔
      ∃ fs, ResponseOf response fs ∧ Readable fs ∧ Holds fs p ∧ finalVerdict p = v := by
  have hof : ∀ fs, ResponseOf response fs → response ≠ [] ∧ '\x00' ∉ response := by
    rintro fs ⟨h1, h2, h3⟩
    have h0 := nul_mem_answerText.2 fun f hf => ⟨(h2 f hf).2.2.2.1, (h2 f hf).2.2.2.2⟩
    have hne : answerText fs ≠ [] := by
      unfold answerText
      cases fs with
      | nil => exact absurd rfl h1
      | cons f fs =>
        cases fs with
        | nil => simp [joinWith]
        | cons g gs => rw [List.map_cons, joinWith_cons (by simp)]; simp
    rcases h3 with rfl | rfl
    · exact ⟨hne, h0⟩
    · refine ⟨by simp, ?_⟩
      intro hc
      rcases List.mem_append.1 hc with h | h
      · exact h0 h
      · exact absurd h (by decide)
  unfold parseResponse
  by_cases hne : response = []
  · subst hne
    simp only [List.isEmpty_nil, if_true, Prod.mk.injEq]
    constructor
    · rintro ⟨rfl, _⟩; exact absurd rfl hv
    · rintro ⟨fs, h, _⟩; exact absurd rfl (hof fs h).1
  have he : response.isEmpty = false := by cases response with | nil => exact absurd rfl hne | cons => rfl
  by_cases hnul : '\x00' ∈ response
  · rw [he, List.contains_iff_mem.2 hnul]
    simp only [Bool.false_eq_true, if_false, if_true, Prod.mk.injEq]
    constructor
    · rintro ⟨rfl, _⟩; exact absurd rfl hv
    · rintro ⟨fs, h, _⟩; exact absurd hnul (hof fs h).2
  have hc : response.contains '\x00' = false := by
    rw [Bool.eq_false_iff]; exact fun h => hnul (List.contains_iff_mem.1 h)
  rw [he, hc]
  simp only [Bool.false_eq_true, if_false]
  have key : ∀ q, responseLines {} (splitOn '\n' (chompOne response)) = (q, true) ↔
      ∃ fs, ResponseOf response fs ∧ Readable fs ∧ Holds fs q := by
    intro q
    rw [responseLines_iff]
    constructor
    · rintro ⟨fs, h0, h1, h2, h3, h4⟩
      refine ⟨fs, (responseOf_iff hne hnul).2 h0, holds_iff.2 ⟨h1, h3, ?_⟩⟩
      intro k hk
      rw [h4 k hk, slot_empty]
      cases valueOf fs k <;> rfl
    · rintro ⟨fs, h0, h⟩
      obtain ⟨h1, h2, h3⟩ := holds_iff.1 h
      refine ⟨fs, (responseOf_iff hne hnul).1 h0, h1, fun k _ _ => slot_empty k, h2, ?_⟩
      intro k hk
      rw [h3 k hk, slot_empty]
      cases valueOf fs k <;> rfl
  rcases hr : responseLines {} (splitOn '\n' (chompOne response)) with ⟨q, _ | _⟩
  · simp only [Prod.mk.injEq]
    constructor
    · rintro ⟨rfl, _⟩; exact absurd rfl hv
    · rintro ⟨fs, h1, h2, h3, _⟩
      have := (key p).2 ⟨fs, h1, h2, h3⟩
      rw [hr] at this
      simp at this
  · simp only [Prod.mk.injEq]
    obtain ⟨fs, h1, h2, h3⟩ := (key q).1 hr
    constructor
    · rintro ⟨rfl, rfl⟩
      exact ⟨fs, h1, h2, h3, rfl⟩
    · rintro ⟨fs', h1', h2', h3', rfl⟩
      have := (key p).2 ⟨fs', h1', h2', h3'⟩
      rw [hr] at this
      simp only [Prod.mk.injEq, and_true] at this
      subst this
      exact ⟨rfl, rfl⟩

theorem finalVerdict_iff {fs : List (Str × Str)} {p : PolicyAnswer} (hr : Readable fs)
    (hh : Holds fs p) :
    (finalVerdict p = .allow ↔ Allows fs) ∧ (finalVerdict p = .deny ↔ Denies fs) := by
  have hres : ∀ b, p.result = some b ↔ valueOf fs c!"result" = some (if b then c!"allow" else c!"deny") := by
    intro b
    rw [hh.result]
    rcases hv : valueOf fs c!"result" with _ | v
    · simp
    · rcases hr.result v hv with rfl | rfl <;> cases b <;> decide
  have hauto : p.autostart = none ↔ valueOf fs c!"autostart" = none := by
    rw [hh.autostart]; simp
  unfold Allows Denies
  rw [← hh.user, ← hh.target, ← hh.requestedTarget]
  have hauto' : (valueOf fs c!"autostart").isSome = p.autostart.isSome := by
    rcases h : p.autostart with _ | a
    · rw [hauto.1 h]; rfl
    · rcases h' : valueOf fs c!"autostart" with _ | b
      · rw [hauto.2 h'] at h; simp at h
      · rfl
  rw [hauto', ← hauto]
  have h1 := hres true
  have h2 := hres false
  simp only [if_true, Bool.false_eq_true, if_false] at h1 h2
  rw [← h1, ← h2]
  unfold finalVerdict
  obtain ⟨a1, a2, a3, a4, a5, a6, a7, a8⟩ := p
  simp only
  rcases a1 with _ | ⟨_ | _⟩ <;> rcases a2 with _ | _ <;> rcases a3 with _ | _ <;>
    rcases a5 with _ | _ <;> rcases a6 with _ | _ <;> simp

/-- **C22.** An answer is taken as permission iff it is a list of `key=value` lines, none of the
keys the daemon knows twice, that says `result=allow` and has a user, a target, a requested target
and `autostart=True` or `False`; and what is used is exactly what those lines say. -/
theorem C22_allow_iff (response : Wire) (p : PolicyAnswer) :
    parseResponse none response = (.allow, p) ↔
      ∃ fs, ResponseOf response fs ∧ Readable fs ∧ Allows fs ∧ Holds fs p := by
  rw [parseResponse_iff (by decide)]
  constructor
  · rintro ⟨fs, h1, h2, h3, h4⟩; exact ⟨fs, h1, h2, (finalVerdict_iff h2 h3).1.1 h4, h3⟩
  · rintro ⟨fs, h1, h2, h3, h4⟩; exact ⟨fs, h1, h2, h4, (finalVerdict_iff h2 h4).1.2 h3⟩

/-- **C22.** And as a refusal iff it says `result=deny` and has none of those other fields. -/
theorem C22_deny_iff (response : Wire) (p : PolicyAnswer) :
    parseResponse none response = (.deny, p) ↔
      ∃ fs, ResponseOf response fs ∧ Readable fs ∧ Denies fs ∧ Holds fs p := by
  rw [parseResponse_iff (by decide)]
  constructor
  · rintro ⟨fs, h1, h2, h3, h4⟩; exact ⟨fs, h1, h2, (finalVerdict_iff h2 h3).2.1 h4, h3⟩
  · rintro ⟨fs, h1, h2, h3, h4⟩; exact ⟨fs, h1, h2, h4, (finalVerdict_iff h2 h4).2.2 h3⟩

theorem count_le_one_of_nodup {fs : List (Str × Str)} (h : (fs.map Prod.fst).Nodup) (k : Str) :
    (fs.filter fun f => f.1 = k).length ≤ 1 := by
  induction fs with
  | nil => simp
  | cons f fs ih =>
    simp only [List.map_cons, List.nodup_cons] at h
    simp only [List.filter_cons, decide_eq_true_eq]
    split_ifs with hk
    · have : fs.filter (fun g => decide (g.1 = k)) = [] := by
        rw [List.filter_eq_nil_iff]
        intro g hg hgk
        apply h.1
        rw [hk, ← of_decide_eq_true hgk]
        exact List.mem_map_of_mem hg
      rw [this]; simp
    · exact ih h.2

/-- The record with the values of the fields. -/
def record (fs : List (Str × Str)) : PolicyAnswer :=
  { result := (valueOf fs c!"result").map (· == c!"allow"), user := valueOf fs c!"user"
    target := valueOf fs c!"target", targetUuid := valueOf fs c!"target_uuid"
    autostart := (valueOf fs c!"autostart").map (· == c!"True")
    requestedTarget := valueOf fs c!"requested_target", service := valueOf fs c!"service"
    policySource := valueOf fs c!"policy_source" }

theorem holds_record (fs : List (Str × Str)) : Holds fs (record fs) :=
  ⟨rfl, rfl, rfl, rfl, rfl, rfl, rfl, rfl⟩

theorem pyBool_words (b : Bool) : pyBool b = c!"True" ∨ pyBool b = c!"False" := by
  cases b
  · right; rfl
  · left; rfl

theorem answerFor_values {req : Request} {user : Option Str} {autostart : Bool} {out : Str}
    {fs : List (Str × Str)} (ha : AnswerFor req user autostart out fs) :
    fs ≠ [] ∧ valueOf fs c!"result" = some c!"allow" ∧
    valueOf fs c!"autostart" = some (pyBool autostart) ∧ Allows fs := by
  have h : ∀ {g : Prop} [Decidable g] {l m : List (Str × Str)} {k : Str} (v : Str), valueOf l k = some v →
      valueOf (l ++ if g then [] else m) k = some v := by
    intro g _ l m k v hv
    unfold valueOf at hv ⊢
    rw [List.find?_append]
    rcases hf : l.find? (fun f => f.1 = k) with _ | x
    · rw [hf] at hv; simp at hv
    · rw [hf] at hv ⊢; exact hv
  cases ha with
  | dom0 =>
    refine ⟨by simp, rfl, rfl, rfl, rfl, rfl, rfl, rfl⟩
  | disposable =>
    exact ⟨by simp, h _ rfl, h _ rfl, h _ rfl, by rw [h _ rfl]; rfl, by rw [h _ rfl]; rfl,
      by rw [h _ rfl]; rfl, by rw [h _ rfl]; rfl⟩
  | plain =>
    exact ⟨by simp, h _ rfl, h _ rfl, h _ rfl, by rw [h _ rfl]; rfl, by rw [h _ rfl]; rfl,
      by rw [h _ rfl]; rfl, by rw [h _ rfl]; rfl⟩
  | remote =>
    exact ⟨by simp, h _ rfl, h _ rfl, h _ rfl, by rw [h _ rfl]; rfl, by rw [h _ rfl]; rfl,
      by rw [h _ rfl]; rfl, by rw [h _ rfl]; rfl⟩

/-- **C22.** Every answer of the policy engine is read as what was decided: a refusal as a refusal,
and otherwise a permission with exactly the fields of the granted target.  Assumptions: those of
C21, and that the answer contains no NUL. -/
theorem C22_engine_answer_understood (sys : Option Info) (policy : Except Err (List Rule))
    (agent : Agent) (mode : Mode) (source target sa rs : Str)
    (hn : ∀ info, sys = some info → OrdinaryNames info ∧ NoNewlines info)
    (hrules : ∀ rules, policy = .ok rules → ∀ r ∈ rules, IsRule r ∧
      ∀ u t d n b, (r.action = .allow t (some u) n b ∨ r.action = .ask t d (some u) n b) →
        '\n' ∉ u)
    (hsa : '\n' ∉ sa) (hm : mode.justEvaluate = false) (evs : List Event) (s : Str)
    (h : handleRequest sys policy agent mode source target sa rs = (evs, .ok s))
    (hnul : '\x00' ∉ s) :
    (s = denyAnswer ∧ parseResponse none s = (.deny, { result := some false })) ∨
    ∃ info rules req r user autostart out fs p, sys = some info ∧ policy = .ok rules ∧
      requestOf sa source target info rs = .ok req ∧
      Granted rules req mode agent r user autostart out ∧ AnswerFor req user autostart out fs ∧
      s = answerText fs ∧ ResponseOf s fs ∧ parseResponse none s = (.allow, p) ∧ Holds fs p := by
  by_cases hs : s = denyAnswer
  · left; subst hs; exact ⟨rfl, by decide⟩
  right
  obtain ⟨fs, hread, hnd, hcase⟩ :=
    C21_every_answer_reads_back sys policy agent mode source target sa rs hn hrules hsa evs s h
  have hne : s ≠ [] := by rintro rfl; exact handleRequest_ne_nil h
  have hno : s.getLast? ≠ some '\n' ∧ ResponseOf s fs := by
    have hl := mapM_splitOnce.1 hread
    have hs' := splitOn_eq_iff.1 hl.1
    have hlast : s.getLast? ≠ some '\n' := by
      rw [hs'.2.1]
      refine answerText_last (fun e => hs'.1 (by rw [e]; rfl)) ?_
      intro f hf hc
      exact hs'.2.2 _ (List.mem_map_of_mem hf) (by simp [hc])
    refine ⟨hlast, (responseOf_iff hne hnul).2 ?_⟩
    unfold chompOne
    rw [if_neg hlast]
    exact hread
  rcases hcase with rfl | ⟨hje, _⟩ | ⟨info, rules, req, r, user, autostart, out, h1, h2, h3, h4, h5⟩
  · exfalso
    apply hs
    have hl := mapM_splitOnce.1 hread
    rw [(splitOn_eq_iff.1 hl.1).2.1]
    rfl
  · rw [hm] at hje; simp at hje
  · obtain ⟨hnil, hr, hau, hal⟩ := answerFor_values h5
    refine ⟨info, rules, req, r, user, autostart, out, fs, record fs, h1, h2, h3, h4, h5,
      (splitOn_eq_iff.1 (mapM_splitOnce.1 hread).1).2.1, hno.2, ?_, holds_record fs⟩
    rw [C22_allow_iff]
    refine ⟨fs, hno.2, ⟨fun k _ => count_le_one_of_nodup hnd k, ?_, ?_⟩, hal, holds_record fs⟩
    · intro v hv; rw [hr] at hv; cases hv; exact Or.inl rfl
    · intro v hv; rw [hau] at hv; cases hv; exact pyBool_words _

/-- A granted call, as the daemon reads it. -/
example : ∃ s, (handleRequest (some exInfo2) (.ok [exAllowAll]) exAgent {} c!"work" c!"far" c!"svc+a"
    []).2 = .ok s ∧ parseResponse none s =
    (.allow, ⟨some true, some c!"DEFAULT", some c!"relay", some c!"uuid:u1", some true,
      some c!"far", some c!"tr+far+svc+a", none⟩) := ⟨_, rfl, by decide⟩

/-- A field twice, a missing field and a stray word are all malformed. -/
example : (parseResponse none c!"result=allow\nresult=deny\n").1 = .malformed ∧
    (parseResponse none c!"result=allow\nuser=u\ntarget=t\nautostart=True\n").1 = .malformed ∧
    (parseResponse none c!"result=deny\nbye\n").1 = .malformed ∧
    (parseResponse none c!"result=deny\n").1 = .deny := by decide

/-! ## C56: the command that is run -/

theorem withPlus_eq {sa remote target rs : Str} {info : Info} {req : Request}
    (hreq : requestOf sa remote target info rs = .ok req) :
    withPlus sa = req.service ++ req.argument := by
  obtain ⟨h1, h2, _⟩ := mkRequest_ok hreq
  rw [h1, h2]
  unfold withPlus splitServiceArg
  by_cases hc : '+' ∈ sa
  · rw [List.contains_iff_mem.2 hc, if_pos rfl]
    rcases hs : splitOnce '+' sa with _ | ⟨a, b⟩
    · exfalso
      have : ∀ l : Str, '+' ∈ l → splitOnce '+' l ≠ none := by
        intro l
        induction l with
        | nil => simp
        | cons c cs ih =>
          intro hm
          unfold splitOnce
          by_cases hce : c = '+'
          · simp [hce]
          · rw [if_neg hce]
            rcases List.mem_cons.1 hm with h | h
            · exact absurd h.symm hce
            · simpa using ih h
      exact this sa hc hs
    · exact (splitOnce_eq_some.1 hs).1
  · have : sa.contains '+' = false := by
      rw [Bool.eq_false_iff]; exact fun h => hc (List.contains_iff_mem.1 h)
    rw [this, if_neg (by decide)]
    rcases hs : splitOnce '+' sa with _ | ⟨a, b⟩
    · rfl
    · exfalso; apply hc; rw [(splitOnce_eq_some.1 hs).1]; simp

theorem refersToDom0_iff (s : Str) : refersToDom0 s = true ↔ Dom0 s := by
  simp only [refersToDom0, Dom0, Bool.or_eq_true, beq_iff_eq]
  tauto

theorem childAction_vm {remote sa t user u : Str} {p : PolicyAnswer} {autostart : Bool}
    (hd : ¬ Dom0 t) (ht : p.target = some t) (hu : p.targetUuid = some u)
    (hus : p.user = some user) (ha : p.autostart = some autostart) :
    childAction remote sa p = .runVm u true autostart
      (user ++ c!":QUBESRPC " ++ withPlus (p.service.getD sa) ++ c!" " ++
        p.policySource.getD remote) := by
  unfold childAction
  rw [ht, hu, hus, ha]
  have : refersToDom0 ((some t).getD []) = false := by
    rw [Bool.eq_false_iff]; exact fun h => hd ((refersToDom0_iff t).1 h)
  simp only [Option.getD_some] at this
  simp only [this, Bool.false_eq_true, if_false, Option.getD_some, Option.isSome_some]

theorem pyBool_true (b : Bool) : (pyBool b == c!"True") = b := by cases b <;> rfl

/-- The caller recorded in an answer for a virtual machine. -/
theorem source_of_answer {sa remote target rs : Str} {info : Info} {req : Request}
    {l : List (Str × Str)} (hreq : requestOf sa remote target info rs = .ok req)
    (hl : valueOf l c!"policy_source" = none) :
    (valueOf (l ++ if req.requestedSource = [] then [] else [(c!"policy_source", req.source)])
      c!"policy_source").getD remote = req.source := by
  obtain ⟨_, _, _, _, hrs, _, h⟩ := mkRequest_ok hreq
  have happ : ∀ m, valueOf (l ++ m) c!"policy_source" = valueOf m c!"policy_source" := by
    intro m
    unfold valueOf at hl ⊢
    rw [List.find?_append]
    rcases hf : l.find? (fun f => f.1 = c!"policy_source") with _ | x
    · rw [hf]; rfl
    · rw [hf] at hl; simp at hl
  rw [happ, hrs]
  rcases h with ⟨h, hs, _⟩ | ⟨h, _⟩
  · rw [if_pos h, hs]; rfl
  · rw [if_neg h]; rfl

theorem valueOf_prefix {l m : List (Str × Str)} {k v : Str} (h : valueOf l k = some v) :
    valueOf (l ++ m) k = some v := by
  unfold valueOf at h ⊢
  rw [List.find?_append]
  rcases hf : l.find? (fun f => f.1 = k) with _ | x
  · rw [hf] at h; simp at h
  · rw [hf] at h ⊢; exact h

theorem valueOf_suffix {l m : List (Str × Str)} {k : Str} (h : valueOf l k = none) :
    valueOf (l ++ m) k = valueOf m k := by
  unfold valueOf at h ⊢
  rw [List.find?_append]
  rcases hf : l.find? (fun f => f.1 = k) with _ | x
  · rw [hf]; rfl
  · rw [hf] at h; simp at h

theorem valueOf_source {g : Prop} [Decidable g] {k v : Str} (h : k ≠ c!"policy_source") :
    valueOf (if g then [] else [(c!"policy_source", v)]) k = none := by
  split_ifs
  · rfl
  · rw [valueOf_cons, if_neg (Ne.symm h)]; rfl

/-- **C56.** A call granted to a virtual machine or a new disposable: what runs there, with the
granted user and started only if the rule permits it, is exactly the service and argument called,
for exactly the calling qube (the remote qube, for a call through a relay). -/
theorem C56_vm_command (info : Info) (remote target sa rs : Str) (req : Request)
    (user : Option Str) (autostart : Bool) (out : Str) (fs : List (Str × Str)) (p : PolicyAnswer)
    (hreq : requestOf sa remote target info rs = .ok req)
    (ha : AnswerFor req user autostart out fs) (hp : Holds fs p) (h0 : ¬ Dom0 out)
    (hr : ∀ d, info.get? out = some d → d.cls ≠ c!"RemoteVM") :
    ∃ uuid, ((∃ d u, info.get? out = some d ∧ d.uuid = some u ∧ uuid = c!"uuid:" ++ u) ∨
        ∃ t d u, out = c!"@dispvm:" ++ t ∧ info.get? t = some d ∧ d.uuid = some u ∧
          uuid = c!"@dispvm:uuid:" ++ u) ∧
      childAction remote sa p = .runVm uuid true autostart
        (userText user ++ c!":QUBESRPC " ++ (req.service ++ req.argument) ++ c!" " ++
          req.source) := by
  have hi := (mkRequest_ok hreq).2.2.1
  have hw := withPlus_eq hreq
  cases ha with
  | dom0 h => exact absurd h h0
  | @disposable t d u h1 _ h3 h4 =>
    refine ⟨_, Or.inr ⟨t, d, u, h1, hi ▸ h3, h4, rfl⟩, ?_⟩
    rw [childAction_vm h0 (hp.target.trans (valueOf_prefix rfl))
      (hp.targetUuid.trans (valueOf_prefix rfl)) (hp.user.trans (valueOf_prefix rfl))
      (hp.autostart.trans (by rw [valueOf_prefix rfl]; exact congrArg some (pyBool_true _)))]
    rw [hp.service, valueOf_suffix rfl, valueOf_source (by decide), Option.getD_none, hw,
      hp.policySource, source_of_answer hreq rfl]
  | @plain d u _ _ h3 _ h5 =>
    refine ⟨_, Or.inl ⟨d, u, hi ▸ h3, h5, rfl⟩, ?_⟩
    rw [childAction_vm h0 (hp.target.trans (valueOf_prefix rfl))
      (hp.targetUuid.trans (valueOf_prefix rfl)) (hp.user.trans (valueOf_prefix rfl))
      (hp.autostart.trans (by rw [valueOf_prefix rfl]; exact congrArg some (pyBool_true _)))]
    rw [hp.service, valueOf_suffix rfl, valueOf_source (by decide), Option.getD_none, hw,
      hp.policySource, source_of_answer hreq rfl]
  | remote _ _ h3 h4 => exact absurd h4 (hr _ (hi ▸ h3))

/-- **C56.** A call granted to a remote domain: its relay runs the transport service, as user
`DEFAULT`, with the called qube, service and argument as argument, for the calling qube. -/
theorem C56_remote_command (info : Info) (remote target sa rs : Str) (req : Request)
    (user : Option Str) (autostart : Bool) (out : Str) (d : Dom) (fs : List (Str × Str))
    (p : PolicyAnswer) (hreq : requestOf sa remote target info rs = .ok req)
    (ha : AnswerFor req user autostart out fs) (hp : Holds fs p) (h0 : ¬ Dom0 out)
    (ho : OrdinaryNames info) (hd : info.get? out = some d) (hr : d.cls = c!"RemoteVM")
    (hrel : ∀ relay ∈ d.relayvm, ¬ Dom0 relay) :
    ∃ relay rd u transport, d.relayvm = some relay ∧ info.get? relay = some rd ∧
      rd.uuid = some u ∧ d.transportRpc = some transport ∧
      childAction remote sa p = .runVm (c!"uuid:" ++ u) true autostart
        (c!"DEFAULT:QUBESRPC " ++ (transport ++ c!"+" ++ req.target.str ++ c!"+" ++ req.service ++
          req.argument) ++ c!" " ++ req.source) := by
  have hi := (mkRequest_ok hreq).2.2.1
  cases ha with
  | dom0 h => exact absurd h h0
  | disposable h1 => subst h1; exact absurd rfl (ho _ _ hd).2.1
  | plain _ _ h3 h4 => rw [hi, hd] at h3; cases h3; exact absurd hr h4
  | @remote d' relay rd u transport _ _ h3 _ h5 _ h7 _ h9 h10 =>
    rw [hi, hd] at h3; cases h3
    refine ⟨relay, rd, u, transport, h5, hi ▸ h9, h10, h7, ?_⟩
    rw [childAction_vm (hrel relay h5) (hp.target.trans (valueOf_prefix rfl))
      (hp.targetUuid.trans (valueOf_prefix rfl)) (hp.user.trans (valueOf_prefix rfl))
      (hp.autostart.trans (by rw [valueOf_prefix rfl]; exact congrArg some (pyBool_true _)))]
    have hs := hp.service.trans (valueOf_prefix (v := transport ++ c!"+" ++ req.target.str ++ c!"+" ++
      req.service ++ req.argument) rfl)
    rw [hs, Option.getD_some, hp.policySource, source_of_answer hreq rfl]
    congr 4
    unfold withPlus
    rw [if_pos (List.contains_iff_mem.2 (by simp))]

/-- **C56 (part).** A call granted to dom0 runs the service called, with its argument, for the
qube that sent the request, and tells how the target was named.  Missing: the caller of a request
through a relay, see `C56_violated_dom0`. -/
theorem C56_dom0_command_partial (info : Info) (remote target sa : Str) (req : Request)
    (user : Option Str) (autostart : Bool) (out : Str) (fs : List (Str × Str)) (p : PolicyAnswer)
    (hreq : requestOf sa remote target info [] = .ok req)
    (ha : AnswerFor req user autostart out fs) (hp : Holds fs p) (h0 : Dom0 out) :
    ∃ how, ((how = c!"keyword " ++ req.target.str.drop 1 ∧ req.target.str.head? = some '@') ∨
        (how = c!"name " ++ req.target.str ∧ req.target.str.head? ≠ some '@')) ∧
      childAction remote sa p = .runDom0 (c!"QUBESRPC " ++ (req.service ++ req.argument) ++ c!" " ++
        req.source ++ c!" " ++ how) req.source := by
  have hi := (mkRequest_ok hreq).2.2.1
  have hw := withPlus_eq hreq
  have hsrc : req.source = remote := by
    obtain ⟨_, _, _, _, _, _, h⟩ := mkRequest_ok hreq
    rcases h with ⟨_, h, _⟩ | ⟨h, _⟩
    · exact h
    · exact absurd rfl h
  cases ha with
  | plain h => exact absurd h0 h
  | remote h => exact absurd h0 h
  | disposable h1 =>
    subst h1
    rcases h0 with h | h | h <;> exact absurd (congrArg (List.take 3) h) (by
      rw [List.take_append_of_le_length (by decide)]; decide)
  | dom0 =>
    unfold childAction
    rw [hp.target, hp.requestedTarget, hp.service, hp.policySource]
    have e1 : valueOf [(c!"user", userText user), (c!"result", c!"allow"), (c!"target", c!"dom0"),
       (c!"autostart", pyBool autostart), (c!"requested_target", req.target.str)] c!"target" =
       some c!"dom0" := rfl
    have e2 : valueOf [(c!"user", userText user), (c!"result", c!"allow"), (c!"target", c!"dom0"),
       (c!"autostart", pyBool autostart), (c!"requested_target", req.target.str)]
       c!"requested_target" = some req.target.str := rfl
    have e3 : valueOf [(c!"user", userText user), (c!"result", c!"allow"), (c!"target", c!"dom0"),
       (c!"autostart", pyBool autostart), (c!"requested_target", req.target.str)]
       c!"service" = none := rfl
    have e4 : valueOf [(c!"user", userText user), (c!"result", c!"allow"), (c!"target", c!"dom0"),
       (c!"autostart", pyBool autostart), (c!"requested_target", req.target.str)]
       c!"policy_source" = none := rfl
    rw [e1, e2, e3, e4]
    simp only [Option.getD_some, Option.getD_none]
    rw [if_pos (by decide), hw, hsrc]
    by_cases hk : req.target.str.head? = some '@'
    · refine ⟨_, Or.inl ⟨rfl, hk⟩, ?_⟩
      rw [if_pos hk]
      simp only [List.append_assoc]
      rfl
    · refine ⟨_, Or.inr ⟨rfl, hk⟩, ?_⟩
      rw [if_neg hk]
      simp only [List.append_assoc]
      rfl

/-- A call of the remote qube `far` through `relay` to dom0 is run for `relay`: answers for dom0
carry no `policy_source`. -/
theorem C56_violated_dom0 :
    ∃ s, (handleRequest (some exInfo2) (.ok [exAllowAll]) exAgent {} c!"relay" c!"dom0" c!"svc+a"
      c!"far").2 = .ok s ∧
    serviceChild c!"relay" c!"svc+a" ⟨some s, ([], 1)⟩ =
      .runDom0 c!"QUBESRPC svc+a relay name dom0" c!"relay" := ⟨_, rfl, by decide⟩

/-- The same call to another qube is run for `far`. -/
example : ∃ s, (handleRequest (some exInfo2) (.ok [exAllowAll]) exAgent {} c!"relay" c!"work"
    c!"svc+a" c!"far").2 = .ok s ∧
    serviceChild c!"relay" c!"svc+a" ⟨some s, ([], 1)⟩ =
      .runVm c!"uuid:u2" true true c!"DEFAULT:QUBESRPC svc+a far" := ⟨_, rfl, by decide⟩

/-- The hypotheses of the three theorems are met. -/
example : ∃ req fs, requestOf c!"svc" c!"work" c!"far" exInfo2 [] = .ok req ∧
    AnswerFor req none true c!"far" fs ∧ Holds fs (record fs) ∧ ¬ Dom0 c!"far" :=
  have h : ¬ Dom0 c!"far" := fun h => absurd ((isDom0_iff _).2 h) (by decide)
  ⟨_, _, rfl, .remote h (by decide) rfl rfl rfl (by decide) rfl (by decide) rfl rfl,
    holds_record _, h⟩

/-! ## C55: the fallback -/

theorem containsStr_append (a n b : Str) : containsStr n (a ++ (n ++ b)) = true := by
  induction a with
  | nil =>
    cases hn : n ++ b with
    | nil =>
      have : n = [] := by simpa using (List.append_eq_nil_iff.1 hn).1
      subst this; rfl
    | cons c cs =>
      simp only [List.nil_append, containsStr, Bool.or_eq_true]
      left
      rw [← hn]
      exact startsWith_append n b
  | cons c cs ih => simp only [List.cons_append, containsStr, ih, Bool.or_true]

theorem answerFor_exit {req : Request} {user : Option Str} {autostart : Bool} {out : Str}
    {fs : List (Str × Str)} (ha : AnswerFor req user autostart out fs) :
    containsStr c!"\nresult=allow\n" (answerText fs) = true := by
  have key : ∀ u t rest, containsStr c!"\nresult=allow\n"
      (answerText ((c!"user", u) :: (c!"result", c!"allow") :: (c!"target", t) :: rest)) = true := by
    intro u t rest
    obtain ⟨x, hx⟩ : ∃ x, answerText ((c!"user", u) :: (c!"result", c!"allow") :: (c!"target", t) ::
        rest) = (c!"user=" ++ u) ++ (c!"\nresult=allow\n" ++ x) := by
      refine ⟨joinWith '\n' ((c!"target" ++ '=' :: t) :: rest.map fun f => f.1 ++ '=' :: f.2), ?_⟩
      unfold answerText
      rw [List.map_cons, joinWith_cons (by simp), List.map_cons, joinWith_cons (by simp),
        List.map_cons]
      rfl
    rw [hx]
    exact containsStr_append _ _ _
  cases ha with
  | dom0 => exact key _ _ _
  | disposable => exact key _ _ _
  | plain => exact key _ _ _
  | remote => exact key _ _ _

theorem parseResponse_newline {s : Wire} {v : Verdict} {p : PolicyAnswer} (hv : v ≠ .malformed)
    (hl : s.getLast? ≠ some '\n') (h : parseResponse none s = (v, p)) :
    parseResponse none (s ++ c!"\n") = (v, p) := by
  obtain ⟨fs, h1, h2⟩ := (parseResponse_iff hv).1 h
  refine (parseResponse_iff hv).2 ⟨fs, ⟨h1.1, h1.2.1, ?_⟩, h2⟩
  rcases h1.2.2 with h | h
  · exact Or.inr (by rw [h])
  · exfalso
    apply hl
    rw [h, List.getLast?_append]
    rfl

/-- **C55 (part).** For a request without a requested source, running `qrexec-policy-exec` because
the policy daemon cannot be reached, or closes the connection without an answer, grants exactly
what the daemon would have granted: the same command to the same target.  What the daemon would
have refused is not run either (but reported as a problem and not as a refusal).  Missing: requests
with a requested source, which is lost (`C55_violated_source_lost`), and daemons that send half an
answer (`C55_violated_half_answer`). -/
theorem C55_fallback_same_partial (sys : Option Info) (policy : Except Err (List Rule))
    (agent : Agent) (remote target sa : Str)
    (hn : ∀ info, sys = some info → OrdinaryNames info ∧ NoNewlines info)
    (hrules : ∀ rules, policy = .ok rules → ∀ r ∈ rules, IsRule r ∧
      ∀ u t d n b, (r.action = .allow t (some u) n b ∨ r.action = .ask t d (some u) n b) →
        '\n' ∉ u)
    (hsa : '\n' ∉ sa) (evs : List Event) (s : Str)
    (h : handleRequest sys policy agent {} remote target sa [] = (evs, .ok s)) (hnul : '\x00' ∉ s)
    (daemon : Option Wire) (hdead : daemon = none ∨ daemon = some []) (exec : Wire × Nat) :
    let fallback := serviceChild remote sa ⟨daemon, policyExec sys policy agent remote target sa⟩
    let direct := serviceChild remote sa ⟨some s, exec⟩
    (s = denyAnswer ∧ direct = .refuse ∧ fallback = .problem) ∨
    (∃ p, direct = childAction remote sa p ∧ fallback = direct) := by
  intro fallback direct
  have hexec : policyExec sys policy agent remote target sa =
      (s ++ c!"\n", if containsStr c!"\nresult=allow\n" s || s == c!"result=allow" then 0 else 1) := by
    unfold policyExec; rw [h]
  have hfb : fallback = serviceChild remote sa ⟨none, policyExec sys policy agent remote target sa⟩ := by
    rcases hdead with rfl | rfl <;> rfl
  rcases C22_engine_answer_understood sys policy agent {} remote target sa [] hn hrules hsa rfl evs s
    h hnul with ⟨hs, hp⟩ | ⟨info, rules, req, r, user, autostart, out, fs, p, h1, h2, h3, h4, h5, hst, hof, hp, hh⟩
  · left
    refine ⟨hs, ?_, ?_⟩
    · change serviceChild remote sa ⟨some s, exec⟩ = _
      unfold serviceChild connectDaemon
      simp only [hp]
    · rw [hfb]
      unfold serviceChild connectDaemon
      rw [hexec, hs]
      rfl
  · right
    have hd : direct = childAction remote sa p := by
      change serviceChild remote sa ⟨some s, exec⟩ = _
      unfold serviceChild connectDaemon
      simp only [hp]
    refine ⟨p, hd, ?_⟩
    rw [hd, hfb]
    have hl : s.getLast? ≠ some '\n' := by
      rw [hst]; exact answerText_last hof.1 fun f hf => (hof.2.1 f hf).2.2.1
    unfold serviceChild connectDaemon
    rw [hexec, hst, answerFor_exit h5, ← hst]
    simp only [Bool.true_or, if_true, bne_self_eq_false, Bool.false_eq_true, if_false,
      parseResponse_newline (by decide) hl hp]

/-- The hypotheses of `C55_fallback_same_partial` are met by a call that is granted and one that is
refused. -/
example :
    (∃ evs s, handleRequest (some exInfo2) (.ok [exAllowAll]) exAgent {} c!"work" c!"relay" c!"svc+a"
      [] = (evs, .ok s) ∧ '\x00' ∉ s ∧
      serviceChild c!"work" c!"svc+a" ⟨none, policyExec (some exInfo2) (.ok [exAllowAll]) exAgent
        c!"work" c!"relay" c!"svc+a"⟩ =
        .runVm c!"uuid:u1" true true c!"DEFAULT:QUBESRPC svc+a work") ∧
    (handleRequest (some exInfo2) (.ok []) exAgent {} c!"work" c!"relay" c!"svc+a" []).2 =
      .ok denyAnswer :=
  ⟨⟨_, _, rfl, by decide, by decide⟩, by decide⟩

/-- A rule for one source. -/
def exFrom (source : Str) (action : Action) : Rule :=
  { service := none, argument := none, source := .name source, target := .wildcard, action := action }

/-- The policy denies everything to the remote qube `far` and lets its relay do anything.  With the
policy daemon the calls of `far` are refused; when the daemon is not running they are executed, as
calls of `relay`. -/
theorem C55_violated_source_lost :
    let rules := [exFrom c!"far" (.deny false), exFrom c!"relay" (.allow none none false true)]
    ∃ s, (handleRequest (some exInfo2) (.ok rules) exAgent {} c!"relay" c!"work" c!"svc+a"
      c!"far").2 = .ok s ∧
    serviceChild c!"relay" c!"svc+a" ⟨some s, ([], 1)⟩ = .refuse ∧
    serviceChild c!"relay" c!"svc+a" ⟨none, policyExec (some exInfo2) (.ok rules) exAgent c!"relay"
      c!"work" c!"svc+a"⟩ = .runVm c!"uuid:u2" true true c!"DEFAULT:QUBESRPC svc+a relay" :=
  ⟨denyAnswer, by decide, by decide, by decide⟩

/-- If the daemon's answer is broken after its `policy_source` line, the fallback's decision is
executed for that source. -/
theorem C55_violated_half_answer :
    serviceChild c!"work" c!"svc+a" ⟨some c!"policy_source=far\n\n", policyExec (some exInfo2)
      (.ok [exAllowAll]) exAgent c!"work" c!"relay" c!"svc+a"⟩ =
      .runVm c!"uuid:u1" true true c!"DEFAULT:QUBESRPC svc+a far" := by decide

theorem responseLine_unsourced {p q : PolicyAnswer} {l : Str} (hp : p.policySource.isSome)
    (h : responseLine p l = some q) :
    q.policySource.isSome ∧
    responseLine { p with policySource := none } l = some { q with policySource := none } := by
  unfold responseLine at h ⊢
  by_cases h1 : startsWith c!"result=" l = true
  · rw [if_pos h1] at h ⊢
    obtain ⟨x, hx, rfl⟩ := Option.map_eq_some_iff.1 h
    exact ⟨hp, by simp [hx]⟩
  rw [if_neg h1] at h ⊢
  by_cases h1 : startsWith c!"user=" l = true
  · rw [if_pos h1] at h ⊢
    obtain ⟨x, hx, rfl⟩ := Option.map_eq_some_iff.1 h
    exact ⟨hp, by simp [hx]⟩
  rw [if_neg h1] at h ⊢
  by_cases h1 : startsWith c!"target=" l = true
  · rw [if_pos h1] at h ⊢
    obtain ⟨x, hx, rfl⟩ := Option.map_eq_some_iff.1 h
    exact ⟨hp, by simp [hx]⟩
  rw [if_neg h1] at h ⊢
  by_cases h1 : startsWith c!"target_uuid=" l = true
  · rw [if_pos h1] at h ⊢
    obtain ⟨x, hx, rfl⟩ := Option.map_eq_some_iff.1 h
    exact ⟨hp, by simp [hx]⟩
  rw [if_neg h1] at h ⊢
  by_cases h1 : startsWith c!"autostart=" l = true
  · rw [if_pos h1] at h ⊢
    obtain ⟨x, hx, rfl⟩ := Option.map_eq_some_iff.1 h
    exact ⟨hp, by simp [hx]⟩
  rw [if_neg h1] at h ⊢
  by_cases h1 : startsWith c!"requested_target=" l = true
  · rw [if_pos h1] at h ⊢
    obtain ⟨x, hx, rfl⟩ := Option.map_eq_some_iff.1 h
    exact ⟨hp, by simp [hx]⟩
  rw [if_neg h1] at h ⊢
  by_cases h1 : startsWith c!"service=" l = true
  · rw [if_pos h1] at h ⊢
    obtain ⟨x, hx, rfl⟩ := Option.map_eq_some_iff.1 h
    exact ⟨hp, by simp [hx]⟩
  rw [if_neg h1] at h ⊢
  by_cases h1 : startsWith c!"policy_source=" l = true
  · rw [if_pos h1] at h
    obtain ⟨x, hx, rfl⟩ := Option.map_eq_some_iff.1 h
    obtain ⟨y, hy⟩ := Option.isSome_iff_exists.1 hp
    rw [hy] at hx
    simp [setOnce] at hx
  rw [if_neg h1] at h ⊢
  by_cases h1 : l.contains '=' = true
  · rw [if_pos h1] at h ⊢
    cases h
    exact ⟨hp, rfl⟩
  · rw [if_neg h1] at h; cases h

theorem responseLines_unsourced {ls : List Str} : ∀ {p q : PolicyAnswer}, p.policySource.isSome →
    responseLines p ls = (q, true) →
    responseLines { p with policySource := none } ls = ({ q with policySource := none }, true) := by
  induction ls with
  | nil => intro p q _ h; cases h; rfl
  | cons l ls ih =>
    intro p q hp h
    rw [responseLines] at h ⊢
    cases hl : responseLine p l with
    | none => rw [hl] at h; cases h
    | some p' =>
      rw [hl] at h
      obtain ⟨h1, h2⟩ := responseLine_unsourced hp hl
      rw [h2]
      exact ih h1 h

theorem parseResponse_unsourced {s : Option Str} {r : Wire} {p : PolicyAnswer}
    (h : parseResponse s r = (.allow, p)) : ∃ p', parseResponse none r = (.allow, p') := by
  cases s with
  | none => exact ⟨p, h⟩
  | some s =>
    unfold parseResponse at h ⊢
    by_cases h1 : r.isEmpty = true
    · simp only [h1, if_true, Prod.mk.injEq, reduceCtorEq, false_and] at h
    by_cases h2 : r.contains '\x00' = true
    · simp only [h1, h2, if_true, Prod.mk.injEq, reduceCtorEq, false_and, if_false] at h
    simp only [if_neg h1, if_neg h2] at h ⊢
    cases hl : responseLines { policySource := some s } (splitOn '\n' (chompOne r)) with
    | mk q b =>
      rw [hl] at h
      cases b with
      | false => simp at h
      | true =>
        simp only [Prod.mk.injEq] at h
        obtain ⟨h3, rfl⟩ := h
        have := responseLines_unsourced (p := { policySource := some s }) rfl hl
        refine ⟨{ q with policySource := none }, ?_⟩
        rw [show (({} : PolicyAnswer)) = { ({ policySource := some s } : PolicyAnswer) with policySource := none } from rfl, this]
        simp only [Prod.mk.injEq, and_true]
        exact h3

/-- **C22.** A command is run only for a complete allowing answer: of the policy daemon, or — if that
gave no complete answer at all — of the fallback, when that also exited with success. -/
theorem C22_runs_only_when_allowed (remote service : Str) (side : PolicySide)
    (h1 : serviceChild remote service side ≠ .refuse)
    (h2 : serviceChild remote service side ≠ .problem) :
    (∃ bytes fs, side.daemon = some bytes ∧ ResponseOf bytes fs ∧ Readable fs ∧ Allows fs) ∨
    (side.exec.2 = 0 ∧
      (∀ bytes fs, side.daemon = some bytes → ResponseOf bytes fs → Readable fs →
        ¬ Allows fs ∧ ¬ Denies fs) ∧
      ∃ fs, ResponseOf side.exec.1 fs ∧ Readable fs ∧ Allows fs) := by
  have hno : ∀ bytes p, parseResponse none bytes = (.malformed, p) → ∀ fs, ResponseOf bytes fs →
      Readable fs → ¬ Allows fs ∧ ¬ Denies fs := by
    intro bytes p hp fs hf hr
    obtain ⟨q, hq⟩ : ∃ q, Holds fs q := ⟨_, holds_record fs⟩
    constructor
    · intro ha
      have := (C22_allow_iff bytes q).2 ⟨fs, hf, hr, ha, hq⟩
      rw [hp] at this; cases this
    · intro ha
      have := (C22_deny_iff bytes q).2 ⟨fs, hf, hr, ha, hq⟩
      rw [hp] at this; cases this
  have hfb : ∀ s, (if side.exec.2 != 0 then none else some (parseResponse s side.exec.1)) =
      connectDaemon side → side.exec.2 = 0 ∧
        ∃ fs, ResponseOf side.exec.1 fs ∧ Readable fs ∧ Allows fs := by
    intro s hs
    unfold serviceChild at h1 h2
    rw [← hs] at h1 h2
    by_cases he : side.exec.2 = 0
    · simp only [he, bne_self_eq_false, Bool.false_eq_true, if_false] at h1
      refine ⟨he, ?_⟩
      cases hp : parseResponse s side.exec.1 with
      | mk v p =>
        rw [hp] at h1
        cases v with
        | allow =>
          obtain ⟨p', hp'⟩ := parseResponse_unsourced hp
          obtain ⟨fs, a, b, c, _⟩ := (C22_allow_iff _ _).1 hp'
          exact ⟨fs, a, b, c⟩
        | deny => exact absurd rfl h1
        | malformed => exact absurd rfl h1
    · have : (side.exec.2 != 0) = true := by simp [he]
      rw [if_pos this] at h2
      exact absurd rfl h2
  cases hd : side.daemon with
  | none =>
    right
    have := hfb none (by unfold connectDaemon; rw [hd])
    exact ⟨this.1, by simp, this.2⟩
  | some bytes =>
    cases hp : parseResponse none bytes with
    | mk v p =>
      cases v with
      | allow =>
        left
        obtain ⟨fs, a, b, c, _⟩ := (C22_allow_iff _ _).1 hp
        exact ⟨bytes, fs, rfl, a, b, c⟩
      | deny =>
        exfalso
        unfold serviceChild connectDaemon at h1
        rw [hd] at h1
        simp only [hp] at h1
        exact h1 rfl
      | malformed =>
        right
        have := hfb p.policySource (by unfold connectDaemon; rw [hd]; simp only [hp])
        refine ⟨this.1, ?_, this.2⟩
        rintro b' fs ⟨⟩ hf hr
        exact hno _ _ hp fs hf hr
/-- The hypotheses are met: by an answer of the daemon, and by one of the fallback. -/
example : serviceChild c!"work" c!"svc+a" ⟨some c!"user=u\nresult=allow\ntarget=x\nautostart=True\nrequested_target=x", ([], 1)⟩ =
    .runVm c!"x" false true c!"u:QUBESRPC svc+a work" := by decide
example : serviceChild c!"work" c!"svc+a" ⟨some c!"junk", (c!"user=u\nresult=allow\ntarget=x\nautostart=True\nrequested_target=x", 0)⟩ =
    .runVm c!"x" false true c!"u:QUBESRPC svc+a work" := by decide

end Qrexec
