import Verif.Lemmas.Daemon
import Verif.Props.Exec
import Verif.Props.Response
import Verif.Props.Sanitize

/-! # C38, C39: the policy daemon's sockets -/
namespace Qrexec
open Spec

/-- What the engine answers for the values of a request. -/
def engineAnswer (sys : Option Info) (policy : Except Err (List Rule)) (agent : Agent)
    (fs : List (Str × Str)) : Run Str :=
  handleRequest sys policy agent
    { justEvaluate := value fs c!"just_evaluate" = c!"yes",
      assumeYes := value fs c!"assume_yes_for_ask" = c!"yes" }
    (value fs c!"source") (value fs c!"intended_target") (value fs c!"service_and_arg")
    (value fs c!"requested_source")

theorem fieldOk_of_valid {fs : List (Str × Str)} (h : ValidRequest fs) : ∀ f ∈ fs, FieldOk f :=
  fun f hf => ⟨h.known f hf, h.boolean f hf, (h.text f hf).1, h.short f hf⟩

theorem daemonAnswer_eq {sys : Option Info} {policy : Except Err (List Rule)} {agent : Agent}
    {fs : List (Str × Str)}
    (hm : ∀ k ∈ [c!"source", c!"intended_target", c!"service_and_arg"], k ∈ fs.map (·.1)) :
    daemonAnswer sys policy agent fs =
      ((engineAnswer sys policy agent fs).1, match (engineAnswer sys policy agent fs).2 with
        | .error _ => none
        | .ok s => if isAscii s then some s else none) := by
  have hreq : (requiredArguments.all fun a => (argGet fs a).isSome) = true := by
    rw [List.all_eq_true]
    intro k hk
    rw [argGet_isSome]
    exact hm k hk
  have hv : ∀ k, (argGet fs k).getD [] = value fs k := fun k => by rw [argGet_eq_find]; rfl
  have hb : ∀ k, (argGet fs k == some c!"yes") = decide (value fs k = c!"yes") := by
    intro k
    rw [← hv]
    rcases argGet fs k with _ | x
    · rfl
    · simp only [Option.getD_some]
      by_cases hx : x = c!"yes"
      · subst hx; rfl
      · rw [decide_eq_false hx, beq_eq_false_iff_ne]
        simpa using hx
  unfold daemonAnswer
  rw [hreq]
  simp only [Bool.not_true, Bool.false_eq_true, if_false, hb, hv]
  change (match (engineAnswer sys policy agent fs).2 with
    | .error _ => ((engineAnswer sys policy agent fs).1, none)
    | .ok s => if s.isEmpty then ((engineAnswer sys policy agent fs).1, some c!"result=deny\n")
      else if isAscii s then ((engineAnswer sys policy agent fs).1, some s)
      else ((engineAnswer sys policy agent fs).1, none)) = _
  rcases he : engineAnswer sys policy agent fs with ⟨evs, e | s⟩
  · rfl
  · cases s with
    | nil => exact absurd he (by intro he; exact handleRequest_ne_nil he)
    | cons c cs =>
      simp only [List.isEmpty_cons, Bool.false_eq_true, if_false]
      split_ifs <;> rfl

/-- **C38.** A well-formed request gets the engine's answer for exactly the values sent (and no
answer if the engine fails, or answers non-ASCII text). -/
theorem C38_answered (sys : Option Info) (policy : Except Err (List Rule)) (agent : Agent)
    (input : Wire) (fs : List (Str × Str)) (hs : Sends input fs) (hv : ValidRequest fs) :
    (handleClient sys policy agent input).1 = (engineAnswer sys policy agent fs).1 ∧
    ∀ b, (handleClient sys policy agent input).2 = some b ↔
      (engineAnswer sys policy agent fs).2 = .ok b ∧ ∀ c ∈ b, c.toNat < 128 := by
  have hok := fieldOk_of_valid hv
  have hl := (sends_iff (fun f hf => ⟨(allowed_ascii (hok f hf).1).2.2.1, (hv.text f hf).2⟩)).1 hs
  have hd : daemonArgs (splitOn '\n' input) [] = some fs := by
    rw [daemonArgs_iff _ _ _ (by simp)]
    exact ⟨fs, by simp, hl, by simpa using hv.once, hok⟩
  have he : handleClient sys policy agent input = daemonAnswer sys policy agent fs := by
    unfold handleClient; rw [hd]
  rw [he, daemonAnswer_eq hv.mandatory]
  refine ⟨rfl, ?_⟩
  intro b
  rcases (engineAnswer sys policy agent fs).2 with e | s
  · simp
  · simp only [Except.ok.injEq]
    by_cases ha : isAscii s = true
    · rw [if_pos ha]
      simp only [Option.some.injEq]
      constructor
      · rintro rfl; exact ⟨rfl, isAscii_iff.1 ha⟩
      · exact fun h => h.1
    · rw [if_neg ha]
      simp only [reduceCtorEq, false_iff, not_and]
      rintro rfl h
      exact ha (isAscii_iff.2 h)

/-- **C38.** Anything else gets no answer, and nothing happens: no question, no notification. -/
theorem C38_nothing_else (sys : Option Info) (policy : Except Err (List Rule)) (agent : Agent)
    (input : Wire) (h : ∀ fs, Sends input fs → ¬ ValidRequest fs) :
    handleClient sys policy agent input = ([], none) := by
  unfold handleClient
  rcases hd : daemonArgs (splitOn '\n' input) [] with _ | args
  · rfl
  obtain ⟨fs, hargs, hl, hnd, hok⟩ := (daemonArgs_iff _ _ _ (by simp)).1 hd
  simp only [List.nil_append] at hargs hnd
  subst hargs
  have hnn : ∀ f ∈ args, '\n' ∉ f.1 ∧ '\n' ∉ f.2 := by
    intro f hf
    refine ⟨(allowed_ascii (hok f hf).1).2.2.1, ?_⟩
    have hm : fieldLine f ∈ splitOn '\n' input := by
      rcases hl with hl | ⟨rest, hl⟩
      · rw [hl]; exact List.mem_map_of_mem hf
      · rw [hl]; exact List.mem_append_left _ (List.mem_map_of_mem hf)
    have := splitOn_not_mem _ hm
    unfold fieldLine at this
    intro hc
    exact this (by simp [hc])
  have hs := (sends_iff hnn).2 hl
  have hmiss : ¬ ∀ k ∈ [c!"source", c!"intended_target", c!"service_and_arg"],
      k ∈ args.map (·.1) := by
    intro hm
    exact h args hs ⟨hnd, fun f hf => (hok f hf).1, hm, fun f hf => (hok f hf).2.1,
      fun f hf => ⟨(hok f hf).2.2.1, (hnn f hf).2⟩, fun f hf => (hok f hf).2.2.2⟩
  have hreq : (requiredArguments.all fun a => (argGet args a).isSome) = false := by
    rw [Bool.eq_false_iff]
    intro hall
    rw [List.all_eq_true] at hall
    exact hmiss fun k hk => argGet_isSome.1 (hall k hk)
  simp only
  unfold daemonAnswer
  rw [hreq]
  rfl

/-- **C38.** A stream is at most one request: the values are determined. -/
theorem C38_unambiguous (input : Wire) (fs fs' : List (Str × Str)) (hs : Sends input fs)
    (hs' : Sends input fs') (hv : ValidRequest fs) (hv' : ValidRequest fs') : fs = fs' := by
  have key : ∀ fs, Sends input fs → ValidRequest fs →
      daemonArgs (splitOn '\n' input) [] = some fs := by
    intro fs hs hv
    have hok := fieldOk_of_valid hv
    have hl := (sends_iff (fun f hf => ⟨(allowed_ascii (hok f hf).1).2.2.1, (hv.text f hf).2⟩)).1 hs
    rw [daemonArgs_iff _ _ _ (by simp)]
    exact ⟨fs, by simp, hl, by simpa using hv.once, hok⟩
  have h1 := key fs hs hv
  rw [key fs' hs' hv'] at h1
  exact (Option.some.inj h1).symm

/-- A well-formed request, and its answer. -/
example :
    ValidRequest [(c!"source", c!"work"), (c!"intended_target", c!"vault"),
      (c!"service_and_arg", c!"svc+"), (c!"just_evaluate", c!"yes")] ∧
    Sends c!"source=work\nintended_target=vault\nservice_and_arg=svc+\njust_evaluate=yes\n\n"
      [(c!"source", c!"work"), (c!"intended_target", c!"vault"),
      (c!"service_and_arg", c!"svc+"), (c!"just_evaluate", c!"yes")] ∧
    handleClient (some exInfo) (.ok []) exAgent
      c!"source=work\nintended_target=vault\nservice_and_arg=svc+\njust_evaluate=yes\n\n" =
      ([], some c!"result=deny") := by
  refine ⟨⟨by decide, by decide, by decide, by decide, by decide, by decide⟩,
    Or.inl ⟨[], rfl⟩, by decide⟩

/-- **C38, truncated requests.**  The end of the stream counts as the end of the request, so a
request whose sender dies in the middle of a line is answered for the value received so far. -/
theorem C38_truncated (sys : Option Info) (policy : Except Err (List Rule)) (agent : Agent)
    (v w : Str) (hv : ValidRequest [(c!"source", c!"work"), (c!"intended_target", c!"vault"),
      (c!"service_and_arg", v ++ w)]) :
    ∀ b, (handleClient sys policy agent
      (c!"source=work\nintended_target=vault\nservice_and_arg=" ++ v)).2 = some b ↔
      (engineAnswer sys policy agent [(c!"source", c!"work"), (c!"intended_target", c!"vault"),
        (c!"service_and_arg", v)]).2 = .ok b ∧ ∀ c ∈ b, c.toNat < 128 := by
  refine (C38_answered sys policy agent _ _ (Or.inr (Or.inr ?_)) ?_).2
  · simp [fieldsText]
  · have hmem : ∀ f ∈ [(c!"source", c!"work"), (c!"intended_target", c!"vault"),
        (c!"service_and_arg", v)], f ∈ [(c!"source", c!"work"), (c!"intended_target", c!"vault"),
        (c!"service_and_arg", v ++ w)] ∨ f = (c!"service_and_arg", v) := by
      intro f hf
      simp only [List.mem_cons, List.not_mem_nil, or_false] at hf ⊢
      tauto
    have ht := hv.text (c!"service_and_arg", v ++ w) (by simp)
    have hl := hv.short (c!"service_and_arg", v ++ w) (by simp)
    refine ⟨hv.once, ?_, hv.mandatory, ?_, ?_, ?_⟩
    · intro f hf
      rcases hmem f hf with h | rfl
      · exact hv.known f h
      · simp
    · intro f hf
      rcases hmem f hf with h | rfl
      · exact hv.boolean f h
      · intro h; exact absurd h (by simp)
    · intro f hf
      rcases hmem f hf with h | rfl
      · exact hv.text f h
      · exact ⟨fun c hc => ht.1 c (by simp [hc]), fun hc => ht.2 (by simp [hc])⟩
    · intro f hf
      rcases hmem f hf with h | rfl
      · exact hv.short f h
      · simp only [List.length_append] at hl ⊢
        omega

/-! ## C39 -/

/-- **C39.** The request is read whole, up to 96 bytes, however the data arrives. -/
theorem C39_reads_all (limit : Nat) (chunks : List Wire) (h : ∀ p ∈ chunks, p ≠ []) :
    readAllUpTo limit limit chunks = chunks.flatten.take limit := by
  have key : ∀ fuel limit (chunks : List Wire), (∀ p ∈ chunks, p ≠ []) → limit ≤ fuel →
      readAllUpTo fuel limit chunks = chunks.flatten.take limit := by
    intro fuel
    induction fuel with
    | zero =>
      intro limit chunks _ hl
      have : limit = 0 := by omega
      subst this
      simp [readAllUpTo]
    | succ fuel ih =>
      intro limit chunks h hl
      rw [readAllUpTo]
      by_cases h0 : limit = 0
      · subst h0; simp
      rw [if_neg h0]
      cases chunks with
      | nil => simp [streamRead]
      | cons p ps =>
        have hp := h p (by simp)
        have hpl : 0 < p.length := List.length_pos_iff.2 hp
        by_cases hle : p.length ≤ limit
        · have e : streamRead limit (p :: ps) = (p, ps) := by simp [streamRead, hle]
          rw [e]
          simp only
          have : p.isEmpty = false := by cases p with
            | nil => exact absurd rfl hp
            | cons => rfl
          rw [this]
          simp only [Bool.false_eq_true, if_false]
          rw [ih _ _ (fun q hq => h q (by simp [hq])) (by omega), List.flatten_cons,
            List.take_append, List.take_of_length_le hle]
        · have e : streamRead limit (p :: ps) = (p.take limit, p.drop limit :: ps) := by
            simp [streamRead, hle]
          rw [e]
          simp only
          have hne : (p.take limit).isEmpty = false := by
            rw [Bool.eq_false_iff]
            intro hx
            rw [List.isEmpty_iff, List.take_eq_nil_iff] at hx
            rcases hx with hx | hx
            · exact h0 hx
            · exact hp hx
          rw [hne]
          simp only [Bool.false_eq_true, if_false]
          have hlen : (p.take limit).length = limit := by rw [List.length_take]; omega
          rw [hlen, Nat.sub_self]
          have hz : ∀ f (l : List Wire), readAllUpTo f 0 l = [] := by
            intro f l; cases f <;> simp [readAllUpTo]
          rw [hz, List.flatten_cons, List.take_append]
          have : limit - p.length = 0 := by omega
          simp [this]
  exact key limit limit chunks h (Nat.le_refl _)

theorem sanitizeDomain_true {s : Str} :
    (∃ x, sanitizeDomainName s true = .ok x) ↔ NameText s := by
  have h := C41_domain s
  have hperm : ∀ c, c ∈ '@' :: nameChars ↔
      c ∈ c!"abcdefghijklmnopqrstuvwxyzABCDEFGHIJKLMNOPQRSTUVWXYZ0123456789_-.@" := by
    intro c
    have e : c!"abcdefghijklmnopqrstuvwxyzABCDEFGHIJKLMNOPQRSTUVWXYZ0123456789_-.@" =
      nameChars ++ ['@'] := rfl
    rw [e, List.mem_append, List.mem_cons, List.mem_singleton]
    tauto
  constructor
  · rintro ⟨x, hx⟩ c hc
    by_contra hn
    rw [← hperm] at hn
    rw [h.2.2 ⟨c, hc, hn⟩] at hx
    exact absurd hx (by simp)
  · intro hn
    exact ⟨s, h.2.1 fun c hc => (hperm c).2 (hn c hc)⟩

theorem evalNames_iff {data : Wire} {source target : Str} :
    evalNames data = some (source, target) ↔ data = source ++ '\x00' :: target ∧ '\x00' ∉ source ∧
      1 ≤ source.length ∧ source.length ≤ 31 ∧ 1 ≤ target.length ∧ target.length ≤ 63 ∧
      NameText source ∧ NameText target := by
  have hasc : ∀ {s}, NameText s → isAscii s = true := by
    intro s h
    rw [isAscii_iff]
    intro c hc
    have : ∀ c ∈ c!"abcdefghijklmnopqrstuvwxyzABCDEFGHIJKLMNOPQRSTUVWXYZ0123456789_-.@",
      c.toNat < 128 := by decide
    exact this c (h c hc)
  constructor
  · intro h
    unfold evalNames at h
    split at h
    · simp at h
    · rename_i s t hs
      obtain ⟨h1, h2⟩ := splitOnce_eq_some.1 hs
      split_ifs at h with h3 h4 h5
      split at h
      · rename_i x y hx hy
        simp only [Option.some.injEq, Prod.mk.injEq] at h
        obtain ⟨rfl, rfl⟩ := h
        simp only [Bool.not_eq_true', Bool.not_eq_false, Bool.and_eq_true, decide_eq_true_eq] at h3 h4
        exact ⟨h1, h2, h4.1, h4.2, h3.1, h3.2, sanitizeDomain_true.1 ⟨_, hx⟩,
          sanitizeDomain_true.1 ⟨_, hy⟩⟩
      · simp at h
  · rintro ⟨h1, h2, h3, h4, h5, h6, h7, h8⟩
    unfold evalNames
    rw [splitOnce_eq_some.2 ⟨h1, h2⟩]
    obtain ⟨x, hx⟩ := sanitizeDomain_true.2 h7
    obtain ⟨y, hy⟩ := sanitizeDomain_true.2 h8
    simp [h3, h4, h5, h6, hasc h7, hasc h8, hx, hy]

theorem takeWhile_ne_eq {s a b : Str} {c : Char} (hn : c ∉ a) (h : s = a ++ c :: b) :
    splitOn c s = a :: splitOn c b := by rw [h, splitOn_append hn]

theorem splitOn_headD {sep : Char} {s a : Str} :
    (splitOn sep s).headD [] = a ↔ sep ∉ a ∧ (s = a ∨ ∃ b, s = a ++ sep :: b) := by
  constructor
  · intro h
    rcases hs : splitOn sep s with _ | ⟨w, ws⟩
    · exact absurd hs (splitOn_ne_nil _ _)
    rw [hs] at h
    simp only [List.headD_cons] at h
    subst h
    obtain ⟨_, h2, h3⟩ := splitOn_eq_iff.1 hs
    refine ⟨h3 w (by simp), ?_⟩
    by_cases hw : ws = []
    · subst hw; exact Or.inl h2
    · right; rw [joinWith_cons hw] at h2; exact ⟨_, h2⟩
  · rintro ⟨h1, rfl | ⟨b, rfl⟩⟩
    · rw [splitOn_of_not_mem h1]; rfl
    · rw [splitOn_append h1]; rfl

/-- **C39.** An evaluation service answers only when asked about syntactically valid names, and
`policy.EvalGUI` (`checkGui`) only if the caller provides the GUI of both domains; the answer is
`result=allow` or `result=deny`, and is what the engine says when it may neither execute nor ask
(an ask counts as allowed for the target asked for). -/
theorem C39_answer (info : Option Info) (policy : Except Err (List Rule)) (agent : Agent)
    (checkGui : Bool) (serviceName : Str) (input b : Wire)
    (h : (handleQrexec info policy agent checkGui serviceName input).2 = some b) :
    ∃ queried caller source target sys, EvalQuery input serviceName queried caller source target ∧
      info = some sys ∧
      queried ≠ [] ∧ queried.head? ≠ some '+' ∧
      1 ≤ source.length ∧ source.length ≤ 31 ∧ 1 ≤ target.length ∧ target.length ≤ 63 ∧
      NameText source ∧ NameText target ∧
      (checkGui = true → ∀ n ∈ [source, target], ∃ d, sys.get? n = some d ∧
        c!"guivm-" ++ caller ∈ d.tags) ∧
      (b = c!"result=allow\n" ∨ b = c!"result=deny\n") ∧
      ∃ s, b = s ++ c!"\n" ∧
        (handleRequest (some sys) policy agent { justEvaluate := true, assumeYes := true }
          source target queried []).2 = .ok s := by
  unfold handleQrexec at h
  split at h
  · simp at h
  rename_i service queried remote data hex
  split_ifs at h with hsv
  have hsv : service = serviceName := by simpa using hsv
  subst hsv
  unfold policyEval at h
  split at h
  · simp at h
  rename_i queried'
  split_ifs at h with hq
  split at h
  · simp at h
  rename_i source target hnames
  unfold evalFor at h
  split at h
  · simp at h
  rename_i sys
  split_ifs at h with hgui hasc
  obtain ⟨hd1, hd2, hd3, hd4, hd5, hd6, hd7, hd8⟩ := evalNames_iff.1 hnames
  unfold extractParams at hex
  split at hex
  · simp at hex
  rename_i command rest hsp
  split_ifs at hex with hl1
  split at hex
  · simp at hex
  rename_i metadata data' hsp2
  simp only at hex
  split_ifs at hex with hl2 hra
  split at hex
  · simp at hex
  rename_i service' arg hsp3
  simp only [Option.some.injEq, Prod.mk.injEq] at hex
  obtain ⟨e1, e2, e3, e4⟩ := hex
  subst e1 e2 e4
  obtain ⟨i1, i2⟩ := splitOnce_eq_some.1 hsp
  obtain ⟨j1, j2⟩ := splitOnce_eq_some.1 hsp2
  obtain ⟨k1, k2⟩ := splitOnce_eq_some.1 hsp3
  obtain ⟨m1, m2⟩ := splitOn_headD.1 e3
  have hq0 : arg ≠ [] := by
    intro e; subst e; simp at hq
  have hq1 : arg.head? ≠ some '+' := by
    intro e
    cases arg with
    | nil => simp at e
    | cons c cs =>
      simp only [List.head?_cons, Option.some.injEq] at e
      subst e
      exact hq (by simp [startsWith])
  refine ⟨arg, remote, source, target, sys, ?_, rfl, hq0, hq1, hd3, hd4, hd5, hd6, hd7, hd8, ?_, ?_⟩
  · refine ⟨metadata, data', ?_, k2, ?_, ?_, j2, m1, m2, hd1, hd2⟩
    · rw [i1, k1, j1]; simp
    · intro hc; exact i2 (by rw [k1]; simp [hc])
    · intro hc; exact i2 (by rw [k1]; simp [hc])
  · intro hcg
    rw [hcg] at hgui
    simp only [Bool.true_and, Bool.not_eq_true', Bool.not_eq_false, Bool.and_eq_true] at hgui
    have hp : ∀ n, providesGui sys remote n = true → ∃ d, sys.get? n = some d ∧
        c!"guivm-" ++ remote ∈ d.tags := by
      intro n hn
      unfold providesGui at hn
      split at hn
      · simp at hn
      · rename_i d hd
        exact ⟨d, hd, by simpa using hn⟩
    intro n hn
    simp only [List.mem_cons, List.not_mem_nil, or_false] at hn
    rcases hn with rfl | rfl
    · exact hp _ hgui.1
    · exact hp _ hgui.2
  · rcases hr : handleRequest (some sys) policy agent { justEvaluate := true, assumeYes := true }
      source target arg [] with ⟨evs, e | s⟩
    · unfold evalVerdict at h; rw [hr] at h; simp at h
    · unfold evalVerdict at h
      rw [hr] at h
      simp only at h
      split_ifs at h
      simp only [Option.some.injEq] at h
      refine ⟨?_, s, h.symm, rfl⟩
      have hs : s = c!"result=allow" ∨ s = c!"result=deny" := by
        rcases handleRequest_ok hr with h | ⟨info, rules, req, res, _, _, _, _, hex⟩
        · exact Or.inr h
        · cases res with
          | allow r =>
            rcases execAllow_ok hex with ⟨_, h, _⟩ | ⟨h, _⟩
            · exact Or.inl h
            · simp at h
          | ask a =>
            rcases execAsk_ok hex with ⟨h1, _, h3, _⟩ | ⟨t, evs', _, _, hex2⟩
            · exact Or.inr h3
            · rcases execAllow_ok hex2 with ⟨_, h, _⟩ | ⟨h, _⟩
              · exact Or.inl h
              · simp at h
      rcases hs with rfl | rfl
      · exact Or.inl h.symm
      · exact Or.inr h.symm

/-- **C39.** Nothing else ever happens: no question, no notification, whatever the input. -/
theorem C39_silent (info : Option Info) (policy : Except Err (List Rule)) (agent : Agent)
    (checkGui : Bool) (serviceName : Str) (input : Wire) :
    (handleQrexec info policy agent checkGui serviceName input).1 = [] := by
  unfold handleQrexec
  split
  · rfl
  split_ifs
  · rfl
  unfold policyEval
  split
  · rfl
  split_ifs
  · rfl
  split
  · rfl
  unfold evalFor
  split
  · rfl
  split_ifs
  · rfl
  · rfl
  have := C46_just_evaluate
  unfold evalVerdict
  simp only
  split
  · exact this _ _ _ { justEvaluate := true, assumeYes := true } rfl _ _ _ _
  · split_ifs
    · exact this _ _ _ { justEvaluate := true, assumeYes := true } rfl _ _ _ _
    · exact this _ _ _ { justEvaluate := true, assumeYes := true } rfl _ _ _ _

/-- **C39.** Conversely a permitted query about valid names is answered, unless the engine
fails. -/
theorem C39_answered (sys : Info) (policy : Except Err (List Rule)) (agent : Agent)
    (checkGui : Bool) (serviceName : Str) (input : Wire) (queried caller source target : Str)
    (hq : EvalQuery input serviceName queried caller source target)
    (hq0 : queried ≠ []) (hq1 : queried.head? ≠ some '+')
    (hascii : (∀ c ∈ queried, c.toNat < 128) ∧ ∀ c ∈ caller, c.toNat < 128)
    (hshort : serviceName.length + 1 + queried.length ≤ 65536 ∧ input.length ≤ 65536)
    (hs : 1 ≤ source.length ∧ source.length ≤ 31 ∧ NameText source)
    (ht : 1 ≤ target.length ∧ target.length ≤ 63 ∧ NameText target)
    (hgui : checkGui = true → ∀ n ∈ [source, target], ∃ d, sys.get? n = some d ∧
        c!"guivm-" ++ caller ∈ d.tags)
    (s : Str) (hr : (handleRequest (some sys) policy agent
      { justEvaluate := true, assumeYes := true } source target queried []).2 = .ok s) :
    (handleQrexec (some sys) policy agent checkGui serviceName input).2 = some (s ++ c!"\n") := by
  obtain ⟨metadata, data, rfl, q1, q2, q3, q4, q5, q6, q7, q8⟩ := hq
  have hnames : evalNames (data.take 96) = some (source, target) :=
    evalNames_iff.2 ⟨q7, q8, hs.1, hs.2.1, ht.1, ht.2.1, hs.2.2, ht.2.2⟩
  have hsp : splitOnce ' ' (serviceName ++ '+' :: queried ++ ' ' :: metadata ++ '\x00' :: data) =
      some (serviceName ++ '+' :: queried, metadata ++ '\x00' :: data) := by
    rw [splitOnce_eq_some]
    refine ⟨by simp, ?_⟩
    simp only [List.mem_append, List.mem_cons, not_or]
    exact ⟨q2, by decide, q3⟩
  have hl1 : ¬ (serviceName ++ '+' :: queried).length > streamLimit := by
    simp only [List.length_append, List.length_cons, streamLimit]
    omega
  have hl2 : ¬ metadata.length > streamLimit := by
    have := hshort.2
    simp only [List.length_append, List.length_cons] at this
    unfold streamLimit
    omega
  have hhead : (splitOn ' ' metadata).headD [] = caller := splitOn_headD.2 ⟨q5, q6⟩
  have hca : isAscii caller = true := isAscii_iff.2 hascii.2
  have hqa : isAscii queried = true := isAscii_iff.2 hascii.1
  have hex : extractParams (serviceName ++ '+' :: queried ++ ' ' :: metadata ++ '\x00' :: data) =
      some (serviceName, some queried, caller, data) := by
    unfold extractParams
    rw [hsp]
    simp only
    rw [if_neg hl1, splitOnce_append q4]
    simp only
    rw [if_neg hl2, hhead, hca, splitOnce_append q1]
    rfl
  have hp : (queried.isEmpty || startsWith c!"+" queried) = false := by
    cases queried with
    | nil => exact absurd rfl hq0
    | cons c cs =>
      have hc : c ≠ '+' := fun e => hq1 (by simp [e])
      rw [Bool.or_eq_false_iff]
      refine ⟨rfl, ?_⟩
      simp only [startsWith, List.isPrefixOf, Bool.and_true, beq_eq_false_iff_ne]
      exact Ne.symm hc
  have hg : (checkGui && !(providesGui sys caller source && providesGui sys caller target)) =
      false := by
    cases checkGui with
    | false => rfl
    | true =>
      have key : ∀ n ∈ [source, target], providesGui sys caller n = true := by
        intro n hn
        obtain ⟨d, hd, htag⟩ := hgui rfl n hn
        unfold providesGui
        rw [hd]
        simpa using htag
      rw [key source (by simp), key target (by simp)]
      rfl
  have hsa : isAscii s = true := by
    rcases hx : handleRequest (some sys) policy agent { justEvaluate := true, assumeYes := true }
      source target queried [] with ⟨evs, e | s'⟩
    · rw [hx] at hr; simp at hr
    · rw [hx] at hr
      simp only [Except.ok.injEq] at hr
      subst hr
      rcases handleRequest_ok hx with h | ⟨info, rules, req, res, _, _, _, _, hex⟩
      · rw [h]; decide
      · have : ∀ (r : AllowRes) evs, execAllow { justEvaluate := true, assumeYes := true } r =
            (evs, .ok s') → isAscii s' = true := by
          intro r evs h
          rcases execAllow_ok h with ⟨_, h, _⟩ | ⟨h, _⟩
          · rw [h]; decide
          · simp at h
        cases res with
        | allow r => exact this _ _ hex
        | ask a =>
          rcases execAsk_ok hex with ⟨h1, _, h3, _⟩ | ⟨t, evs', _, _, hex2⟩
          · rw [h3]; decide
          · exact this _ _ hex2
  unfold handleQrexec
  rw [hex]
  simp only [bne_self_eq_false, Bool.false_eq_true, if_false]
  unfold policyEval
  simp only [hp, Bool.false_eq_true, if_false, hnames]
  unfold evalFor
  simp only [hg, Bool.false_eq_true, if_false, hqa, Bool.not_true]
  unfold evalVerdict
  simp only [hr, hsa, if_true]

/-- **C39.** Without events there is no agent either: the verdict does not depend on it. -/
theorem C39_no_agent (info : Option Info) (policy : Except Err (List Rule)) (agent agent' : Agent)
    (checkGui : Bool) (serviceName : Str) (input : Wire) :
    handleQrexec info policy agent checkGui serviceName input =
      handleQrexec info policy agent' checkGui serviceName input := by
  have hr : ∀ sys s t sa rs, handleRequest sys policy agent
      { justEvaluate := true, assumeYes := true } s t sa rs = handleRequest sys policy agent'
      { justEvaluate := true, assumeYes := true } s t sa rs := by
    intro sys s t sa rs
    have hx : ∀ res, execResolution { justEvaluate := true, assumeYes := true } agent res =
        execResolution { justEvaluate := true, assumeYes := true } agent' res := by
      intro res
      cases res <;> rfl
    unfold handleRequest tryRequest
    simp only [hx]
  unfold handleQrexec policyEval evalFor evalVerdict
  simp only [hr]

/-- `sys-gui` may ask about the two domains it displays, `other` may not. -/
def exGui : Info :=
  [(c!"a", { name := c!"a", tags := [c!"guivm-sys-gui"] }),
   (c!"b", { name := c!"b", tags := [c!"guivm-sys-gui"] }),
   (c!"dom0", { name := c!"dom0", cls := c!"AdminVM" })]

example : handleQrexec (some exGui) (.ok []) exAgent true c!"policy.EvalGUI"
    c!"policy.EvalGUI+svc+x sys-gui\x00a\x00b" = ([], some c!"result=deny\n") := by decide
example : handleQrexec (some exGui) (.ok []) exAgent true c!"policy.EvalGUI"
    c!"policy.EvalGUI+svc+x other\x00a\x00b" = ([], none) := by decide

end Qrexec
