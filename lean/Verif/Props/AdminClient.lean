import Verif.Spec.AdminClient
import Verif.Props.Admin
import Verif.Props.Client
import Verif.Props.ServiceEnv
import Verif.Props.AdminValid
import Verif.Props.ServiceFind

/-! # C78: the client of the policy admin API -/
namespace Qrexec
open Spec

/-! ### UTF-8 -/

theorem Spec.Utf8.nil {h : Host} {enc : Str → Bytes} (u : Utf8 h enc) : enc [] = [] := by
  have := congrArg List.length (u.append [] [])
  simp only [List.append_nil, List.length_append] at this
  exact List.length_eq_zero_iff.1 (by omega)

theorem Spec.Utf8.ascii_all {h : Host} {enc : Str → Bytes} (u : Utf8 h enc) : ∀ s : Str, (∀ ch ∈ s, ch.toNat < 128) → enc s = s
  | [], _ => u.nil
  | ch :: s, hs => by
    have := u.append [ch] s
    rw [u.ascii ch (hs _ (by simp)), u.ascii_all s (fun x hx => hs x (by simp [hx]))] at this
    exact this

theorem Spec.Utf8.ne_nil {h : Host} {enc : Str → Bytes} (u : Utf8 h enc) (ch : Char) : enc [ch] ≠ [] := by
  intro e
  have h1 := (u.decode_iff [] [ch]).2 e
  have h2 := (u.decode_iff [] []).2 u.nil
  rw [h1] at h2
  simp at h2

/-- An ASCII prefix of the bytes is a prefix of the text. -/
theorem Spec.Utf8.prefix {h : Host} {enc : Str → Bytes} (u : Utf8 h enc) : ∀ (a : Str), (∀ ch ∈ a, ch.toNat < 128) →
    ∀ (s : Str) (b : Bytes), enc s = a ++ b → ∃ t, s = a ++ t ∧ enc t = b
  | [], _, s, b, e => ⟨s, rfl, e⟩
  | x :: a, ha, s, b, e => by
    cases s with
    | nil => rw [u.nil] at e; cases e
    | cons ch s =>
      have e1 : enc (ch :: s) = enc [ch] ++ enc s := u.append [ch] s
      rw [e1] at e
      by_cases hc : ch.toNat < 128
      · rw [u.ascii ch hc] at e
        have e2 : ch :: enc s = x :: (a ++ b) := e
        obtain ⟨rfl, e3⟩ := List.cons.inj e2
        obtain ⟨t, rfl, ht⟩ := u.prefix a (fun y hy => ha y (by simp [hy])) s b e3
        exact ⟨t, rfl, ht⟩
      · have ho := u.other ch (by omega)
        cases hw : enc [ch] with
        | nil => exact absurd hw (u.ne_nil ch)
        | cons y ys =>
          rw [hw] at e ho
          have e2 : y :: (ys ++ enc s) = x :: (a ++ b) := e
          obtain ⟨rfl, -⟩ := List.cons.inj e2
          have h1 := ho y (by simp)
          have h2 := ha y (by simp)
          omega

theorem Spec.Utf8.decode_enc {h : Host} {enc : Str → Bytes} (u : Utf8 h enc) (s : Str) : h.decode (enc s) = some s :=
  (u.decode_iff _ _).2 rfl

theorem Spec.Utf8.decode_prefix {h : Host} {enc : Str → Bytes} (u : Utf8 h enc) (a : Str) (ha : ∀ ch ∈ a, ch.toNat < 128)
    (b : Bytes) : h.decode (a ++ b) = (h.decode b).map (a ++ ·) := by
  cases hb : h.decode b with
  | some t =>
    rw [u.decode_iff] at hb
    show h.decode (a ++ b) = some (a ++ t)
    rw [u.decode_iff]
    rw [u.append, u.ascii_all a ha, hb]
  | none =>
    cases hd : h.decode (a ++ b) with
    | none => rfl
    | some s =>
      rw [u.decode_iff] at hd
      obtain ⟨t, rfl, ht⟩ := u.prefix a ha s b hd
      rw [(u.decode_iff b t).2 ht] at hb
      cases hb

theorem Spec.HexHash.ascii {h : Host} (hh : HexHash h) (b : Bytes) : ∀ ch ∈ tokenOf h b, ch.toNat < 128 ∧ ch ≠ '\n' ∧ ch ≠ ' ' := by
  intro ch hc
  unfold tokenOf at hc
  rw [List.mem_append] at hc
  rcases hc with hc | hc
  · have : ∀ x ∈ c!"sha256:", x.toNat < 128 ∧ x ≠ '\n' ∧ x ≠ ' ' := by decide
    exact this ch hc
  · have : ∀ x ∈ c!"0123456789abcdef", x.toNat < 128 ∧ x ≠ '\n' ∧ x ≠ ' ' := by decide
    exact this ch (hh b ch hc)

theorem splitOnce_plus {rpc : Str} (h : '+' ∉ rpc) (arg : Option Str) :
    (splitOnce '+' (calledName rpc arg)).getD
      ((calledName rpc arg), []) = (rpc, arg.getD []) := by
  cases arg with
  | none => unfold calledName; dsimp only; rw [splitOnce_none.2 h]; rfl
  | some a => unfold calledName; dsimp only; rw [List.append_assoc]; rw [show c!"+" ++ a = '+' :: a from rfl, splitOnce_append h]; rfl

/-- The text a class and a message are written as is read as that class and that message. -/
theorem clientRaise_admin {h : Host} {enc : Str → Bytes} (u : Utf8 h enc) {cls msg : Str} (hc : cls ∈ adminClasses)
    (st : Nat) : clientRaise h st (enc (cls ++ ' ' :: msg)) = .admin cls msg := by
  have hs : ∀ x ∈ adminClasses, ' ' ∉ x := by decide
  have ht : (cls ++ ' ' :: msg).takeWhile (· != ' ') = cls := by
    have := hs cls hc
    clear hc hs
    induction cls with
    | nil => simp
    | cons a l ih =>
      rw [List.mem_cons, not_or] at this
      rw [List.cons_append, List.takeWhile_cons, if_pos (by simpa using Ne.symm this.1), ih this.2]
  unfold clientRaise
  rw [u.decode_enc]
  dsimp only
  rw [ht, if_pos (by simpa using hc)]
  congr 1
  rw [← List.drop_drop, List.drop_left]
  rfl

theorem clientRaise_internal {h : Host} {enc : Str → Bytes} (u : Utf8 h enc) (log : Str) (st : Nat) :
    clientRaise h st (internalText enc log) = .failed st (internalText enc log) := by
  unfold clientRaise internalText
  rw [u.decode_enc]
  dsimp only
  have ht : (c!"Internal error. See " ++ log ++ c!" in dom0 for details.").takeWhile (· != ' ') = c!"Internal" := rfl
  rw [ht, if_neg (by decide), if_neg (by decide)]

/-- A call, whatever its method: the disk, and the answer or the exception. -/
theorem adminCall_spec {h : Host} {enc : Str → Bytes} (u : Utf8 h enc) (msg : AdminErr → Str) (log : Str) (c : AdminConf)
    (d : Disk) {inDom0 : Option Bool} {run : Disk → List Str → Bytes → Disk × ProcEnd} {service : Str} {arg : Option Str}
    {incl : Bool} {rpc : Str} (hrpc : c!"policy." ++ (if incl then c!"include." ++ service else service) = rpc)
    (hp : '+' ∉ rpc) (hcar : Carried inDom0 run (adminMain h enc msg log c) rpc arg) (payload : Str) :
    (adminCall h enc inDom0 run d service arg payload incl).1 = (handleAdmin h c d rpc (arg.getD []) (enc payload)).1 ∧
    (∀ r, (handleAdmin h c d rpc (arg.getD []) (enc payload)).2 = .ok r →
      (adminCall h enc inDom0 run d service arg payload incl).2 =
        (match h.decode (r.getD []) with | some s => .ok s | none => .error .decode)) ∧
    (∀ e, (handleAdmin h c d rpc (arg.getD []) (enc payload)).2 = .error e →
      ∃ x, ClientShows msg (internalText enc log) e x ∧
        (adminCall h enc inDom0 run d service arg payload incl).2 = .error x) := by
  obtain ⟨cmd, h1, h2, h3⟩ := hcar
  have hn : (cmd.any fun w => w.contains '\x00') = false := by
    rw [List.any_eq_false]
    intro w hw
    simpa using h2 w hw
  unfold adminCall
  dsimp only
  rw [hrpc]
  have hq : qrexecCall h enc inDom0 run d c!"dom0" rpc arg payload =
      (let r := run d cmd (enc payload)
       if r.2.status != 0 then (r.1, .error (.failed r.2.status r.2.stderr))
       else match h.decode r.2.stdout with
        | some s => (r.1, .ok s)
        | none => (r.1, .error .decode)) := by
    unfold qrexecCall
    rw [h1]
    dsimp only
    rw [hn]
    rfl
  rw [hq, h3]
  have hm : adminMain h enc msg log c d (calledName rpc arg) (enc payload) =
      (match handleAdmin h c d rpc (arg.getD []) (enc payload) with
      | (d', .ok r) => (d', ⟨0, r.getD [], []⟩)
      | (d', .error e) =>
        match adminErrName e with
        | some cls => (d', ⟨1, [], enc (cls ++ ' ' :: msg e)⟩)
        | none => (d', ⟨2, [], internalText enc log⟩)) := by
    unfold adminMain
    rw [splitOnce_plus hp]
    rfl
  rw [hm]
  rcases handleAdmin h c d rpc (arg.getD []) (enc payload) with ⟨d', r⟩
  cases r with
  | ok r =>
    dsimp only
    cases hd : h.decode (r.getD []) with
    | some s =>
      refine ⟨by simp [hd], ?_, fun e he => by cases he⟩
      intro r' hr
      cases hr
      simp [hd]
    | none =>
      refine ⟨by simp [hd], ?_, fun e he => by cases he⟩
      intro r' hr
      cases hr
      simp [hd]
  | error e =>
    dsimp only
    refine ⟨?_, (fun r he => by cases he), ?_⟩
    · cases e <;> rfl
    · intro e' he
      cases he
      cases e with
      | token => exact ⟨_, .token, congrArg Except.error (clientRaise_admin u (by decide) 1)⟩
      | notFound => exact ⟨_, .notFound, congrArg Except.error (clientRaise_admin u (by decide) 1)⟩
      | protocol => exact ⟨_, .protocol, congrArg Except.error (clientRaise_admin u (by decide) 1)⟩
      | «syntax» => exact ⟨_, .syntax, congrArg Except.error (clientRaise_admin u (by decide) 1)⟩
      | fileName => exact ⟨_, .fileName, congrArg Except.error (clientRaise_admin u (by decide) 1)⟩
      | filePath => exact ⟨_, .filePath, congrArg Except.error (clientRaise_admin u (by decide) 1)⟩
      | internal e => exact ⟨_, .internal e, congrArg Except.error (clientRaise_internal u log 2)⟩
      | died => exact ⟨_, .died, congrArg Except.error (clientRaise_internal u log 2)⟩

/-! ## C78 -/

theorem area_rpc (a : Area) (service : Str) :
    c!"policy." ++ (if a.isInclude then c!"include." ++ service else service) = a.prefix ++ service := by
  cases a <;> rfl

theorem area_rpc_plus (a : Area) (service : Str) (h : '+' ∉ service) : '+' ∉ a.prefix ++ service := by
  rw [List.mem_append, not_or]
  exact ⟨by cases a <;> decide, h⟩

/-- **C78.** `policy_get`: the disk is not changed. If the server answers, the file exists, the token is that of its
content, and the text returned is its content; only content that is not UTF-8 gives a `UnicodeDecodeError` instead. If the
server fails, its exception is raised. -/
theorem C78_get (h : Host) (enc : Str → Bytes) (u : Utf8 h enc) (hh : HexHash h) (msg : AdminErr → Str) (log : Str)
    (c : AdminConf) (d : Disk) (inDom0 : Option Bool) (run : Disk → List Str → Bytes → Disk × ProcEnd) (a : Area) (n : Str)
    (hcar : Carried inDom0 run (adminMain h enc msg log c) (a.prefix ++ c!"Get") (some n)) :
    (policyGet h enc inDom0 run d n a.isInclude).1 = d ∧
    (∀ r, ((Call.get a n).run h c d).2 = .ok r → ∃ data, d.content (fileOf c d a n) = some data ∧
      ((∃ text, enc text = data ∧ (policyGet h enc inDom0 run d n a.isInclude).2 = .ok (text, tokenOf h data)) ∨
        ((∀ text, enc text ≠ data) ∧ (policyGet h enc inDom0 run d n a.isInclude).2 = .error .decode))) ∧
    (∀ e, ((Call.get a n).run h c d).2 = .error e → ∃ x, ClientShows msg (internalText enc log) e x ∧
      (policyGet h enc inDom0 run d n a.isInclude).2 = .error x) := by
  obtain ⟨h1, h2, h3⟩ := adminCall_spec u msg log c d (area_rpc a c!"Get") (area_rpc_plus a _ (by decide)) hcar []
  rw [u.nil] at h1 h2 h3
  have hrun : (Call.get a n).run h c d = handleAdmin h c d (a.prefix ++ c!"Get") n [] := rfl
  have hd : ((Call.get a n).run h c d).1 = d := C33_read_only h c d _ _ _ (by
    intro a' n' t' x'
    constructor <;> (cases a <;> cases a' <;> simp [Call.service, Area.prefix]))
  rw [show (some n).getD [] = n from rfl, ← hrun] at h1 h2 h3
  rw [hd] at h1
  unfold policyGet
  rcases hx : adminCall h enc inDom0 run d c!"Get" (some n) [] a.isInclude with ⟨st, r⟩
  rw [hx] at h1 h2 h3
  dsimp only at h1 h2 h3
  subst h1
  refine ⟨?_, ?_, ?_⟩
  · cases r with
    | error e => rfl
    | ok s => dsimp only; cases splitOnce '\n' s <;> rfl
  · intro r' hr
    have hr2 : (Call.get a n).run h c st = (st, .ok r') := Prod.ext hd hr
    obtain ⟨-, -, -, -, -, data, hdata, rfl⟩ := get_run.1 hr2
    refine ⟨data, hdata, ?_⟩
    have hs := h2 _ hr
    have hasc := hh.ascii data
    have hdec : h.decode (tokenOf h data ++ '\n' :: data) = (h.decode data).map ((tokenOf h data ++ c!"\n") ++ ·) := by
      rw [← u.decode_prefix]
      · simp
      · intro ch hc
        rw [List.mem_append] at hc
        rcases hc with hc | hc
        · exact (hasc ch hc).1
        · rw [List.mem_singleton] at hc; subst hc; decide
    rw [show (some (tokenOf h data ++ '\n' :: data)).getD [] = tokenOf h data ++ '\n' :: data from rfl, hdec] at hs
    cases ht : h.decode data with
    | some text =>
      rw [ht] at hs
      left
      refine ⟨text, (u.decode_iff _ _).1 ht, ?_⟩
      have hs' : r = .ok (tokenOf h data ++ c!"\n" ++ text) := hs
      rw [hs']
      dsimp only
      rw [List.append_assoc, show c!"\n" ++ text = '\n' :: text from rfl, splitOnce_append (fun hm => (hasc _ hm).2.1 rfl)]
    | none =>
      rw [ht] at hs
      right
      refine ⟨fun text ht' => ?_, ?_⟩
      · rw [(u.decode_iff _ _).2 ht'] at ht; cases ht
      · have hs' : r = .error .decode := hs
        rw [hs']
  · intro e he
    obtain ⟨x, hx1, hx2⟩ := h3 e he
    exact ⟨x, hx1, by rw [hx2]⟩

/-- **C78.** `policy_replace`: the effect is that of the server's Replace with exactly this token and the UTF-8 of this
content; it returns if and only if the server succeeded, and otherwise raises the server's exception. -/
theorem C78_replace (h : Host) (enc : Str → Bytes) (u : Utf8 h enc) (msg : AdminErr → Str) (log : Str)
    (c : AdminConf) (d : Disk) (inDom0 : Option Bool) (run : Disk → List Str → Bytes → Disk × ProcEnd) (a : Area)
    (n content token : Str)
    (hcar : Carried inDom0 run (adminMain h enc msg log c) (a.prefix ++ c!"Replace") (some n)) :
    (policyReplace h enc inDom0 run d n content token a.isInclude).1 =
      ((Call.replace a n (enc token) (enc content)).run h c d).1 ∧
    (∀ r, ((Call.replace a n (enc token) (enc content)).run h c d).2 = .ok r →
      (policyReplace h enc inDom0 run d n content token a.isInclude).2 = .ok ()) ∧
    (∀ e, ((Call.replace a n (enc token) (enc content)).run h c d).2 = .error e →
      ∃ x, ClientShows msg (internalText enc log) e x ∧
        (policyReplace h enc inDom0 run d n content token a.isInclude).2 = .error x) := by
  obtain ⟨h1, h2, h3⟩ := adminCall_spec u msg log c d (area_rpc a c!"Replace") (area_rpc_plus a _ (by decide)) hcar
    (token ++ c!"\n" ++ content)
  have hpay : enc (token ++ c!"\n" ++ content) = enc token ++ '\n' :: enc content := by
    rw [u.append, u.append, u.ascii '\n' (by decide)]
    simp
  rw [hpay] at h1 h2 h3
  have hrun : (Call.replace a n (enc token) (enc content)).run h c d =
    handleAdmin h c d (a.prefix ++ c!"Replace") n (enc token ++ '\n' :: enc content) := rfl
  rw [show (some n).getD [] = n from rfl, ← hrun] at h1 h2 h3
  unfold policyReplace
  rcases hx : adminCall h enc inDom0 run d c!"Replace" (some n) (token ++ c!"\n" ++ content) a.isInclude with ⟨st, r⟩
  rw [hx] at h1 h2 h3
  dsimp only at h1 h2 h3
  refine ⟨?_, ?_, ?_⟩
  · rw [← h1]
    cases r <;> rfl
  · intro r' hr
    have hnone : r' = none ∨ ∃ b, r' = some b := by cases r' <;> simp
    have := h2 _ hr
    have hr0 : r' = none := by
      have hr2 : (Call.replace a n (enc token) (enc content)).run h c d =
        (((Call.replace a n (enc token) (enc content)).run h c d).1, .ok r') := Prod.ext rfl hr
      obtain ⟨ws, hp, -⟩ := handleAdmin_ok.1 hr2
      obtain ⟨_, _, _, _, _, _, _, _, _, _, _, h9⟩ := replace_ok.1 hp
      exact congrArg Prod.fst h9
    subst hr0
    rw [show (none : Option Bytes).getD [] = [] from rfl, (u.decode_iff [] []).2 u.nil] at this
    dsimp only at this
    rw [this]
  · intro e he
    obtain ⟨x, hx1, hx2⟩ := h3 e he
    exact ⟨x, hx1, by rw [hx2]⟩

/-- **C78.** `policy_remove`, likewise. -/
theorem C78_remove (h : Host) (enc : Str → Bytes) (u : Utf8 h enc) (msg : AdminErr → Str) (log : Str)
    (c : AdminConf) (d : Disk) (inDom0 : Option Bool) (run : Disk → List Str → Bytes → Disk × ProcEnd) (a : Area)
    (n token : Str)
    (hcar : Carried inDom0 run (adminMain h enc msg log c) (a.prefix ++ c!"Remove") (some n)) :
    (policyRemove h enc inDom0 run d n token a.isInclude).1 = ((Call.remove a n (enc token)).run h c d).1 ∧
    (∀ r, ((Call.remove a n (enc token)).run h c d).2 = .ok r →
      (policyRemove h enc inDom0 run d n token a.isInclude).2 = .ok ()) ∧
    (∀ e, ((Call.remove a n (enc token)).run h c d).2 = .error e →
      ∃ x, ClientShows msg (internalText enc log) e x ∧
        (policyRemove h enc inDom0 run d n token a.isInclude).2 = .error x) := by
  obtain ⟨h1, h2, h3⟩ := adminCall_spec u msg log c d (area_rpc a c!"Remove") (area_rpc_plus a _ (by decide)) hcar token
  have hrun : (Call.remove a n (enc token)).run h c d = handleAdmin h c d (a.prefix ++ c!"Remove") n (enc token) := rfl
  rw [show (some n).getD [] = n from rfl, ← hrun] at h1 h2 h3
  unfold policyRemove
  rcases hx : adminCall h enc inDom0 run d c!"Remove" (some n) token a.isInclude with ⟨st, r⟩
  rw [hx] at h1 h2 h3
  dsimp only at h1 h2 h3
  refine ⟨?_, ?_, ?_⟩
  · rw [← h1]
    cases r <;> rfl
  · intro r' hr
    have := h2 _ hr
    have hr2 : (Call.remove a n (enc token)).run h c d =
      (((Call.remove a n (enc token)).run h c d).1, .ok r') := Prod.ext rfl hr
    obtain ⟨-, -, -, -, -, -, -, rfl, -⟩ := remove_run hr2
    rw [show (none : Option Bytes).getD [] = [] from rfl, (u.decode_iff [] []).2 u.nil] at this
    dsimp only at this
    rw [this]
  · intro e he
    obtain ⟨x, hx1, hx2⟩ := h3 e he
    exact ⟨x, hx1, by rw [hx2]⟩

/-! ### Lists of names -/

theorem rstripNl_newline {s : Str} (h : s = [] ∨ s.getLast? ≠ some '\n') : rstripNl (s ++ c!"\n") = s := by
  unfold rstripNl
  rw [List.reverse_append]
  rw [show (c!"\n").reverse ++ s.reverse = '\n' :: s.reverse from rfl, List.dropWhile_cons, if_pos (by decide)]
  have : s.reverse.dropWhile (· == '\n') = s.reverse := by
    rcases h with rfl | h
    · rfl
    · cases hs : s.reverse with
      | nil => rfl
      | cons a l =>
        have : s.getLast? = some a := by
          rw [← List.head?_reverse, hs]; rfl
        rw [this] at h
        rw [List.dropWhile_cons, if_neg (by simpa using fun e => h (by rw [e]))]
  rw [this, List.reverse_reverse]

/-- The lines of a text made of lines, each ended. -/
theorem lines_of_names : ∀ {names : List Str}, names ≠ [] → (∀ n ∈ names, '\n' ∉ n) → (∀ n, names.getLast? = some n → n ≠ []) →
    splitOn '\n' (rstripNl (names.flatMap (· ++ c!"\n"))) = names := by
  intro names h1 h2 h3
  have h4 : names.flatMap (· ++ c!"\n") = joinWith '\n' names ++ c!"\n" := by
    clear h2 h3
    induction names with
    | nil => exact absurd rfl h1
    | cons n l ih =>
      cases l with
      | nil => simp [joinWith]
      | cons m l =>
        rw [List.flatMap_cons, ih (by simp), show joinWith '\n' (n :: m :: l) = n ++ '\n' :: joinWith '\n' (m :: l) from rfl]
        simp
  have h5 : (joinWith '\n' names).getLast? ≠ some '\n' := by
    clear h4
    induction names with
    | nil => exact absurd rfl h1
    | cons n l ih =>
      cases l with
      | nil =>
        simp only [joinWith]
        intro he
        exact h2 n (by simp) (List.mem_of_getLast? he)
      | cons m l =>
        have hj := ih (by simp) (fun x hx => h2 x (by simp [hx])) (fun x hx => h3 x (by simpa using hx))
        rw [show joinWith '\n' (n :: m :: l) = n ++ '\n' :: joinWith '\n' (m :: l) from rfl]
        have hne : joinWith '\n' (m :: l) ≠ [] := by
          cases l with
          | nil => exact h3 m (by simp)
          | cons k l =>
            rw [show joinWith '\n' (m :: k :: l) = m ++ '\n' :: joinWith '\n' (k :: l) from rfl]
            simp
        rw [List.getLast?_append_of_ne_nil _ (by simp)]
        rw [List.getLast?_cons]
        cases hx : (joinWith '\n' (m :: l)).getLast? with
        | none => exact absurd (List.getLast?_eq_none_iff.1 hx) hne
        | some y => rw [hx] at hj; simpa using hj
  rw [h4, rstripNl_newline (.inr h5)]
  clear h3 h4 h5
  induction names with
  | nil => exact absurd rfl h1
  | cons n l ih =>
    cases l with
    | nil => exact splitOn_of_not_mem (h2 n (by simp))
    | cons m l =>
      rw [show joinWith '\n' (n :: m :: l) = n ++ '\n' :: joinWith '\n' (m :: l) from rfl]
      rw [splitOn_append (h2 n (by simp)), ih (by simp) (fun x hx => h2 x (by simp [hx]))]

theorem list_ascii {h : Host} {c : AdminConf} {d d' : Disk} {a : Area} {b : Bytes}
    (hr : (Call.list a).run h c d = (d', .ok (some b))) : ∀ ch ∈ b, ch.toNat < 128 := by
  obtain ⟨ws, hp, hw⟩ := handleAdmin_ok.1 hr
  rw [plan_list, ite_error_ok, noneGiven_ok, noneGiven_ok, locked_ok] at hp
  obtain ⟨_, _, _, _, hp⟩ := hp
  unfold adminList at hp
  split at hp
  · simp at hp
  · simp only at hp
    split at hp
    · rename_i ha
      simp only [Except.ok.injEq, Prod.mk.injEq, Option.some.injEq] at hp
      obtain ⟨rfl, -⟩ := hp
      rw [List.all_eq_true] at ha
      intro ch hc
      simpa using ha ch hc
    · simp at hp

/-- **C78.** `policy_list`: when there is a name, and no name is empty or has a line feed in it, exactly the names whose
file exists, sorted; the server's exception otherwise. -/
theorem C78_list_partial (h : Host) (enc : Str → Bytes) (u : Utf8 h enc) (msg : AdminErr → Str) (log : Str)
    (c : AdminConf) (d : Disk) (inDom0 : Option Bool) (run : Disk → List Str → Bytes → Disk × ProcEnd) (a : Area)
    (hcar : Carried inDom0 run (adminMain h enc msg log c) (a.prefix ++ c!"List") none) :
    (policyList h enc inDom0 run d a.isInclude).1 = d ∧
    (∀ r, ((Call.list a).run h c d).2 = .ok r → (∃ n, HasName c d a n) → (∀ n, HasName c d a n → n ≠ [] ∧ '\n' ∉ n) →
      ∃ names, (policyList h enc inDom0 run d a.isInclude).2 = .ok names ∧
        names.Pairwise (fun x y => strLe x y = true) ∧ ∀ n, n ∈ names ↔ HasName c d a n) ∧
    (∀ e, ((Call.list a).run h c d).2 = .error e → ∃ x, ClientShows msg (internalText enc log) e x ∧
      (policyList h enc inDom0 run d a.isInclude).2 = .error x) ∧
    (∀ r, ((Call.list a).run h c d).2 = .ok r → (¬ ∃ n, HasName c d a n) →
      (policyList h enc inDom0 run d a.isInclude).2 = .ok [[]]) := by
  obtain ⟨h1, h2, h3⟩ := adminCall_spec u msg log c d (area_rpc a c!"List") (area_rpc_plus a _ (by decide)) hcar []
  rw [u.nil] at h1 h2 h3
  have hrun : (Call.list a).run h c d = handleAdmin h c d (a.prefix ++ c!"List") [] [] := rfl
  have hd : ((Call.list a).run h c d).1 = d := C33_read_only h c d _ _ _ (by
    intro a' n' t' x'
    constructor <;> (cases a <;> cases a' <;> simp [Call.service, Area.prefix]))
  rw [show (none : Option Str).getD [] = [] from rfl, ← hrun] at h1 h2 h3
  rw [hd] at h1
  unfold policyList
  rcases hx : adminCall h enc inDom0 run d c!"List" none [] a.isInclude with ⟨st, r⟩
  rw [hx] at h1 h2 h3
  dsimp only at h1 h2 h3
  subst h1
  have hok : ∀ r', ((Call.list a).run h c st).2 = .ok r' → ∃ names : List Str, r = .ok (names.flatMap (· ++ c!"\n")) ∧
      names.Pairwise (fun x y => strLe x y = true) ∧ ∀ n, n ∈ names ↔ HasName c st a n := by
    intro r' hr
    have hr2 : (Call.list a).run h c st = (st, .ok r') := Prod.ext hd hr
    obtain ⟨-, names, rfl, hs, hn⟩ := C32_list h c st st a r' hr2
    refine ⟨names, ?_, hs, hn⟩
    have := h2 _ hr
    rw [show (some (names.flatMap (· ++ c!"\n"))).getD [] = names.flatMap (· ++ c!"\n") from rfl,
      (u.decode_iff _ _).2 (u.ascii_all _ (list_ascii hr2))] at this
    exact this
  refine ⟨?_, ?_, ?_, ?_⟩
  · cases r <;> rfl
  · intro r' hr hne hnl
    obtain ⟨names, rfl, hs, hn⟩ := hok r' hr
    refine ⟨names, ?_, hs, hn⟩
    obtain ⟨n, hn0⟩ := hne
    have hne : names ≠ [] := by
      rintro rfl
      have := (hn n).2 hn0
      cases this
    dsimp only
    rw [lines_of_names hne (fun n hm => (hnl n ((hn n).1 hm)).2)
      (fun n hm => (hnl n ((hn n).1 (List.mem_of_getLast? hm))).1)]
  · intro e he
    obtain ⟨x, hx1, hx2⟩ := h3 e he
    exact ⟨x, hx1, by rw [hx2]⟩
  · intro r' hr hne
    obtain ⟨names, rfl, hs, hn⟩ := hok r' hr
    have : names = [] := List.eq_nil_iff_forall_not_mem.2 fun n hm => hne ⟨n, (hn n).1 hm⟩
    subst this
    rfl

/-- **C78.** `policy_get_files`: the names of C59, in that order, when none is empty, contains a line feed or a character
outside ASCII; the empty list when there are none. -/
theorem C78_get_files (h : Host) (enc : Str → Bytes) (u : Utf8 h enc) (msg : AdminErr → Str) (log : Str)
    (c : AdminConf) (d : Disk) (inDom0 : Option Bool) (run : Disk → List Str → Bytes → Disk × ProcEnd) (s : Str)
    (hcar : Carried inDom0 run (adminMain h enc msg log c) c!"policy.GetFiles" (some s)) :
    (policyGetFiles h enc inDom0 run d s).1 = d ∧
    (∀ names : List Str, ((Call.getFiles s).run h c d).2 = .ok (some (names.flatMap (· ++ c!"\n"))) →
      (∀ n ∈ names, n ≠ [] ∧ ∀ ch ∈ n, ch.toNat < 128 ∧ ch ≠ '\n') →
      (policyGetFiles h enc inDom0 run d s).2 = .ok names) ∧
    (∀ e, ((Call.getFiles s).run h c d).2 = .error e → ∃ x, ClientShows msg (internalText enc log) e x ∧
      (policyGetFiles h enc inDom0 run d s).2 = .error x) := by
  obtain ⟨h1, h2, h3⟩ := adminCall_spec u msg log c d (service := c!"GetFiles") (incl := false) (rpc := c!"policy.GetFiles") rfl (by decide) hcar []
  rw [u.nil] at h1 h2 h3
  have hrun : (Call.getFiles s).run h c d = handleAdmin h c d c!"policy.GetFiles" s [] := rfl
  have hd : ((Call.getFiles s).run h c d).1 = d := C33_read_only h c d _ _ _ (by
    intro a' n' t' x'
    constructor <;> (cases a' <;> simp [Call.service, Area.prefix]))
  rw [show (some s).getD [] = s from rfl, ← hrun] at h1 h2 h3
  rw [hd] at h1
  unfold policyGetFiles
  rcases hx : adminCall h enc inDom0 run d c!"GetFiles" (some s) [] false with ⟨st, r⟩
  rw [hx] at h1 h2 h3
  dsimp only at h1 h2 h3
  subst h1
  refine ⟨?_, ?_, ?_⟩
  · cases r <;> rfl
  · intro names hr hn
    have := h2 _ hr
    have hasc : ∀ ch ∈ names.flatMap (· ++ c!"\n"), ch.toNat < 128 := by
      intro ch hc
      rw [List.mem_flatMap] at hc
      obtain ⟨n, hm, hc⟩ := hc
      rw [List.mem_append] at hc
      rcases hc with hc | hc
      · exact ((hn n hm).2 ch hc).1
      · rw [List.mem_singleton] at hc; subst hc; decide
    rw [show (some (names.flatMap (· ++ c!"\n"))).getD [] = names.flatMap (· ++ c!"\n") from rfl,
      (u.decode_iff _ _).2 (u.ascii_all _ hasc)] at this
    dsimp only at this
    rw [this]
    dsimp only
    cases hns : names with
    | nil => rfl
    | cons n l =>
      rw [← hns, if_neg (by rw [hns]; simp), lines_of_names (by rw [hns]; simp) (fun n hm hx => ((hn n hm).2 _ hx).2 rfl)
        (fun n hm => (hn n (List.mem_of_getLast? hm)).1)]
  · intro e he
    obtain ⟨x, hx1, hx2⟩ := h3 e he
    exact ⟨x, hx1, by rw [hx2]⟩

theorem envValue_eq (env : List Str) (var : Str) : envValue env var = getenv env var := by
  unfold envValue
  induction env with
  | nil => rfl
  | cons e env ih =>
    rw [getenv, List.find?_cons]
    cases (var ++ c!"=").isPrefixOf e with
    | true => rfl
    | false => exact ih

theorem strtok_two {a b : Str} (ha : a ≠ []) (hb : b ≠ []) (h1 : ' ' ∉ a) (h2 : ' ' ∉ b) :
    strtokSpace (a ++ c!" " ++ b) = [a, b] := by
  unfold strtokSpace
  rw [List.append_assoc, show c!" " ++ b = ' ' :: b from rfl, splitOn_append h1, splitOn_of_not_mem h2]
  cases a with
  | nil => exact absurd rfl ha
  | cons x a =>
    cases b with
    | nil => exact absurd rfl hb
    | cons y b => rfl

/-- **C78.** In dom0 a call by `PolicyClient` reaches the server: if the program of the service is qubes-policy-admin, the
command has the effect and the outcome of that program running for exactly this service and argument. -/
theorem C78_dom0 (w : QcWorld) (envp : List Str) (isAdmin : Str → Bool) (server : Disk → Str → Bytes → Disk × ProcEnd)
    (other : Disk → List Str → Bytes → Disk × ProcEnd) (rpc : Str) (arg : Option Str) (p : Str) (conf : SvcConf)
    (h1 : ' ' ∉ rpc) (h2 : '+' ∉ rpc) (h3 : 1 ≤ rpc.length) (h4 : rpc.length ≤ 255) (h5 : ' ' ∉ arg.getD [])
    (h6 : rpc.length + 1 + (arg.getD []).length ≤ 65000) (h7 : '\x00' ∉ rpc) (h8 : '\x00' ∉ arg.getD [])
    (hconf : dom0Conf w.load ⟨none, false, calledName rpc arg ++ c!" dom0",
      some ⟨rpc ++ c!"+" ++ arg.getD [], rpc, arg, c!"dom0"⟩⟩ = some conf) (huser : conf.user = none)
    (hlen : ∀ q ∈ servicePlaces (pathDirs w.start.pathList) ⟨rpc ++ c!"+" ++ arg.getD [], rpc, arg, c!"dom0"⟩,
      q.length < w.start.bufSize)
    (hfirst : FirstPlace true w.start.fs
      (servicePlaces (pathDirs w.start.pathList) ⟨rpc ++ c!"+" ++ arg.getD [], rpc, arg, c!"dom0"⟩) p)
    (hfile : FileAt true w.start.fs p (.other true)) (habs : p.head? = some '/') (hadmin : isAdmin p = true) :
    Carried (some true) (dom0Run w envp isAdmin server other) server rpc arg := by
  have hfull : fullService rpc arg = calledName rpc arg := by
    cases arg with
    | none => rfl
    | some a => show rpc ++ '+' :: a = rpc ++ c!"+" ++ a; simp
  have hsp : ' ' ∉ calledName rpc arg := by
    cases arg with
    | none => exact h1
    | some a => show ' ' ∉ rpc ++ c!"+" ++ a; simpa using ⟨h1, h5⟩
  have hnul : '\x00' ∉ calledName rpc arg := by
    cases arg with
    | none => exact h7
    | some a => show '\x00' ∉ rpc ++ c!"+" ++ a; simpa using ⟨h7, h8⟩
  have hne : calledName rpc arg ≠ [] := by
    cases arg with
    | none => rintro e; rw [show calledName rpc none = rpc from rfl] at e; rw [e] at h3; simp at h3
    | some a => show rpc ++ c!"+" ++ a ≠ []; simp
  refine ⟨[c!"/usr/bin/qrexec-client", c!"-d", c!"dom0", c!"DEFAULT:QUBESRPC " ++ calledName rpc arg ++ c!" dom0"],
    ?_, ?_, ?_⟩
  · unfold makeCommand
    rw [if_neg (by simpa using ⟨⟨h2, h1⟩, h5⟩), hfull]
  · intro x hx
    rw [List.mem_cons, List.mem_cons, List.mem_cons, List.mem_singleton] at hx
    rcases hx with rfl | rfl | rfl | rfl
    · decide
    · decide
    · decide
    · rw [List.mem_append, List.mem_append, not_or, not_or]
      exact ⟨⟨by decide, hnul⟩, by decide⟩
  · intro d input
    have hct : CommandText false (c!"QUBESRPC " ++ (calledName rpc arg ++ c!" dom0")) ⟨none, false, calledName rpc arg ++ c!" dom0",
        some ⟨rpc ++ c!"+" ++ arg.getD [], rpc, arg, c!"dom0"⟩⟩ := by
      refine ⟨_, _, ⟨rfl, rfl⟩, .inr ⟨rfl, rfl, ?_⟩, .inl ⟨_, rfl, rfl, ?_⟩⟩
      · rintro ⟨t, ht⟩
        exact absurd (congrArg List.head? ht) (by simp)
      · cases arg with
        | none =>
          have := ServiceText.noArg rpc c!"dom0" [] h1 h2 h3 h4 (by simp) (by decide) (.inl rfl)
          simpa [calledName] using this
        | some a =>
          have := ServiceText.arg rpc a c!"dom0" [] h1 h2 h3 h4 (by simp) (by decide) (.inl rfl) h5 h6
          simpa [calledName] using this
    have hok : QcOk w.stdinStream [.domain c!"dom0"] [c!"DEFAULT:QUBESRPC " ++ calledName rpc arg ++ c!" dom0"] := by
      unfold QcOk QcOptionsOk
      simp [domainsOf, connectsOf, localsOf, pfxsOf]
    obtain ⟨e, he, -, hbec⟩ := C75_dom0_dom0 w [.domain c!"dom0"] (c!"DEFAULT:QUBESRPC " ++ calledName rpc arg ++ c!" dom0") []
      c!"dom0" hok rfl (by decide) rfl
    have hb := (hbec (c!"QUBESRPC " ++ (calledName rpc arg ++ c!" dom0")) _ _ conf rfl (by simp) hct rfl hconf hlen).2 p huser
      hfirst hfile
    unfold dom0Run
    dsimp only
    rw [he, hb]
    dsimp only
    have hex : ∃ e, execQubesRpc2 p (calledName rpc arg ++ c!" dom0") envp false = some e ∧ e.path = p := by
      unfold execQubesRpc2
      dsimp only
      rw [show calledName rpc arg ++ c!" dom0" = calledName rpc arg ++ c!" " ++ c!"dom0" by simp,
        strtok_two hne (by simp) hsp (by decide)]
      rw [if_neg (by simp), if_neg (by simp [habs])]
      exact ⟨_, rfl, rfl⟩
    obtain ⟨e1, he1, hp1⟩ := hex
    have hname := (C64_agree false _ p envp _ _ e1 ((C50_parse _ _ _).2 hct) rfl he1).2.2.1
    rw [he1]
    dsimp only
    rw [hp1, if_pos hadmin, envValue_eq, hname]
    cases arg with
    | none => show server d (rpc ++ []) input = server d rpc input; rw [List.append_nil]
    | some a => show server d (rpc ++ (c!"+" ++ a)) input = server d (rpc ++ c!"+" ++ a) input; rw [List.append_assoc]

/-- **C78.** In a qube the command is qrexec-client-vm with dom0 and exactly this service and argument; nowhere is a
command executed if the name of the service contains a plus sign or a space, or the argument contains a space. -/
theorem C78_command (inDom0 : Option Bool) (rpc : Str) (arg : Option Str) :
    ('+' ∉ rpc → ' ' ∉ rpc → ' ' ∉ arg.getD [] → makeCommand (some false) c!"dom0" rpc arg =
      .ok [c!"/usr/bin/qrexec-client-vm", c!"--", c!"dom0", calledName rpc arg]) ∧
    ('+' ∈ rpc ∨ ' ' ∈ rpc ∨ ' ' ∈ arg.getD [] → makeCommand inDom0 c!"dom0" rpc arg = .error .assertion) := by
  constructor
  · intro h1 h2 h3
    unfold makeCommand
    rw [if_neg (by simpa using ⟨⟨h1, h2⟩, h3⟩)]
    cases arg with
    | none => rfl
    | some a => show Except.ok _ = Except.ok _; simp [fullService, calledName]
  · intro hh
    unfold makeCommand
    rw [if_pos (by simpa [or_assoc] using hh)]

/-- **C78.** Any other failure of the command (a refusal, say) is the `CalledProcessError` with its status - unless what it
wrote to standard error begins with one of the names in the module. -/
theorem C78_other (h : Host) (enc : Str → Bytes) (u : Utf8 h enc) (inDom0 : Option Bool)
    (run : Disk → List Str → Bytes → Disk × ProcEnd) (d d' : Disk) (service : Str) (arg : Option Str) (payload word rest : Str)
    (incl : Bool) (cmd : List Str) (st : Nat)
    (hcmd : makeCommand inDom0 c!"dom0" (c!"policy." ++ (if incl then c!"include." ++ service else service)) arg = .ok cmd)
    (hnul : ∀ w ∈ cmd, '\x00' ∉ w) (hst : st ≠ 0) (hrun : run d cmd (enc payload) = (d', ⟨st, [], enc (word ++ rest)⟩))
    (hw : ' ' ∉ word) (hrest : rest = [] ∨ rest.head? = some ' ') (h1 : word ∉ adminClasses) (h2 : word ∉ otherGlobals) :
    adminCall h enc inDom0 run d service arg payload incl = (d', .error (.failed st (enc (word ++ rest)))) := by
  have hn : (cmd.any fun w => w.contains '\x00') = false := by
    rw [List.any_eq_false]
    intro w hw
    simpa using hnul w hw
  have hword : (word ++ rest).takeWhile (· != ' ') = word := by
    rw [List.takeWhile_append_of_pos (fun x hx => by simpa using fun e => hw (by rw [← e]; exact hx))]
    rcases hrest with rfl | hr
    · simp
    · cases rest with
      | nil => cases hr
      | cons x l => cases hr; simp
  unfold adminCall
  dsimp only
  unfold qrexecCall
  rw [hcmd]
  dsimp only
  rw [hn, if_neg (by simp), hrun]
  dsimp only
  rw [if_pos (by simpa using hst)]
  dsimp only
  unfold clientRaise
  rw [u.decode_enc]
  dsimp only
  rw [hword, if_neg (by simpa using h1), if_neg (by simpa using h2)]

/-! ### A concrete case -/

/-- ASCII as UTF-8, and a hash of one digit. -/
def clientHost : Host := ⟨fun _ => c!"0", fun b => some b⟩

theorem clientHost_utf8 : Utf8 clientHost id :=
  ⟨fun b s => ⟨fun h => by injection h with h; exact h.symm, fun h => by cases h; rfl⟩, fun _ _ => rfl, fun _ _ => rfl,
    fun ch h b hb => by rw [List.mem_singleton.1 hb]; exact h⟩

theorem clientHost_hex : HexHash clientHost := fun _ ch hc => by
  rw [List.mem_singleton.1 hc]; decide

/-- dom0 with the service policy.Get. -/
def clientFs : Str → LstatRes := fun p =>
  if p = c!"/etc/qubes-rpc/policy.Get" then .ok (.other true) else if p = c!"/etc/qubes-rpc/policy.List" then .ok (.other true)
  else .enoent

def clientWorld : QcWorld :=
  { start := ⟨clientFs, 4096, c!"/usr/local/etc/qubes-rpc:/etc/qubes-rpc", true, true, true, none⟩, load := fun _ => some {},
    ex := ⟨none, .ok, none, .failed, none, true, true⟩ }

def clientRun (isAdmin : Str → Bool) : Disk → List Str → Bytes → Disk × ProcEnd :=
  dom0Run clientWorld [] isAdmin (adminMain clientHost id (fun _ => c!"no") c!"log" exampleConf) (fun d _ _ => (d, ⟨9, [], []⟩))

set_option maxRecDepth 20000 in
example : Carried (some true) (clientRun fun _ => true)
    (adminMain clientHost id (fun _ => c!"no") c!"log" exampleConf) c!"policy.Get" (some c!"a") :=
  C78_dom0 clientWorld [] _ _ _ c!"policy.Get" (some c!"a") c!"/etc/qubes-rpc/policy.Get" {} (by decide) (by decide) (by decide)
    (by decide) (by decide) (by decide) (by decide) (by decide) rfl rfl (by decide)
    ⟨[c!"/usr/local/etc/qubes-rpc/policy.Get+a", c!"/etc/qubes-rpc/policy.Get+a", c!"/usr/local/etc/qubes-rpc/policy.Get"], [], rfl,
      fun q hq => .inl (by
        have : ∀ q ∈ [c!"/usr/local/etc/qubes-rpc/policy.Get+a", c!"/etc/qubes-rpc/policy.Get+a",
          c!"/usr/local/etc/qubes-rpc/policy.Get"], clientFs q = .enoent := by decide
        exact this q hq)⟩
    (.inl (by decide)) rfl rfl

set_option maxRecDepth 20000 in
example : (policyGet clientHost id (some true) (clientRun fun _ => true) diskA c!"a" false).2 =
    .ok (c!"* * @anyvm @anyvm deny", c!"sha256:0") := by rfl
set_option maxRecDepth 20000 in
example : (policyGet clientHost id (some true) (clientRun fun _ => true) diskA c!"b" false).2 =
    .error (.admin c!"PolicyAdminFileNotFoundException" c!"no") := by rfl
set_option maxRecDepth 20000 in
example : (policyGet clientHost id (some true) (clientRun fun _ => true) diskA c!"a b" false).2 = .error .assertion := by rfl

set_option maxRecDepth 20000 in
/-- **C78.** The list of an area without files has one, empty, name. -/
theorem C78_list_empty_violation :
    (policyList clientHost id (some false) (fun d _ _ => adminMain clientHost id (fun _ => []) [] exampleConf d
      c!"policy.include.List" []) diskA true).2 = .ok [[]] := by rfl

end Qrexec
