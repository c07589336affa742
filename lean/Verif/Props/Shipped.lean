import Verif.Spec.Shipped
import Verif.Props.Lint
import Verif.Props.Load
import Verif.Props.Admin
import Verif.Lemmas.Register
import Verif.Lemmas.Eval

/-! # C98: who the shipped policy lets read and change the policy -/
namespace Qrexec
open Spec

/-! ### What the shipped file says -/

/-- The directives of the shipped file: service and included file. -/
def adminIncludes : List (Str × Str) := [
  (c!"policy.List", c!"include/admin-policy-ro"), (c!"policy.include.List", c!"include/admin-policy-ro"),
  (c!"policy.Get", c!"include/admin-policy-ro"), (c!"policy.include.Get", c!"include/admin-policy-ro"),
  (c!"policy.GetFiles", c!"include/admin-policy-ro"),
  (c!"policy.Replace", c!"include/admin-policy-rwx"), (c!"policy.include.Replace", c!"include/admin-policy-rwx"),
  (c!"policy.Remove", c!"include/admin-policy-rwx"), (c!"policy.include.Remove", c!"include/admin-policy-rwx")]

theorem keeper_of_mem {x : Str × Str} (h : x ∈ adminIncludes) : Keeper x.1 x.2 := by
  have : ∀ x ∈ adminIncludes, (x.1 ∈ readers ∧ x.2 = c!"include/admin-policy-ro") ∨ (x.1 ∈ writers ∧ x.2 = c!"include/admin-policy-rwx") := by
    decide
  obtain ⟨a, b⟩ := x
  rcases this _ h with ⟨h1, h2⟩ | ⟨h1, h2⟩
  · simp only at h1 h2; subst h2; exact .reader h1
  · simp only at h1 h2; subst h2; exact .writer h1

theorem keeper_unique {s a b : Str} (h1 : Keeper s a) (h2 : Keeper s b) : a = b := by
  have hd : ∀ s ∈ readers, s ∉ writers := by decide
  cases h1 with
  | reader h => cases h2 with
    | reader _ => rfl
    | writer h' => exact absurd h' (hd _ h)
  | writer h => cases h2 with
    | reader h' => exact absurd h (hd _ h')
    | writer _ => rfl

set_option maxRecDepth 100000 in
theorem shippedAdmin_lines : fileLines (joinLines shippedAdmin) = shippedAdmin := by decide +kernel

set_option maxRecDepth 100000 in
theorem shippedAdmin_says :
    (shippedAdmin.filter fun l => !isCommentLine (strip l)).map (fun l => (startsWith c!"!" (strip l), splitWs (strip l))) =
      adminIncludes.map fun x => (true, [c!"!include-service", x.1, c!"*", x.2]) := by decide +kernel

theorem adminIncludes_valid : ∀ x ∈ adminIncludes,
    validateServiceAndArgument (some x.1) (some c!"*") = .ok (some x.1, none) := by decide

theorem collectRules_filter {α : Type} {f : α → Except Err (List Rule)} {p : α → Bool} (l : List α)
    (h : ∀ x ∈ l, p x = false → f x = .ok []) : collectRules f l = collectRules f (l.filter p) := by
  induction l with
  | nil => rfl
  | cons x xs ih =>
    have ih := ih fun y hy => h y (List.mem_cons_of_mem _ hy)
    cases hp : p x with
    | true => rw [List.filter_cons_of_pos hp]; simp only [collectRules, ih]
    | false =>
      rw [List.filter_cons_of_neg (by simp [hp])]
      simp only [collectRules, h x List.mem_cons_self hp]
      rw [← ih]
      cases collectRules f xs <;> rfl

theorem collectRules_map₂ {α β γ : Type} {f : α → Except Err (List Rule)} {g : β → Except Err (List Rule)} {k : α → γ} {k' : β → γ}
    (hfg : ∀ x y, k x = k' y → f x = g y) : ∀ (l : List α) (l' : List β), l.map k = l'.map k' → collectRules f l = collectRules g l' := by
  intro l
  induction l with
  | nil => intro l' h; cases l' with
    | nil => rfl
    | cons y ys => simp at h
  | cons x xs ih =>
    intro l' h
    cases l' with
    | nil => simp at h
    | cons y ys =>
      simp only [List.map_cons, List.cons.injEq] at h
      simp only [collectRules, hfg x y h.1, ih ys h.2]

/-- What a directive of the shipped file loads. -/
def shippedStep (op : Str → Except Err Opened) (m : Nat) (x : Str × Str) : Except Err (List Rule) :=
  includeService op (loadService op m) (some x.1) (some c!"*") x.2

theorem loadFile_shipped (env : LoadEnv) (m : Nat) (p : Path) :
    loadFile env (m + 1) (shippedAdmin, p) = collectRules (shippedStep env.openFile m) adminIncludes := by
  rw [loadFile, collectRules_filter (p := fun l => !isCommentLine (strip l))]
  · refine collectRules_map₂ ?_ _ _ shippedAdmin_says
    intro l x h
    obtain ⟨h1, h2⟩ := Prod.mk.inj h
    unfold fileLine
    have hc : isCommentLine (strip l) = false := by
      cases hs : strip l with
      | nil => rw [hs] at h1; exact absurd h1 (by decide)
      | cons c cs =>
        rw [hs] at h1
        obtain ⟨t, ht⟩ := startsWith_iff.1 h1
        cases ht
        rfl
    simp only [hc, h1, h2]
    rfl
  · intro l _ hl
    unfold fileLine
    simp only [Bool.not_eq_false'] at hl
    simp only [hl, if_true]

theorem loadTopFile_shipped {fs : FS} {legacy base : Path} (hs : HasShipped fs base) {n : Nat} {rules : List Rule}
    (h : loadTopFile fs legacy n (base, adminFile) = .ok rules) :
    ∃ m, n = m + 1 ∧ collectRules (shippedStep (resolveFilepath fs base) m) adminIncludes = .ok rules := by
  unfold loadTopFile openPath at h
  have hs' : fs.file ((base, adminFile).1 ++ [(base, adminFile).2]) = some (.ok (joinLines shippedAdmin)) := hs
  rw [hs'] at h
  cases n with
  | zero => exact absurd h (by intro h; cases h)
  | succ m =>
    refine ⟨m, rfl, ?_⟩
    have h' : loadFile (policyEnv fs legacy base) (m + 1) (fileLines (joinLines shippedAdmin), base ++ [adminFile]) = .ok rules := h
    rw [shippedAdmin_lines, loadFile_shipped] at h'
    exact h'

/-! ### Where the rules of a service file come from -/

theorem resolveFilepath_ok {fs : FS} {base : Path} {inc : Str} {f : Opened} (h : resolveFilepath fs base inc = .ok f) :
    ∃ text, fs.file (fs.resolve (joinPath base inc)) = some (.ok text) ∧ f = (fileLines text, fs.resolve (joinPath base inc)) := by
  unfold resolveFilepath at h
  simp only at h
  split at h
  · cases h
  · rename_i r hr
    obtain ⟨text, ht, hf⟩ := bind_eq_ok.1 h
    subst ht
    exact ⟨text, hr, (Except.ok.inj hf).symm⟩

theorem loadService_said {fs : FS} {base : Path} (n : Nat) : ∀ {svc : Str}
    (_ : validateServiceAndArgument (some svc) none = .ok (some svc, none)) {inc : Str} {f : Opened} (_ : resolveFilepath fs base inc = .ok f),
    RulesIn (fun r => ∃ p, Reached fs base inc p ∧ SaidIn fs p svc r) (loadService (resolveFilepath fs base) n (some svc) none f) := by
  induction n with
  | zero => intro svc _ inc f _; exact RulesIn.error
  | succ n ih =>
    intro svc hv inc f hf
    obtain ⟨text, htext, rfl⟩ := resolveFilepath_ok hf
    refine RulesIn.collect fun line hline => ?_
    unfold serviceLine
    by_cases h1 : isCommentLine (strip line) = true
    · simp only [h1, if_true]; exact RulesIn.nil
    · simp only [if_neg h1]
      by_cases h2 : startsWith c!"!" (compatSubst (strip line)) = true
      · simp only [if_pos h2]
        unfold serviceDirective
        split
        · rename_i d inc' hw
          split
          · rename_i hd
            have hd : d = c!"!include" := by simpa using hd
            subst hd
            unfold includeService
            rw [hv]
            exact RulesIn.bind fun sa hsa => RulesIn.bind fun f hf' => by
              cases hsa
              refine (ih hv hf').mono ?_
              rintro r ⟨p, hp, hr⟩
              refine ⟨p, .next htext hline (words_iff.2 ?_) hp, hr⟩
              rw [← splitWs_subst_strip, hw]
          · exact RulesIn.error
        · exact RulesIn.error
      · simp only [if_neg h2]
        refine RulesIn.single fun r hr => ⟨_, .here inc, ?_⟩
        have hr0 := hr
        unfold ruleFromLineService at hr
        split at hr
        · split at hr
          · obtain ⟨sa, act, h3, _, _, _, _, h4, h5, h6, _⟩ := mkRule_ok hr
            rw [hv] at h3
            cases h3
            exact ⟨h6, h4, h5, text, line, htext, hline, hr0⟩
          · cases hr
        · cases hr

/-- **C98, the rules of the shipped file.** Every rule the shipped file brings in is for one of the nine services, for any argument,
and is said by a line of the file kept for that service or of a file that one includes. -/
theorem C98_who (fs : FS) (legacy base : Path) (hs : HasShipped fs base) (n : Nat) (rules : List Rule)
    (h : loadTopFile fs legacy n (base, adminFile) = .ok rules) (r : Rule) (hr : r ∈ rules) :
    ∃ svc inc p, Keeper svc inc ∧ Reached fs base inc p ∧ SaidIn fs p svc r := by
  obtain ⟨m, _, h⟩ := loadTopFile_shipped hs h
  obtain ⟨parts, hp, rfl⟩ := collectRules_ok.1 h
  obtain ⟨part, hpart, hr⟩ := List.mem_flatten.1 hr
  obtain ⟨x, hx, hstep⟩ := forall₂_mem_right (R := fun x p => shippedStep (resolveFilepath fs base) m x = .ok p) hp hpart
  unfold shippedStep includeService at hstep
  rw [adminIncludes_valid x hx] at hstep
  obtain ⟨sa, hsa, hstep⟩ := bind_eq_ok.1 hstep
  cases hsa
  obtain ⟨f, hf, hl⟩ := bind_eq_ok.1 hstep
  have hv : validateServiceAndArgument (some x.1) none = .ok (some x.1, none) := by
    have : ∀ x ∈ adminIncludes, validateServiceAndArgument (some x.1) none = .ok (some x.1, none) := by decide
    exact this x hx
  obtain ⟨p, hp, hsaid⟩ := loadService_said m hv hf part hl r hr
  exact ⟨x.1, x.2, p, keeper_of_mem hx, hp, hsaid⟩

/-- **C98, a call that is not refused.** With the shipped file in the policy directory, a request for one of the nine services that
the policy does not refuse matched a rule of another policy file, or a rule written in the file kept for that service, or in one
that file includes. -/
theorem C98_call (fs : FS) (hdn : DistinctNames fs) (legacy : Path) (dirs : List Path) (n : Nat) (rules : List Rule)
    (h : filePolicy fs legacy dirs n = .ok rules)
    (hs : ∀ d, Chosen fs dirs (d, adminFile) → HasShipped fs d)
    (req : Request) (hn : OrdinaryNames req.info) (inc : Str) (hk : Keeper req.service inc) (res : Resolution)
    (he : evaluate rules req = .ok res) :
    ∃ pre r post, FirstMatch rules pre r post req ∧
      ((∃ f part, Chosen fs dirs f ∧ f.2 ≠ adminFile ∧ loadTopFile fs legacy n f = .ok part ∧ r ∈ part) ∨
       ∃ base p, base ∈ dirs ∧ Reached fs base inc p ∧ SaidIn fs p req.service r) := by
  obtain ⟨r, hr, _⟩ := bind_eq_ok.1 he
  obtain ⟨pre, post, hfm, _⟩ := findMatchingRule_ok hn hr
  refine ⟨pre, r, post, hfm, ?_⟩
  obtain ⟨files, parts, _, hch, hf2, rfl⟩ := C25_load_order fs hdn legacy dirs n rules h
  have hmem : r ∈ parts.flatten := by rw [hfm.split]; simp
  obtain ⟨part, hpart, hrp⟩ := List.mem_flatten.1 hmem
  obtain ⟨f, hf, hl⟩ := forall₂_mem_right (R := fun f p => loadTopFile fs legacy n f = .ok p) hf2 hpart
  have hcf := (hch f).1 hf
  by_cases hname : f.2 = adminFile
  · obtain ⟨d, nm⟩ := f
    simp only at hname
    subst hname
    obtain ⟨svc, inc', p, hk', hp, hsaid⟩ := C98_who fs legacy d (hs d hcf) n part hl r hrp
    have hsvc : svc = req.service := by
      rcases hfm.here.1.1 with h0 | h0
      · rw [hsaid.2.1] at h0; cases h0
      · rw [hsaid.2.1] at h0; exact Option.some.inj h0
    subst hsvc
    rw [keeper_unique hk' hk] at hp
    obtain ⟨a, b, hd, _⟩ := hcf
    exact Or.inr ⟨d, p, by rw [hd]; simp, hp, hsaid⟩
  · exact Or.inl ⟨f, part, hcf, hname, hl, hrp⟩

/-- **C98, only the writers write.** A call of the policy service that changes the content of a file is one of the four services kept
in the file of those who may change the policy. -/
theorem C98_writers (h : Host) (c : AdminConf) (d : Disk) (service arg : Str) (payload : Bytes) (q : Path)
    (hq : (handleAdmin h c d service arg payload).1.content q ≠ d.content q) :
    Keeper service c!"include/admin-policy-rwx" := by
  refine .writer ?_
  unfold handleAdmin at hq
  cases hp : adminPlan h c d service arg payload with
  | error e => rw [hp] at hq; exact absurd rfl hq
  | ok plan =>
    rcases plan_cases hp with hw | ⟨a, _, _, _, rfl⟩ | ⟨a, _, _, rfl⟩
    · obtain ⟨reply, ws⟩ := plan
      simp only at hw
      subst hw
      rw [hp] at hq
      exact absurd rfl hq
    · cases a
      · show c!"policy.Replace" ∈ writers; decide
      · show c!"policy.include.Replace" ∈ writers; decide
    · cases a
      · show c!"policy.Remove" ∈ writers; decide
      · show c!"policy.include.Remove" ∈ writers; decide

/-! ### The policy as it is shipped -/

/-- The policy directory holds the shipped files and no other policy file; the legacy directory has no file that counts. -/
structure AsShipped (fs : FS) (legacy base : Path) : Prop where
  listed : ∃ names, fs.dir base = some names ∧ ∀ n ∈ names, isPolicyFile fs base n = true → n = adminFile ∨ n = c!"35-compat.policy"
  admin : HasShipped fs base
  compat : fs.file (base ++ [c!"35-compat.policy"]) = some (.ok (joinLines shippedCompat))
  ro : fs.file (fs.resolve (joinPath base c!"include/admin-policy-ro")) = some (.ok (joinLines shippedRo))
  rwx : fs.file (fs.resolve (joinPath base c!"include/admin-policy-rwx")) = some (.ok (joinLines shippedRwx))
  legacy : ∃ names, fs.dir legacy = some names ∧ ∀ n ∈ names, isCompatFile fs legacy n = false

set_option maxRecDepth 100000 in
theorem shippedCompat_lines : fileLines (joinLines shippedCompat) = shippedCompat := by decide +kernel

set_option maxRecDepth 100000 in
theorem shippedCompat_says :
    (shippedCompat.filter fun l => !isCommentLine (strip l)) = [c!"!compat-4.0"] := by decide +kernel

set_option maxRecDepth 100000 in
theorem shippedRo_says :
    ((fileLines (joinLines shippedRo)).filter fun l => !isCommentLine (strip l)) = [c!"!include include/admin-policy-rwx"] := by decide +kernel

set_option maxRecDepth 100000 in
theorem shippedRwx_says :
    ((fileLines (joinLines shippedRwx)).filter fun l => !isCommentLine (strip l)) = [] := by decide +kernel

theorem collectRules_nil {α : Type} {f : α → Except Err (List Rule)} (l : List α) (h : ∀ x ∈ l, f x = .ok []) :
    collectRules f l = .ok [] := by
  induction l with
  | nil => rfl
  | cons x xs ih =>
    simp only [collectRules, h x List.mem_cons_self, ih fun y hy => h y (List.mem_cons_of_mem _ hy)]
    rfl

theorem serviceLine_skip {op : Str → Except Err Opened} {load : Option Str → Option Str → Opened → Except Err (List Rule)}
    {s a : Option Str} {p : Path} {l : Str} (h : (!isCommentLine (strip l)) = false) : serviceLine op load s a p l = .ok [] := by
  unfold serviceLine
  simp only [Bool.not_eq_false'] at h
  simp only [h, if_true]

theorem loadService_rwx (op : Str → Except Err Opened) (m : Nat) (s a : Option Str) (p : Path) :
    loadService op (m + 1) s a (fileLines (joinLines shippedRwx), p) = .ok [] := by
  rw [loadService, collectRules_filter (p := fun l => !isCommentLine (strip l)) _ (fun l _ hl => serviceLine_skip hl)]
  rw [shippedRwx_says]
  rfl

theorem resolveFilepath_eq {fs : FS} {base : Path} {inc text : Str} (h : fs.file (fs.resolve (joinPath base inc)) = some (.ok text)) :
    resolveFilepath fs base inc = .ok (fileLines text, fs.resolve (joinPath base inc)) := by
  unfold resolveFilepath
  simp only
  rw [h]
  rfl

/-- A file that only includes the list of those who may change the policy says what that list says. -/
theorem loadService_ro {fs : FS} {base : Path} {text : Str} (h : fs.file (fs.resolve (joinPath base c!"include/admin-policy-rwx")) = some (.ok text))
    (m : Nat) (s : Str) (hv : validateServiceAndArgument (some s) none = .ok (some s, none)) (p : Path) :
    loadService (resolveFilepath fs base) (m + 1) (some s) none (fileLines (joinLines shippedRo), p) =
      loadService (resolveFilepath fs base) m (some s) none (fileLines text, fs.resolve (joinPath base c!"include/admin-policy-rwx")) := by
  rw [loadService, collectRules_filter (p := fun l => !isCommentLine (strip l)) _ (fun l _ hl => serviceLine_skip hl)]
  rw [shippedRo_says]
  have h1 : ∀ load : Option Str → Option Str → Opened → Except Err (List Rule), serviceLine (resolveFilepath fs base) load (some s) none p c!"!include include/admin-policy-rwx" =
      includeService (resolveFilepath fs base) load (some s) none c!"include/admin-policy-rwx" := by
    intro load; rfl
  simp only [collectRules, h1]
  unfold includeService
  rw [hv, resolveFilepath_eq h]
  simp only [ok_bind]
  cases loadService (resolveFilepath fs base) m (some s) none (fileLines text, fs.resolve (joinPath base c!"include/admin-policy-rwx")) with
  | error e => rfl
  | ok l => simp [bind, Except.bind, pure, Except.pure]

theorem loadTopFile_default {fs : FS} {legacy base : Path} (h : AsShipped fs legacy base) (m : Nat) {n : Str}
    (hn : n = adminFile ∨ n = c!"35-compat.policy") : loadTopFile fs legacy (m + 3) (base, n) = .ok [] := by
  rcases hn with rfl | rfl
  · have h1 : loadTopFile fs legacy (m + 3) (base, adminFile) =
        loadFile (policyEnv fs legacy base) (m + 2 + 1) (fileLines (joinLines shippedAdmin), base ++ [adminFile]) := by
      unfold loadTopFile openPath
      have hs' : fs.file ((base, adminFile).1 ++ [(base, adminFile).2]) = some (.ok (joinLines shippedAdmin)) := h.admin
      rw [hs']; rfl
    rw [h1, shippedAdmin_lines, loadFile_shipped]
    refine collectRules_nil _ fun x hx => ?_
    unfold shippedStep includeService
    rw [adminIncludes_valid x hx]
    simp only [ok_bind]
    show (resolveFilepath fs base x.2 >>= fun f => loadService (resolveFilepath fs base) (m + 2) (some x.1) none f) = .ok []
    have hv : validateServiceAndArgument (some x.1) none = .ok (some x.1, none) := by
      have : ∀ x ∈ adminIncludes, validateServiceAndArgument (some x.1) none = .ok (some x.1, none) := by decide
      exact this x hx
    have hk := keeper_of_mem hx
    generalize x.2 = inc at hk
    cases hk with
    | reader _ =>
      rw [resolveFilepath_eq h.ro]
      simp only [ok_bind]
      rw [loadService_ro h.rwx _ _ hv]
      exact loadService_rwx ..
    | writer _ =>
      rw [resolveFilepath_eq h.rwx]
      simp only [ok_bind]
      exact loadService_rwx ..
  · have h1 : loadTopFile fs legacy (m + 3) (base, c!"35-compat.policy") =
        loadFile (policyEnv fs legacy base) (m + 2 + 1) (fileLines (joinLines shippedCompat), base ++ [c!"35-compat.policy"]) := by
      unfold loadTopFile openPath
      have hs' : fs.file ((base, c!"35-compat.policy").1 ++ [(base, c!"35-compat.policy").2]) = some (.ok (joinLines shippedCompat)) := h.compat
      rw [hs']; rfl
    rw [h1, shippedCompat_lines, loadFile, collectRules_filter (p := fun l => !isCommentLine (strip l)), shippedCompat_says]
    · have h2 : fileLine (policyEnv fs legacy base) (m + 2) (loadFile (policyEnv fs legacy base) (m + 2)) (base ++ [c!"35-compat.policy"]) c!"!compat-4.0" =
          compat40 fs legacy (m + 2) := rfl
      refine collectRules_nil _ fun x hx => ?_
      rw [List.mem_singleton] at hx
      subst hx
      rw [h2]
      obtain ⟨names, hd, hno⟩ := h.legacy
      unfold compat40 walkCompat
      rw [hd]
      have : names.filter (isCompatFile fs legacy) = [] := by
        rw [List.filter_eq_nil_iff]
        intro a ha
        simp [hno a ha]
      simp only [this]
      rfl
    · intro l _ hl
      unfold fileLine
      simp only [Bool.not_eq_false'] at hl
      simp only [hl, if_true]

/-- **C98, nobody by default.** With the policy files as they are shipped, no other policy file and an empty legacy directory, the
policy loads, and every request is refused. -/
theorem C98_default (fs : FS) (legacy base : Path) (h : AsShipped fs legacy base) (n : Nat) (hn : 3 ≤ n) :
    ∃ rules, filePolicy fs legacy [base] n = .ok rules ∧ ∀ req, evaluate rules req = .error (.accessDenied true) := by
  refine ⟨[], ?_, fun req => rfl⟩
  obtain ⟨m, rfl⟩ : ∃ m, n = m + 3 := ⟨n - 3, by omega⟩
  obtain ⟨names, hd, hno⟩ := h.listed
  refine wrapOSError_ok.2 ?_
  unfold loadPolicyDirs selectFiles
  rw [hd]
  unfold filterFilepaths
  have hk : ∀ x ∈ names.filter (isPolicyFile fs base), x = adminFile ∨ x = c!"35-compat.policy" := by
    intro x hx
    rw [List.mem_filter] at hx
    exact hno x hx.1 hx.2
  have hall : ((names.filter (isPolicyFile fs base)).all fun n => n.all fileNameChar) = true := by
    rw [List.all_eq_true]
    intro x hx
    rcases hk x hx with rfl | rfl <;> decide
  simp only [hall]
  show (Except.bind _ _) = _
  simp only [require, if_true, selectFiles, bind, Except.bind, pure, Except.pure]
  refine collectRules_nil _ fun f hf => ?_
  rw [mem_sortBy] at hf
  simp only [List.append_nil, List.mem_map, List.mem_filter, mem_sortBy] at hf
  obtain ⟨x, ⟨hx, _⟩, rfl⟩ := hf
  exact loadTopFile_default h m (hk x (List.mem_filter.2 hx))

/-! ### Those who may change the policy may read it -/

/-- The same rule for another service. -/
def setService (s : Str) (r : Rule) : Rule := { r with service := some s }

theorem except_map_bind {α β γ : Type} {x : Except Err α} {g : α → Except Err β} {k : β → γ} :
    (x >>= g).map k = x >>= fun a => (g a).map k := by
  cases x <;> rfl

theorem collectRules_mapRules {α : Type} {k : Rule → Rule} {f g : α → Except Err (List Rule)} (h : ∀ x, f x = (g x).map (List.map k)) (l : List α) :
    collectRules f l = (collectRules g l).map (List.map k) := by
  induction l with
  | nil => rfl
  | cons x xs ih =>
    simp only [collectRules, h, ih]
    cases g x with
    | error e => rfl
    | ok a =>
      cases collectRules g xs with
      | error e => rfl
      | ok b => simp [Except.map, bind, Except.bind, pure, Except.pure]

theorem mkRule_setService {s s' : Str} (hs : validateServiceAndArgument (some s) none = .ok (some s, none))
    (hs' : validateServiceAndArgument (some s') none = .ok (some s', none)) (src tgt act : Str) (ps : List Str) (p : List Str) :
    mkRule (some s) none src tgt act ps p = (mkRule (some s') none src tgt act ps p).map (setService s) := by
  unfold mkRule
  rw [hs, hs']
  simp only [ok_bind]
  cases parseToken .source src with
  | error e => rfl
  | ok a =>
    cases parseToken .target tgt with
    | error e => rfl
    | ok b =>
      cases parseAction act ps with
      | error e => rfl
      | ok c =>
        simp only [ok_bind]
        cases hr : (!(b == Token.default && allowWithoutTarget c)) <;> simp [require, Except.map, bind, Except.bind, pure, Except.pure, setService]

theorem loadService_setService (op : Str → Except Err Opened) {s s' : Str} (hs : validateServiceAndArgument (some s) none = .ok (some s, none))
    (hs' : validateServiceAndArgument (some s') none = .ok (some s', none)) (n : Nat) : ∀ f,
    loadService op n (some s) none f = (loadService op n (some s') none f).map (List.map (setService s)) := by
  induction n with
  | zero => intro f; rfl
  | succ n ih =>
    intro f
    rw [loadService, loadService]
    refine collectRules_mapRules (fun line => ?_) f.1
    unfold serviceLine
    by_cases h1 : isCommentLine (strip line) = true
    · simp only [h1, if_true]; rfl
    · simp only [if_neg h1]
      by_cases h2 : startsWith c!"!" (compatSubst (strip line)) = true
      · simp only [if_pos h2]
        unfold serviceDirective
        split
        · split
          · unfold includeService
            rw [hs, hs']
            simp only [ok_bind, ih, except_map_bind]
          · rfl
        · rfl
      · simp only [if_neg h2]
        rw [except_map_bind]
        unfold ruleFromLineService
        split
        · split
          · rw [mkRule_setService hs hs']
            cases mkRule (some s') none _ _ _ _ _ <;> rfl
          · rfl
        · rfl

/-- The rules of the shipped file, when the list of readers is as shipped: the list of writers, once for each service. -/
theorem shipped_rules {fs : FS} {legacy base : Path} (hs : HasShipped fs base)
    (hro : fs.file (fs.resolve (joinPath base c!"include/admin-policy-ro")) = some (.ok (joinLines shippedRo)))
    {n : Nat} {rules : List Rule} (h : loadTopFile fs legacy n (base, adminFile) = .ok rules) :
    ∃ rs : List Rule, rules = (adminIncludes.map fun x => rs.map (setService x.1)).flatten := by
  obtain ⟨m, _, h'⟩ := loadTopFile_shipped hs h
  clear h
  obtain ⟨parts, hp, rfl⟩ := collectRules_ok.1 h'
  have hv : ∀ x ∈ adminIncludes, validateServiceAndArgument (some x.1) none = .ok (some x.1, none) := by decide
  have hv0 : validateServiceAndArgument (some c!"policy.Replace") none = .ok (some c!"policy.Replace", none) := by decide
  have hstep : ∀ x ∈ adminIncludes, ∀ p, shippedStep (resolveFilepath fs base) m x = .ok p →
      ∃ text, fs.file (fs.resolve (joinPath base c!"include/admin-policy-rwx")) = some (.ok text) ∧
        ∃ m' ≤ m, loadService (resolveFilepath fs base) m' (some x.1) none (fileLines text, fs.resolve (joinPath base c!"include/admin-policy-rwx")) = .ok p := by
    intro x hx p hstep
    unfold shippedStep includeService at hstep
    rw [adminIncludes_valid x hx] at hstep
    obtain ⟨sa, hsa, hstep⟩ := bind_eq_ok.1 hstep
    cases hsa
    have hk := keeper_of_mem hx
    generalize x.2 = inc at hk hstep
    obtain ⟨f, hf, hl⟩ := bind_eq_ok.1 hstep
    cases hk with
    | writer _ =>
      obtain ⟨text, ht, rfl⟩ := resolveFilepath_ok hf
      exact ⟨text, ht, m, Nat.le_refl _, hl⟩
    | reader _ =>
      rw [resolveFilepath_eq hro] at hf
      cases hf
      cases m with
      | zero => cases hl
      | succ m =>
        have hl0 := hl
        rw [loadService, collectRules_filter (p := fun l => !isCommentLine (strip l)) _ (fun l _ hl => serviceLine_skip hl)] at hl
        rw [shippedRo_says] at hl
        simp only [collectRules] at hl
        obtain ⟨a, ha, _⟩ := bind_eq_ok.1 hl
        have h1 : serviceLine (resolveFilepath fs base) (loadService (resolveFilepath fs base) m) (some x.1) none
            (fs.resolve (joinPath base c!"include/admin-policy-ro")) c!"!include include/admin-policy-rwx" =
            includeService (resolveFilepath fs base) (loadService (resolveFilepath fs base) m) (some x.1) none c!"include/admin-policy-rwx" := rfl
        rw [h1] at ha
        unfold includeService at ha
        rw [hv x hx] at ha
        obtain ⟨sa, hsa, ha⟩ := bind_eq_ok.1 ha
        cases hsa
        obtain ⟨f, hf, _⟩ := bind_eq_ok.1 ha
        obtain ⟨text, ht, rfl⟩ := resolveFilepath_ok hf
        rw [loadService_ro ht m x.1 (hv x hx)] at hl0
        exact ⟨text, ht, m, Nat.le_succ _, hl0⟩
  -- the list of writers, for the first of its services
  have hmem : (c!"policy.Replace", c!"include/admin-policy-rwx") ∈ adminIncludes := by decide
  obtain ⟨rs, hrs, hrs'⟩ := forall₂_mem_left hp hmem
  obtain ⟨text, ht, m0, hm0, hl0⟩ := hstep _ hmem _ hrs'
  refine ⟨rs, congrArg List.flatten ?_⟩
  have key : ∀ x ∈ adminIncludes, ∀ p, shippedStep (resolveFilepath fs base) m x = .ok p → p = rs.map (setService x.1) := by
    intro x hx p hxp
    obtain ⟨text', ht', m1, hm1, hl1⟩ := hstep x hx p hxp
    rw [ht] at ht'
    cases ht'
    have up : ∀ (k : Nat) (s : Str) (q : List Rule), k ≤ m →
        loadService (resolveFilepath fs base) k (some s) none (fileLines text, fs.resolve (joinPath base c!"include/admin-policy-rwx")) = .ok q →
        loadService (resolveFilepath fs base) m (some s) none (fileLines text, fs.resolve (joinPath base c!"include/admin-policy-rwx")) = .ok q := by
      intro k s q hk hq
      rcases loadService_mono (resolveFilepath fs base) hk (some s) none _ with h | h
      · rw [hq] at h; cases h
      · rw [← h, hq]
    have e1 := up m1 _ _ hm1 hl1
    rw [loadService_setService _ (hv x hx) hv0, up m0 _ _ hm0 hl0] at e1
    exact (Except.ok.inj e1).symm
  clear hrs hrs' hl0 hstep h' hmem
  generalize adminIncludes = tbl at hp key
  induction hp with
  | nil => rfl
  | @cons x p xs ps hxp _ ih =>
    rw [List.map_cons, ← key x List.mem_cons_self p hxp, ih fun y hy => key y (List.mem_cons_of_mem _ hy)]

theorem first_of_exists {α : Type} {P : α → Prop} : ∀ (l : List α), (∃ x ∈ l, P x) → ∃ a x b, l = a ++ x :: b ∧ (∀ y ∈ a, ¬ P y) ∧ P x := by
  intro l
  induction l with
  | nil => rintro ⟨x, hx, _⟩; cases hx
  | cons y ys ih =>
    intro h
    by_cases hy : P y
    · exact ⟨[], y, ys, rfl, (fun z hz => by cases hz), hy⟩
    · obtain ⟨x, hx, hPx⟩ := h
      have : ∃ x ∈ ys, P x := by
        rcases List.mem_cons.1 hx with rfl | hx
        · exact absurd hPx hy
        · exact ⟨x, hx, hPx⟩
      obtain ⟨a, z, b, rfl, ha, hz⟩ := ih this
      refine ⟨y :: a, z, b, rfl, fun w hw => ?_, hz⟩
      rcases List.mem_cons.1 hw with rfl | hw
      · exact hy
      · exact ha w hw

theorem setService_matches {s : Str} {r : Rule} {req : Request} (ha : r.argument = none) :
    RuleMatches (setService s r) req ↔ s = req.service ∧ Covers req.info req.source r.source (.name req.source) ∧ Covers req.info req.source r.target req.target := by
  constructor
  · rintro ⟨⟨h1, _, h3⟩, h4⟩
    refine ⟨?_, h3, h4⟩
    rcases h1 with h1 | h1
    · cases h1
    · exact Option.some.inj h1
  · rintro ⟨rfl, h3, h4⟩
    exact ⟨⟨Or.inr rfl, Or.inl ha, h3⟩, h4⟩

/-- **C98, who may change the policy may read it.** With the shipped file and the shipped list of readers — whatever the list of those
who may change the policy says — a request to change the policy and a request to read it, from the same qube to the same target,
are decided by the same rule of these files. -/
theorem C98_read_too (fs : FS) (legacy base : Path) (hs : HasShipped fs base)
    (hro : fs.file (fs.resolve (joinPath base c!"include/admin-policy-ro")) = some (.ok (joinLines shippedRo)))
    (n : Nat) (rules : List Rule) (h : loadTopFile fs legacy n (base, adminFile) = .ok rules)
    (req : Request) (hw : req.service ∈ writers) (pre : List Rule) (r : Rule) (post : List Rule) (hf : FirstMatch rules pre r post req)
    (s : Str) (hsr : s ∈ readers) (a : Str) :
    ∃ pre' post', FirstMatch rules pre' { r with service := some s } post' { req with service := s, argument := a } := by
  obtain ⟨rs, hrs⟩ := shipped_rules hs hro h
  have harg : ∀ r ∈ rs, r.argument = none := by
    intro r hr
    have : setService c!"policy.Get" r ∈ rules := by
      rw [hrs, List.mem_flatten]
      refine ⟨rs.map (setService c!"policy.Get"), ?_, List.mem_map_of_mem hr⟩
      exact List.mem_map.2 ⟨(c!"policy.Get", c!"include/admin-policy-ro"), by decide, rfl⟩
    obtain ⟨_, _, _, _, _, hsaid⟩ := C98_who fs legacy base hs n rules h _ this
    exact hsaid.2.2.1
  -- the first rule of the list that fits decides, for each service
  have main : ∀ (q : Request), q.service ∈ readers ++ writers → ∀ b1 r0 b2, rs = b1 ++ r0 :: b2 →
      (∀ y ∈ b1, ¬ (Covers q.info q.source y.source (.name q.source) ∧ Covers q.info q.source y.target q.target)) →
      (Covers q.info q.source r0.source (.name q.source) ∧ Covers q.info q.source r0.target q.target) →
      ∃ p1 p2, FirstMatch rules p1 (setService q.service r0) p2 q := by
    intro q hq b1 r0 b2 hb hb1 hr0
    have htbl : ∃ inc, (q.service, inc) ∈ adminIncludes := by
      have : ∀ x ∈ readers ++ writers, (x, c!"include/admin-policy-ro") ∈ adminIncludes ∨ (x, c!"include/admin-policy-rwx") ∈ adminIncludes := by decide
      rcases this _ hq with h | h
      · exact ⟨_, h⟩
      · exact ⟨_, h⟩
    obtain ⟨inc, hinc⟩ := htbl
    obtain ⟨ta, tb, ht⟩ := List.append_of_mem hinc
    have hnd : (adminIncludes.map Prod.fst).Nodup := by decide
    rw [ht, List.map_append, List.map_cons, List.nodup_append] at hnd
    have hbefore : ∀ x ∈ ta, x.1 ≠ q.service := fun x hx =>
      hnd.2.2 _ (List.mem_map_of_mem hx) _ List.mem_cons_self
    refine ⟨(ta.map fun x => rs.map (setService x.1)).flatten ++ b1.map (setService q.service),
      b2.map (setService q.service) ++ (tb.map fun x => rs.map (setService x.1)).flatten, ?_, ?_, ?_⟩
    · rw [hrs, ht, List.map_append, List.flatten_append, List.map_cons, List.flatten_cons]
      simp only [List.append_assoc]
      congr 1
      rw [hb]
      simp
    · intro x hx
      rcases List.mem_append.1 hx with hx | hx
      · obtain ⟨l, hl, hx⟩ := List.mem_flatten.1 hx
        obtain ⟨t, ht', rfl⟩ := List.mem_map.1 hl
        obtain ⟨y, hy, rfl⟩ := List.mem_map.1 hx
        intro hm
        exact hbefore t ht' ((setService_matches (harg y hy)).1 hm).1
      · obtain ⟨y, hy, rfl⟩ := List.mem_map.1 hx
        intro hm
        exact hb1 y hy ((setService_matches (harg y (by rw [hb]; simp [hy]))).1 hm).2
    · exact (setService_matches (harg r0 (by rw [hb]; simp))).2 ⟨rfl, hr0⟩
  have hex : ∃ x ∈ rs, Covers req.info req.source x.source (.name req.source) ∧ Covers req.info req.source x.target req.target := by
    have hr : r ∈ rules := by rw [hf.split]; simp
    rw [hrs] at hr
    obtain ⟨l, hl, hr⟩ := List.mem_flatten.1 hr
    obtain ⟨t, ht', rfl⟩ := List.mem_map.1 hl
    obtain ⟨y, hy, rfl⟩ := List.mem_map.1 hr
    exact ⟨y, hy, ((setService_matches (harg y hy)).1 hf.here).2⟩
  obtain ⟨b1, r0, b2, hb, hb1, hr0⟩ := first_of_exists rs hex
  obtain ⟨p1, p2, h1⟩ := main req (List.mem_append.2 (Or.inr hw)) b1 r0 b2 hb hb1 hr0
  have hr := firstMatch_unique hf h1
  subst hr
  obtain ⟨p3, p4, h2⟩ := main { req with service := s, argument := a } (List.mem_append.2 (Or.inl hsr)) b1 r0 b2 hb hb1 hr0
  exact ⟨p3, p4, h2⟩

/-! ### A concrete case -/

/-- The shipped policy in `/p`, with one line added to the list of those who may change it. -/
def shippedFS (rwx : Str) : FS where
  resolve := id
  file := fun p =>
    if p = [c!"p", adminFile] then some (.ok (joinLines shippedAdmin))
    else if p = [c!"p", c!"35-compat.policy"] then some (.ok (joinLines shippedCompat))
    else if p = [c!"p", c!"README"] then some (.ok [])
    else if p = [c!"p", c!"include", c!"admin-policy-ro"] then some (.ok (joinLines shippedRo))
    else if p = [c!"p", c!"include", c!"admin-policy-rwx"] then some (.ok rwx)
    else none
  dir := fun p =>
    if p = [c!"p"] then some [c!"README", adminFile, c!"include", c!"35-compat.policy"]
    else if p = [c!"l"] then some [c!"include"]
    else none

set_option maxRecDepth 100000 in
example : AsShipped (shippedFS (joinLines shippedRwx)) [c!"l"] [c!"p"] :=
  ⟨⟨_, rfl, by decide +kernel⟩, rfl, rfl, rfl, rfl, ⟨_, rfl, by decide +kernel⟩⟩

/-- The rules of the shipped file when a line is added for the qube `boss`. -/
def bossRules : Except Err (List Rule) :=
  loadTopFile (shippedFS (joinLines (shippedRwx ++ [c!"boss @adminvm allow"]))) [c!"l"] 5 ([c!"p"], adminFile)

set_option maxRecDepth 100000 in
example : bossRules.map (List.map fun r => (r.service, r.source, r.target)) =
    .ok (adminIncludes.map fun x => (some x.1, Token.name c!"boss", Token.adminvm)) := by decide +kernel

end Qrexec
