import Verif.Model.PolicyCli
import Verif.Props.AdminClient
import Verif.Props.PolicyEditor

/-!
# C86: qubes-policy
-/
namespace Qrexec
open Spec

/-- The name on the command line: a directory, or a file in it. -/
inductive CliName : Str → Area → Str → Prop
  | none : CliName [] .policy []
  | inclDir : CliName c!"include" .incl []
  | inclDirSlash : CliName c!"include/" .incl []
  | policy {n} : n ≠ [] → n ≠ c!"include" → (∀ ch ∈ n, NameChar ch) → CliName n .policy n
  | incl {n} : n ≠ [] → (∀ ch ∈ n, NameChar ch) → CliName (c!"include/" ++ n) .incl n

/-- What the program says for an error of the server. -/
inductive CliShows (msg : AdminErr → Str) : AdminErr → CliEnd → Prop
  | refused (e : AdminErr) (h : ∀ x, e ≠ .internal x) (h' : e ≠ .died) : CliShows msg e (.refused (msg e))
  | internal (x : Err) : CliShows msg (.internal x) .failed
  | died : CliShows msg .died .failed

theorem cli_shows {msg : AdminErr → Str} {text : Bytes} {e : AdminErr} {x : ClientErr} (h : ClientShows msg text e x) :
    CliShows msg e (cliError x) := by
  cases h
  case internal => exact .internal _
  case died => exact .died
  all_goals exact .refused _ (by intro x h; cases h) (by intro h; cases h)

theorem cliName_all (s : Str) : s.all rpcNameChar = true ↔ ∀ ch ∈ s, NameChar ch := by
  rw [List.all_eq_true]
  exact ⟨fun h x hx => (nameChar_iff x).1 (h x hx), fun h x hx => (nameChar_iff x).2 (h x hx)⟩

/-- What `main` makes of the name. -/
theorem cliName_iff (arg : Str) (a : Area) (n : Str) : CliName arg a n ↔
    (arg == c!"include" || startsWith c!"include/" arg) = a.isInclude ∧
    (if (arg == c!"include" || startsWith c!"include/" arg) then arg.drop 8 else arg) = n ∧ n.all rpcNameChar = true := by
  have hslash : ¬ NameChar '/' := by rw [← nameChar_iff]; decide
  constructor
  · intro h
    cases h with
    | none => exact ⟨rfl, rfl, rfl⟩
    | inclDir => exact ⟨rfl, rfl, rfl⟩
    | inclDirSlash => exact ⟨rfl, rfl, rfl⟩
    | policy h1 h2 h3 =>
      have hb : (arg == c!"include" || startsWith c!"include/" arg) = false := by
        rw [Bool.or_eq_false_iff]
        refine ⟨by simpa using h2, ?_⟩
        rw [startsWith_false]
        rintro ⟨t, rfl⟩
        exact hslash (h3 '/' (by simp))
      rw [hb]
      exact ⟨rfl, rfl, (cliName_all _).2 h3⟩
    | incl h1 h2 =>
      have hb : ((c!"include/" ++ n) == c!"include" || startsWith c!"include/" (c!"include/" ++ n)) = true := by
        rw [Bool.or_eq_true]
        right
        exact startsWith_iff.2 ⟨n, rfl⟩
      rw [hb]
      exact ⟨rfl, rfl, (cliName_all _).2 h2⟩
  · rintro ⟨h1, h2, h3⟩
    by_cases hi : (arg == c!"include" || startsWith c!"include/" arg) = true
    · rw [if_pos hi] at h2
      rw [hi] at h1
      have ha : a = .incl := by cases a <;> first | rfl | cases h1
      subst ha
      rcases Bool.or_eq_true .. ▸ hi with h | h
      · have : arg = c!"include" := by simpa using h
        subst this
        subst h2
        exact .inclDir
      · obtain ⟨t, rfl⟩ := startsWith_iff.1 h
        have : t = n := h2
        subst this
        cases t with
        | nil => exact .inclDirSlash
        | cons x t => exact .incl (by simp) ((cliName_all _).1 h3)
    · rw [if_neg hi] at h2
      have hi' : (arg == c!"include" || startsWith c!"include/" arg) = false := by simpa using hi
      rw [hi'] at h1
      have ha : a = .policy := by cases a <;> first | rfl | cases h1
      subst ha h2
      cases arg with
      | nil => exact .none
      | cons x t =>
        refine .policy (by simp) ?_ ((cliName_all _).1 h3)
        intro e
        rw [e] at hi
        exact hi rfl

section
variable (h : Host) (enc : Str → Bytes) (u : Utf8 h enc) (hh : HexHash h) (msg : AdminErr → Str) (log : Str)
  (c : AdminConf) (d : Disk) (inDom0 : Option Bool) (run : Disk → List Str → Bytes → Disk × ProcEnd)

/-- A command line with a name runs the method for that file, and for no other. -/
theorem cliMain_file (method : CliMethod) (arg : Str) (stdin : Bytes) (a : Area) (n : Str) (hm : method ≠ .list)
    (hn : CliName arg a n) (hne : n ≠ []) :
    cliMain h enc inDom0 run d method arg stdin = cliRun h enc inDom0 run d method n a.isInclude stdin := by
  obtain ⟨h1, h2, h3⟩ := (cliName_iff arg a n).1 hn
  unfold cliMain
  dsimp only
  rw [h2, h1, if_neg (by rw [h3]; simp), if_neg (by simp [hm]), if_neg (by cases n with | nil => exact absurd rfl hne | cons => simp)]

/-- A command line without a name lists the directory. -/
theorem cliMain_dir (arg : Str) (stdin : Bytes) (a : Area) (hn : CliName arg a []) :
    cliMain h enc inDom0 run d .list arg stdin = cliRun h enc inDom0 run d .list [] a.isInclude stdin := by
  obtain ⟨h1, h2, h3⟩ := (cliName_iff arg a []).1 hn
  unfold cliMain
  dsimp only
  rw [h2, h1, if_neg (by simp), if_neg (by simp), if_neg (by simp)]

/-- **C86, command lines.** A name with other characters, a name with `-l`, or no name with another option: nothing is done
and the status is 2. -/
theorem C86_usage (method : CliMethod) (arg : Str) (stdin : Bytes) :
    ((∀ a n, ¬ CliName arg a n) ∨ (method = .list ∧ ∀ a, ¬ CliName arg a []) ∨ (method ≠ .list ∧ ∃ a, CliName arg a [])) ↔
      cliMain h enc inDom0 run d method arg stdin = (d, .usage) := by
  have hex : ∃ a : Area, (arg == c!"include" || startsWith c!"include/" arg) = a.isInclude := by
    cases (arg == c!"include" || startsWith c!"include/" arg)
    · exact ⟨.policy, rfl⟩
    · exact ⟨.incl, rfl⟩
  obtain ⟨a, ha⟩ := hex
  have uniq : ∀ b m, CliName arg b m → m = (if (arg == c!"include" || startsWith c!"include/" arg) then arg.drop 8 else arg) := by
    intro b m hb
    exact ((cliName_iff arg b m).1 hb).2.1.symm
  generalize hname : (if (arg == c!"include" || startsWith c!"include/" arg) then arg.drop 8 else arg) = name at uniq
  have isn : name.all rpcNameChar = true → CliName arg a name := by
    intro hall
    rw [cliName_iff]
    exact ⟨ha, hname, hall⟩
  have nerr : ∀ e, cliError e ≠ .usage := by intro e; cases e <;> simp [cliError]
  have hrun : cliRun h enc inDom0 run d method name a.isInclude stdin ≠ (d, .usage) := by
    intro he
    have he : (cliRun h enc inDom0 run d method name a.isInclude stdin).2 = .usage := congrArg Prod.snd he
    unfold cliRun at he
    cases method with
    | list =>
      dsimp only at he
      split at he
      · cases he
      · exact nerr _ he
    | get =>
      dsimp only at he
      split at he
      · cases he
      · exact nerr _ he
    | replace =>
      dsimp only at he
      split at he
      · cases he
      · split at he
        · cases he
        · exact nerr _ he
    | remove =>
      dsimp only at he
      split at he
      · cases he
      · exact nerr _ he
  unfold cliMain
  dsimp only
  rw [hname, ha]
  by_cases h1 : name.all rpcNameChar = true
  · rw [if_neg (by rw [h1]; simp)]
    have hc := isn h1
    by_cases h2 : (method == .list && !name.isEmpty) = true
    · rw [if_pos h2]
      refine iff_of_true ?_ rfl
      rw [Bool.and_eq_true] at h2
      refine .inr (.inl ⟨by simpa using h2.1, ?_⟩)
      intro b hb
      have := uniq b [] hb
      rw [← this] at h2
      simp at h2
    rw [if_neg h2]
    by_cases h3 : (method != .list && name.isEmpty) = true
    · rw [if_pos h3]
      refine iff_of_true ?_ rfl
      rw [Bool.and_eq_true] at h3
      have hnil : name = [] := by simpa using h3.2
      exact .inr (.inr ⟨by simpa using h3.1, a, by rw [← hnil]; exact hc⟩)
    rw [if_neg h3]
    refine iff_of_false ?_ hrun
    rintro (k | ⟨k1, k2⟩ | ⟨k1, b, k2⟩)
    · exact k a name hc
    · subst k1
      have : name = [] := by
        cases name with
        | nil => rfl
        | cons => simp at h2
      exact k2 a (by rw [← this]; exact hc)
    · have := uniq b [] k2
      rw [← this] at h3
      simp [k1] at h3
  · rw [if_pos (by simpa using h1)]
    refine iff_of_true (.inl ?_) rfl
    intro b m hb
    apply h1
    rw [← uniq b m hb]
    exact ((cliName_iff arg b m).1 hb).2.2

include u hh in
/-- **C86, `-g`.** The content of the named file is written, without white space at its end; nothing changes. -/
theorem C86_get (arg : Str) (stdin : Bytes) (a : Area) (n : Str) (hn : CliName arg a n) (hne : n ≠ [])
    (hcar : Carried inDom0 run (adminMain h enc msg log c) (a.prefix ++ c!"Get") (some n)) :
    (cliMain h enc inDom0 run d .get arg stdin).1 = d ∧
    (∀ r, ((Call.get a n).run h c d).2 = .ok r → ∃ data, d.content (fileOf c d a n) = some data ∧
      ((∃ text tail, enc (text ++ tail) = data ∧ (∀ ch ∈ tail, isSpace ch = true) ∧
          (∀ ch, text.getLast? = some ch → isSpace ch = false) ∧
          (cliMain h enc inDom0 run d .get arg stdin).2 = .ok (text ++ c!"\n")) ∨
        ((∀ text, enc text ≠ data) ∧ (cliMain h enc inDom0 run d .get arg stdin).2 = .raised))) ∧
    (∀ e, ((Call.get a n).run h c d).2 = .error e → CliShows msg e (cliMain h enc inDom0 run d .get arg stdin).2) := by
  rw [cliMain_file h enc d inDom0 run .get arg stdin a n (by simp) hn hne]
  obtain ⟨g1, g2, g3⟩ := C78_get h enc u hh msg log c d inDom0 run a n hcar
  unfold cliRun
  dsimp only
  generalize policyGet h enc inDom0 run d n a.isInclude = r at g1 g2 g3
  obtain ⟨st, res⟩ := r
  dsimp only at g1 g2 g3
  subst g1
  refine ⟨?_, ?_, ?_⟩
  · cases res with
    | ok v => rfl
    | error e => rfl
  · intro r hr
    obtain ⟨data, hd, hx⟩ := g2 r hr
    refine ⟨data, hd, ?_⟩
    rcases hx with ⟨text, ht, rfl⟩ | ⟨hno, rfl⟩
    · left
      refine ⟨rstripAll text, (text.reverse.takeWhile isSpace).reverse, ?_, ?_, ?_, rfl⟩
      · rw [← ht]
        congr 1
        unfold rstripAll lstrip
        rw [← List.reverse_append, List.takeWhile_append_dropWhile, List.reverse_reverse]
      · intro ch hc
        rw [List.mem_reverse] at hc
        exact List.all_eq_true.1 (List.all_takeWhile ..) ch hc
      · intro ch hc
        unfold rstripAll lstrip at hc
        rw [List.getLast?_reverse] at hc
        have := List.head?_dropWhile_not isSpace text.reverse
        rw [hc] at this
        simpa using this
    · right
      exact ⟨hno, rfl⟩
  · intro e he
    obtain ⟨x, hx, rfl⟩ := g3 e he
    exact cli_shows hx

include u in
/-- **C86, `-r`.** The named file is replaced by the standard input, whatever it was before ("any"); line ends become
newlines. The answer of the server is reported. -/
theorem C86_replace (arg : Str) (text : Str) (a : Area) (n : Str) (hn : CliName arg a n) (hne : n ≠ [])
    (hcar : Carried inDom0 run (adminMain h enc msg log c) (a.prefix ++ c!"Replace") (some n)) :
    (cliMain h enc inDom0 run d .replace arg (enc text)).1 =
      ((Call.replace a n c!"any" (enc (universalNewlines text))).run h c d).1 ∧
    (∀ r, ((Call.replace a n c!"any" (enc (universalNewlines text))).run h c d).2 = .ok r →
      (cliMain h enc inDom0 run d .replace arg (enc text)).2 = .ok []) ∧
    (∀ e, ((Call.replace a n c!"any" (enc (universalNewlines text))).run h c d).2 = .error e →
      CliShows msg e (cliMain h enc inDom0 run d .replace arg (enc text)).2) := by
  rw [cliMain_file h enc d inDom0 run .replace arg _ a n (by simp) hn hne]
  obtain ⟨g1, g2, g3⟩ := C78_replace h enc u msg log c d inDom0 run a n (universalNewlines text) c!"any" hcar
  have hany : enc c!"any" = c!"any" := u.ascii_all _ (by decide)
  rw [hany] at g1 g2 g3
  unfold cliRun
  dsimp only
  rw [u.decode_enc]
  dsimp only
  generalize policyReplace h enc inDom0 run d n (universalNewlines text) c!"any" a.isInclude = r at g1 g2 g3
  obtain ⟨st, res⟩ := r
  dsimp only at g1 g2 g3
  subst g1
  refine ⟨?_, ?_, ?_⟩
  · cases res with
    | ok v => rfl
    | error e => rfl
  · intro r hr
    rw [g2 r hr]
  · intro e he
    obtain ⟨x, hx, rfl⟩ := g3 e he
    exact cli_shows hx

/-- **C86, input.** If the standard input is no text, nothing is done. -/
theorem C86_no_text (arg : Str) (stdin : Bytes) (a : Area) (n : Str) (hn : CliName arg a n) (hne : n ≠ [])
    (hd : h.decode stdin = none) : cliMain h enc inDom0 run d .replace arg stdin = (d, .raised) := by
  rw [cliMain_file h enc d inDom0 run .replace arg _ a n (by simp) hn hne]
  unfold cliRun
  dsimp only
  rw [hd]

include u in
/-- **C86, `-d`.** The named file is removed, whatever it is. -/
theorem C86_remove (arg : Str) (stdin : Bytes) (a : Area) (n : Str) (hn : CliName arg a n) (hne : n ≠ [])
    (hcar : Carried inDom0 run (adminMain h enc msg log c) (a.prefix ++ c!"Remove") (some n)) :
    (cliMain h enc inDom0 run d .remove arg stdin).1 = ((Call.remove a n c!"any").run h c d).1 ∧
    (∀ r, ((Call.remove a n c!"any").run h c d).2 = .ok r → (cliMain h enc inDom0 run d .remove arg stdin).2 = .ok []) ∧
    (∀ e, ((Call.remove a n c!"any").run h c d).2 = .error e →
      CliShows msg e (cliMain h enc inDom0 run d .remove arg stdin).2) := by
  rw [cliMain_file h enc d inDom0 run .remove arg _ a n (by simp) hn hne]
  obtain ⟨g1, g2, g3⟩ := C78_remove h enc u msg log c d inDom0 run a n c!"any" hcar
  have hany : enc c!"any" = c!"any" := u.ascii_all _ (by decide)
  rw [hany] at g1 g2 g3
  unfold cliRun
  dsimp only
  generalize policyRemove h enc inDom0 run d n c!"any" a.isInclude = r at g1 g2 g3
  obtain ⟨st, res⟩ := r
  dsimp only at g1 g2 g3
  subst g1
  refine ⟨?_, ?_, ?_⟩
  · cases res with
    | ok v => rfl
    | error e => rfl
  · intro r hr
    rw [g2 r hr]
  · intro e he
    obtain ⟨x, hx, rfl⟩ := g3 e he
    exact cli_shows hx

include u in
/-- **C86, `-l`.** The names of the files of the directory are written, one per line and sorted; for an empty directory an
empty line is written. Nothing changes. -/
theorem C86_list (arg : Str) (stdin : Bytes) (a : Area) (hn : CliName arg a [])
    (hcar : Carried inDom0 run (adminMain h enc msg log c) (a.prefix ++ c!"List") none)
    (hnames : ∀ n, HasName c d a n → n ≠ [] ∧ '\n' ∉ n) :
    (cliMain h enc inDom0 run d .list arg stdin).1 = d ∧
    (∀ r, ((Call.list a).run h c d).2 = .ok r → ∃ names : List Str,
      (∀ n, n ∈ names ↔ HasName c d a n) ∧ names.Pairwise (fun x y => strLe x y = true) ∧
      (cliMain h enc inDom0 run d .list arg stdin).2 =
        .ok (if names = [] then c!"\n" else names.flatMap (· ++ c!"\n"))) ∧
    (∀ e, ((Call.list a).run h c d).2 = .error e → CliShows msg e (cliMain h enc inDom0 run d .list arg stdin).2) := by
  rw [cliMain_dir h enc d inDom0 run arg stdin a hn]
  obtain ⟨g1, g2, g3, g4⟩ := C78_list_partial h enc u msg log c d inDom0 run a hcar
  unfold cliRun
  dsimp only
  generalize policyList h enc inDom0 run d a.isInclude = r at g1 g2 g3 g4
  obtain ⟨st, res⟩ := r
  dsimp only at g1 g2 g3 g4
  subst g1
  refine ⟨?_, ?_, ?_⟩
  · cases res with
    | ok v => rfl
    | error e => rfl
  · intro r hr
    by_cases hex : ∃ n, HasName c st a n
    · obtain ⟨names, rfl, hs, hm⟩ := g2 r hr hex hnames
      refine ⟨names, hm, hs, ?_⟩
      obtain ⟨n0, hn0⟩ := hex
      have hne : names ≠ [] := by
        intro e
        rw [e] at hm
        exact absurd ((hm n0).2 hn0) (by simp)
      rw [if_neg hne]
      dsimp only
      congr 1
      clear g2 g3 g4 hm hs
      induction names with
      | nil => exact absurd rfl hne
      | cons x l ih =>
        cases l with
        | nil => simp [joinWith]
        | cons y l =>
          rw [List.flatMap_cons, ← ih (by simp), show joinWith '\n' (x :: y :: l) = x ++ '\n' :: joinWith '\n' (y :: l) from rfl]
          simp
    · rw [g4 r hr hex]
      refine ⟨[], ?_, List.Pairwise.nil, rfl⟩
      intro n
      constructor
      · intro hm; cases hm
      · intro hm; exact absurd ⟨n, hm⟩ hex
  · intro e he
    obtain ⟨x, hx, rfl⟩ := g3 e he
    exact cli_shows hx
end

/-! ## Cases -/

example : CliName c!"include/a" .incl c!"a" := by
  rw [cliName_iff]; exact ⟨rfl, rfl, rfl⟩

example : cliMain clientHost id (some false) editorRun diskA .replace c!"a" c!"* * @anyvm @anyvm deny\r\n" =
    ((Call.replace .policy c!"a" c!"any" c!"* * @anyvm @anyvm deny\n").run clientHost exampleConf diskA |>.1, .ok []) := by
  rfl

end Qrexec
