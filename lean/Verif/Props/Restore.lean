import Verif.Model.Restore

/-!
# C105: restoring a policy from a backup
-/
namespace Qrexec

/-- **C105, partial.** Nothing in the live policy is overwritten or removed: all its files are still there, unchanged and
first. (Also if `parser` had a function `toposort`, whatever it yields.) Missing: files are not restored at all, see
`C105_restore_violated`. -/
theorem C105_restore_partial (names : List Str) (order : List (Str × Str) → List (Str × Str)) (backup : List (Str × Str))
    (dest : PolicyTree) : dest.files <+: (restoreMain names order backup dest).1.files ∧
      ∀ f ∈ (restoreMain names order backup dest).1.files.drop dest.files.length, f ∈ order backup ∧ ∀ g ∈ dest.files, g.1 ≠ f.1 := by
  have key : ∀ (l : List (Str × Str)) (base : List (Str × Str)) (d : PolicyTree) (new : List (Str × Str)), d.files = base ++ new →
      ∃ new', (l.foldl restoreFile d).files = base ++ (new ++ new') ∧ ∀ f ∈ new', f ∈ l ∧ ∀ g ∈ base, g.1 ≠ f.1 := by
    intro l
    induction l with
    | nil => intro base d new h; exact ⟨[], by simpa using h, by simp⟩
    | cons f l ih =>
      intro base d new h
      rw [List.foldl_cons]
      by_cases hc : d.files.any (fun g => g.1 == f.1) = true
      · rw [show restoreFile d f = d from if_pos hc]
        obtain ⟨new', h1, h2⟩ := ih base d new h
        exact ⟨new', h1, fun x hx => ⟨by simp [(h2 x hx).1], (h2 x hx).2⟩⟩
      · rw [show restoreFile d f = { d with files := d.files ++ [f] } from if_neg hc]
        obtain ⟨new', h1, h2⟩ := ih base { d with files := d.files ++ [f] } (new ++ [f]) (by simp [h])
        refine ⟨f :: new', by rw [h1]; simp, ?_⟩
        intro x hx
        rcases List.mem_cons.1 hx with rfl | hx
        · refine ⟨by simp, fun g hg e => hc ?_⟩
          rw [List.any_eq_true]
          exact ⟨g, by rw [h]; simp [hg], by simpa using e⟩
        · exact ⟨by simp [(h2 x hx).1], (h2 x hx).2⟩
  unfold restoreMain
  dsimp only
  split
  · obtain ⟨new', h1, h2⟩ := key (order backup) dest.files { dest with hasInclude := true } [] (by simp)
    rw [List.nil_append] at h1
    dsimp only
    rw [h1]
    exact ⟨List.prefix_append _ _, fun f hf => h2 f (by simpa using hf)⟩
  · exact ⟨List.prefix_refl _, fun f hf => by simp at hf⟩

/-- **C105 is violated: nothing is ever restored.** Whatever the backup and the live policy are, the tool fails with an
exception and no file is written: it uses a function that `qrexec.policy.parser` does not have. -/
theorem C105_restore_violated (order : List (Str × Str) → List (Str × Str)) (backup : List (Str × Str)) (dest : PolicyTree) :
    restoreMain parserNames order backup dest = ({ dest with hasInclude := true }, .error (.attribute c!"toposort")) := by
  unfold restoreMain
  rw [if_neg (by decide)]

theorem inclTouch_ne (m : InclPaths) (key : Str) : inclTouch m key ≠ [] := by
  unfold inclTouch
  split
  · rename_i h
    intro e; rw [e] at h; simp at h
  · simp

theorem tsEvent_ne (m : InclPaths) (e : TsEvent) : tsEvent m e ≠ [] := by
  cases e with
  | load key => exact inclTouch_ne m key
  | incl key path =>
    unfold tsEvent inclAdd
    simpa using inclTouch_ne m key

/-- **C105 is violated: there is no order.** For every policy that has been loaded - whatever files were loaded and included - the
method that should yield its files in an order in which they can be uploaded raises TypeError. -/
theorem C105_order_violated (dfs : List PyElem → Except PyErr (List Str)) (before : List TsEvent) (key : Str) (after : List TsEvent) :
    toposort dfs ((before ++ .load key :: after).foldl tsEvent []) = .error .type := by
  have hne : (before ++ .load key :: after).foldl tsEvent [] ≠ [] := by
    rw [List.foldl_append, List.foldl_cons]
    generalize hm : tsEvent (before.foldl tsEvent []) (.load key) = m
    have h0 : m ≠ [] := by rw [← hm]; exact tsEvent_ne _ _
    clear hm
    induction after generalizing m with
    | nil => exact h0
    | cons e after ih => rw [List.foldl_cons]; exact ih _ (tsEvent_ne _ _)
  generalize (before ++ .load key :: after).foldl tsEvent [] = m at hne
  cases m with
  | nil => exact absurd rfl hne
  | cons x m => rfl

/-- What it would do with such a function: two files, one of which exists. -/
example : restoreMain [c!"toposort"] id [(c!"include/a", c!"x"), (c!"30-user.policy", c!"y")] ⟨[(c!"30-user.policy", c!"z")], false⟩ =
    (⟨[(c!"30-user.policy", c!"z"), (c!"include/a", c!"x")], true⟩, .ok 0) := rfl

end Qrexec
