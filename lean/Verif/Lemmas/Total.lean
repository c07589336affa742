import Verif.Lemmas.Collect

namespace Qrexec
open Spec

theorem getDispvmTemplate_total {info : Info} (hs : SystemInfo info) (src : Str) :
    ∃ o, getDispvmTemplate info src = .ok o := by
  unfold getDispvmTemplate
  split
  · exact ⟨_, rfl⟩
  · rename_i d hd
    split
    · exact ⟨_, rfl⟩
    · rename_i t ht
      obtain ⟨d', hd', _⟩ := hs.default_exists _ _ _ hd ht
      obtain ⟨h1, h2, _⟩ := hs.ordinary _ _ hd'
      rw [mkDispvmTemplate_of h1 h2]
      exact ⟨_, rfl⟩

theorem expandDefaultDispvm_total {info : Info} (hs : SystemInfo info) (src : Str) (l : List Str) :
    ∃ ts, expandDefaultDispvm info src l = .ok ts := by
  unfold expandDefaultDispvm
  split_ifs
  · obtain ⟨o, ho⟩ := getDispvmTemplate_total hs src
    rw [ho]
    cases o <;> exact ⟨_, rfl⟩
  · exact ⟨_, rfl⟩

theorem dropInternal_total {info : Info} {l : List Str}
    (h : ∀ x ∈ l, ∃ d, info.get? (baseOf x) = some d) : ∃ ts, dropInternal info l = .ok ts := by
  induction l with
  | nil => exact ⟨[], rfl⟩
  | cons y ys ih =>
    obtain ⟨d, hd⟩ := h y (by simp)
    obtain ⟨rest, hr⟩ := ih (fun x hx => h x (by simp [hx]))
    simp only [dropInternal]
    change info.get? (if startsWith c!"@dispvm:" y then y.drop 8 else y) = some d at hd
    rw [lookup_eq_ok.2 hd, hr]
    exact ⟨_, rfl⟩

theorem collectLoop_total {req : Request} (hs : SystemInfo req.info) {l : List Rule}
    (h : ∀ r ∈ l, Expandable req.info r.askTarget) (acc : List Str) :
    ∃ ts, collectLoop req l acc = .ok ts := by
  induction l generalizing acc with
  | nil => exact ⟨acc, rfl⟩
  | cons r rs ih =>
    have ih := ih (fun x hx => h x (by simp [hx]))
    obtain ⟨b, hb⟩ := isMatchButTarget_total r req
    simp only [collectLoop, hb]
    cases b with
    | false => exact ih acc
    | true =>
      obtain ⟨ex, hex, _⟩ := expand_total hs (h r (by simp))
      simp only [hex]
      split_ifs
      · exact ih _
      · exact ih _

theorem baseOf_dispvm (k : Str) : baseOf (c!"@dispvm:" ++ k) = k := by
  unfold baseOf
  rw [if_pos (startsWith_append _ _)]
  rfl

theorem baseOf_plain {x : Str} (h : x.head? ≠ some '@') : baseOf x = x := by
  unfold baseOf
  split_ifs with hs
  · obtain ⟨t, rfl⟩ := startsWith_iff.1 hs
    simp at h
  · rfl

theorem names_exists {info : Info} (hs : SystemInfo info) {t : Token} {x : Str}
    (h : Names info t x) :
    x = c!"@dispvm" ∨ x = c!"@adminvm" ∨ ∃ d, info.get? (baseOf x) = some d := by
  have pl : ∀ {k d}, IsDomain info k d → ∃ d, info.get? (baseOf k) = some d := by
    intro k d hk
    rw [baseOf_plain (hs.ordinary _ _ hk.1).2.1]
    exact ⟨d, hk.1⟩
  have dv : ∀ {k d}, IsDomain info k d → ∃ d, info.get? (baseOf (c!"@dispvm:" ++ k)) = some d := by
    intro k d hk
    rw [baseOf_dispvm]
    exact ⟨d, hk.1⟩
  have dn : ∀ {s d}, info.get? s = some d → IsDomain info d.name d := by
    intro s d hd
    obtain ⟨u, _, hg⟩ := hs.uuid_of s d hd
    exact (hs.uuid_entry u d hg).2
  cases t with
  | name s =>
    obtain ⟨d, hd, rfl⟩ := h
    exact Or.inr (Or.inr (pl (dn hd)))
  | adminvm => exact Or.inr (Or.inl h)
  | dispvm => exact Or.inl h
  | default => exact absurd h id
  | typeVM v => obtain ⟨d, hd, _⟩ := h; exact Or.inr (Or.inr (pl hd))
  | tagVM v => obtain ⟨d, hd, _⟩ := h; exact Or.inr (Or.inr (pl hd))
  | wildcard =>
    rcases h with ⟨d, hd⟩ | ⟨k, d, hd, _, rfl⟩ | h
    · exact Or.inr (Or.inr (pl hd))
    · exact Or.inr (Or.inr (dv hd))
    · exact Or.inl h
  | anyvm =>
    rcases h with ⟨d, hd, _⟩ | ⟨k, d, hd, _, rfl⟩ | h
    · exact Or.inr (Or.inr (pl hd))
    · exact Or.inr (Or.inr (dv hd))
    · exact Or.inl h
  | dispvmTemplate v => obtain ⟨d, hd, _, rfl⟩ := h; exact Or.inr (Or.inr (dv (dn hd)))
  | dispvmTag v => obtain ⟨k, d, hd, _, _, rfl⟩ := h; exact Or.inr (Or.inr (dv hd))

theorem sourceNames_total {info : Info} (hs : SystemInfo info) {src : Str} {d : Dom}
    (h : info.get? src = some d) : ∃ n, sourceNames info src = .ok n := by
  unfold sourceNames
  rw [lookup_eq_ok.2 h]
  obtain ⟨u, hu, _⟩ := hs.uuid_of _ _ h
  simp only [ok_bind]
  split_ifs
  · exact ⟨_, rfl⟩
  · rw [getUuid_eq_ok.2 hu]; exact ⟨_, rfl⟩

/-- In a consistent state, collecting targets succeeds as soon as the loop does. -/
theorem collectTargets_total {req : Request} (hs : SystemInfo req.info) {rules : List Rule}
    {d : Dom} (hsrc : req.info.get? req.source = some d) {ts0 : List Str}
    (h0 : collectLoop req rules.reverse [] = .ok ts0) : ∃ ts, collectTargets rules req = .ok ts := by
  unfold collectTargets
  obtain ⟨n, hn⟩ := sourceNames_total hs hsrc
  obtain ⟨ts1, h1⟩ := expandDefaultDispvm_total hs req.source ts0
  simp only [hn, h0, h1, ok_bind]
  apply dropInternal_total
  intro x hx
  rw [mem_setRemove, mem_setRemove, mem_expandAdminvm, expandDefaultDispvm_ok h1] at hx
  obtain ⟨⟨hA, _⟩, _⟩ := hx
  have spk : ∀ y ∈ ts0, ∃ t, Names req.info t y := by
    intro y hy
    obtain ⟨_, r, _, _, _, hsp, _⟩ := (collectLoop_mem hs h0 y).1 hy
    obtain ⟨_, t, _, ht⟩ := hsp
    exact ⟨t, ht⟩
  rcases hA with ⟨⟨hm, hne⟩ | ⟨_, t, ht, rfl⟩, hna⟩ | ⟨_, rfl⟩
  · obtain ⟨t, ht⟩ := spk x hm
    rcases names_exists hs ht with h | h | h
    · exact absurd h hne
    · exact absurd h hna
    · exact h
  · obtain ⟨dd, h2, h3⟩ := ht
    obtain ⟨d', hd', _⟩ := hs.default_exists _ _ _ h2 h3
    rw [baseOf_dispvm]; exact ⟨d', hd'⟩
  · obtain ⟨d0, h2, _⟩ := hs.dom0
    rw [baseOf_plain (by decide)]; exact ⟨d0, h2⟩

theorem filterNoAutostart_total {info : Info} {l : List Str}
    (h : ∀ x ∈ l, Dom0 x ∨ (∃ t, x = c!"@dispvm" ++ t) ∨ info.get? x ≠ none) :
    ∃ ts, filterNoAutostart info l = .ok ts := by
  induction l with
  | nil => exact ⟨[], rfl⟩
  | cons y ys ih =>
    obtain ⟨b, hb⟩ := allowNoAutostart_total (h y (by simp))
    obtain ⟨rest, hr⟩ := ih (fun x hx => h x (by simp [hx]))
    simp only [filterNoAutostart, hb, hr]
    exact ⟨_, rfl⟩

theorem autostartFilter_total {info : Info} {a : Bool} {l : List Str}
    (h : a = false → ∀ x ∈ l, Dom0 x ∨ (∃ t, x = c!"@dispvm" ++ t) ∨ info.get? x ≠ none) :
    ∃ ts, autostartFilter info a l = .ok ts := by
  unfold autostartFilter
  split_ifs with ha
  · exact ⟨_, rfl⟩
  · exact filterNoAutostart_total (h (by simpa using ha))

theorem askDefault_total {req : Request} (hs : SystemInfo req.info) (d : Option Token) :
    ∃ dt, askDefault req d = .ok dt := by
  unfold askDefault
  split
  · exact ⟨_, rfl⟩
  · obtain ⟨o, ho⟩ := getDispvmTemplate_total hs req.source
    rw [ho]; cases o <;> exact ⟨_, rfl⟩
  · exact ⟨_, rfl⟩

/-- Collected targets never need the `AssertionError` branch of the autostart check. -/
theorem collectTargets_auto {req : Request} (hs : SystemInfo req.info) {rules : List Rule}
    {ts : List Str} (h : collectTargets rules req = .ok ts) :
    ∀ x ∈ ts, Dom0 x ∨ (∃ t, x = c!"@dispvm" ++ t) ∨ req.info.get? x ≠ none := by
  intro x hx
  obtain ⟨_, _, d, hd, _⟩ := (collectTargets_mem hs h x).1 hx
  unfold baseOf at hd
  split_ifs at hd with hsw
  · obtain ⟨t, rfl⟩ := startsWith_iff.1 hsw
    exact Or.inr (Or.inl ⟨':' :: t, rfl⟩)
  · exact Or.inr (Or.inr (by simp [hd]))

end Qrexec
