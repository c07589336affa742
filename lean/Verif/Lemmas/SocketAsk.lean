import Verif.Spec.SocketAsk
import Verif.Lemmas.Json
import Verif.Lemmas.Str
import Verif.Lemmas.Match
import Verif.Lemmas.Exec
import Verif.Props.Match

/-! # Questions on the wire -/
namespace Qrexec
open Spec

theorem isAscii_append {a b : Str} : isAscii (a ++ b) = (isAscii a && isAscii b) := by
  unfold isAscii; rw [List.all_append]

theorem isAscii_flatMap {f : Char → Str} (h : ∀ c, isAscii (f c) = true) (s : Str) : isAscii (s.flatMap f) = true := by
  induction s with
  | nil => rfl
  | cons c cs ih => rw [List.flatMap_cons, isAscii_append, h, ih]; rfl

theorem isAscii_cons {c : Char} {s : Str} : isAscii (c :: s) = (decide (c.toNat < 128) && isAscii s) := rfl

theorem jsonHex_ascii (n : Nat) : (jsonHex (n % 16)).toNat < 128 := by
  have : ∀ x : Fin 16, (jsonHex x.1).toNat < 128 := by decide
  exact this ⟨n % 16, by omega⟩

theorem jsonUnit_ascii (n : Nat) : isAscii (jsonUnit n) = true := by
  unfold jsonUnit
  simp only [isAscii_cons, jsonHex_ascii]
  decide

theorem jsonChar_ascii (c : Char) : isAscii (jsonChar c) = true := by
  unfold jsonChar
  by_cases h1 : c = '"'
  · rw [if_pos h1]; decide
  by_cases h2 : c = '\\'
  · rw [if_neg h1, if_pos h2]; decide
  by_cases h3 : c = '\n'
  · rw [if_neg h1, if_neg h2, if_pos h3]; decide
  by_cases h4 : c = '\r'
  · rw [if_neg h1, if_neg h2, if_neg h3, if_pos h4]; decide
  by_cases h5 : c = '\t'
  · rw [if_neg h1, if_neg h2, if_neg h3, if_neg h4, if_pos h5]; decide
  rw [if_neg h1, if_neg h2, if_neg h3, if_neg h4, if_neg h5]
  by_cases h6 : c.toNat = 12
  · rw [if_pos h6]; decide
  by_cases h7 : c.toNat = 8
  · rw [if_neg h6, if_pos h7]; decide
  rw [if_neg h6, if_neg h7]
  by_cases h8 : (decide (32 ≤ c.toNat) && decide (c.toNat ≤ 126)) = true
  · rw [if_pos h8]
    simp only [Bool.and_eq_true, decide_eq_true_eq] at h8
    simp only [isAscii, List.all_cons, List.all_nil, Bool.and_true, decide_eq_true_eq]
    omega
  rw [if_neg h8]
  by_cases h9 : c.toNat < 0x10000
  · rw [if_pos h9]; exact jsonUnit_ascii _
  · rw [if_neg h9, isAscii_append, jsonUnit_ascii, jsonUnit_ascii]; rfl

theorem jsonStr_ascii (s : Str) : isAscii (jsonStr s) = true := by
  unfold jsonStr
  rw [isAscii_append, isAscii_cons, isAscii_flatMap jsonChar_ascii]
  decide

mutual
theorem jsonDumps_ascii : ∀ (v : Json), v.plainJson → isAscii (jsonDumps v) = true
  | .null, _ => by rw [jsonDumps]; decide
  | .bool b, _ => by rw [jsonDumps]; cases b <;> decide
  | .num t, h => by cases h
  | .str s, _ => by rw [jsonDumps]; exact jsonStr_ascii s
  | .arr l, h => by
    rw [jsonDumps, isAscii_append, isAscii_cons, jsonElems_ascii l (by cases h with | arr h => exact h)]
    decide
  | .obj l, h => by
    rw [jsonDumps, isAscii_append, isAscii_cons, jsonPairs_ascii l (by cases h with | obj h => exact fun p hp => h p.1 p.2 hp)]
    decide

theorem jsonElems_ascii : ∀ (l : List Json), (∀ v ∈ l, v.plainJson) → isAscii (jsonElems l) = true
  | [], _ => by rw [jsonElems]; decide
  | [v], h => by rw [jsonElems]; exact jsonDumps_ascii v (h v (by simp))
  | v :: w :: vs, h => by
    rw [jsonElems, isAscii_append, jsonDumps_ascii v (h v (by simp)), isAscii_cons, isAscii_cons,
      jsonElems_ascii (w :: vs) (fun x hx => h x (List.mem_cons_of_mem _ hx))]
    decide

theorem jsonPairs_ascii : ∀ (l : List (Str × Json)), (∀ p ∈ l, p.2.plainJson) → isAscii (jsonPairs l) = true
  | [], _ => by rw [jsonPairs]; decide
  | [(k, v)], h => by
    rw [jsonPairs, isAscii_append, jsonStr_ascii, isAscii_cons, isAscii_cons, jsonDumps_ascii v (h (k, v) (by simp))]; decide
  | (k, v) :: q :: kvs, h => by
    rw [jsonPairs, isAscii_append, jsonStr_ascii, isAscii_cons, isAscii_cons, isAscii_append,
      jsonDumps_ascii v (h (k, v) (by simp)), isAscii_cons, isAscii_cons,
      jsonPairs_ascii (q :: kvs) (fun x hx => h x (List.mem_cons_of_mem _ hx))]
    decide
end

/-! ## Dicts -/

theorem pyDictSet_new {α : Type} {d : List (Str × α)} {k : Str} (h : k ∉ d.map Prod.fst) (v : α) :
    pyDictSet d k v = d ++ [(k, v)] := by
  unfold pyDictSet
  rw [if_neg]
  intro hh
  rw [List.any_eq_true] at hh
  obtain ⟨p, hp, he⟩ := hh
  exact h (by rw [← (of_decide_eq_true he : p.1 = k)]; exact List.mem_map_of_mem hp)

theorem foldl_set {α β : Type} (key : β → Str) (val : β → α) :
    ∀ (l : List β) (d : List (Str × α)), (d.map Prod.fst ++ l.map key).Nodup →
      l.foldl (fun d x => pyDictSet d (key x) (val x)) d = d ++ l.map fun x => (key x, val x)
  | [], d, _ => by simp
  | x :: xs, d, h => by
    have hx : key x ∉ d.map Prod.fst := by
      intro hm
      rw [List.nodup_append] at h
      exact h.2.2 _ hm _ (by simp) rfl
    rw [List.foldl_cons, pyDictSet_new hx, foldl_set key val xs]
    · simp
    · simpa using h

theorem dispIcons_eq : ∀ (l : Info) (d : List (Str × Str)),
    l.foldl dispIcon d = (l.filter fun p => !startsWith c!"uuid:" p.1 && p.2.templateForDispvms).foldl
      (fun d x => pyDictSet d (c!"@dispvm:" ++ x.1) (replaceApp x.2.icon)) d
  | [], d => rfl
  | p :: l, d => by
    rw [List.foldl_cons, List.filter_cons]
    unfold dispIcon
    cases h1 : startsWith c!"uuid:" p.1 <;> cases h2 : p.2.templateForDispvms
    all_goals simp only [Bool.not_true, Bool.not_false, Bool.and_true, Bool.and_false, Bool.or_true, Bool.or_false, if_true, Bool.true_and,
      Bool.false_eq_true, if_false, List.foldl_cons]
    all_goals exact dispIcons_eq l _

/-- A consistent system state: rows are distinct. -/
theorem rows_nodup {info : Info} (hk : (info.map Prod.fst).Nodup) (ho : OrdinaryNames info) : (rowsOf info).Nodup := by
  have sub : ∀ f : Str × Dom → Bool, ((info.filter f).map Prod.fst).Nodup := fun f =>
    hk.sublist ((List.filter_sublist).map _)
  unfold rowsOf
  rw [List.nodup_append]
  refine ⟨sub _, ?_, ?_⟩
  · have := sub fun p => !startsWith c!"uuid:" p.1 && p.2.templateForDispvms
    have e : ((info.filter fun p => !startsWith c!"uuid:" p.1 && p.2.templateForDispvms).map fun p => c!"@dispvm:" ++ p.1) =
        ((info.filter fun p => !startsWith c!"uuid:" p.1 && p.2.templateForDispvms).map Prod.fst).map (c!"@dispvm:" ++ ·) := by
      rw [List.map_map]; rfl
    rw [e]
    refine List.Pairwise.map _ ?_ this
    intro a b hab hh
    exact hab (List.append_cancel_left hh)
  · intro a ha b hb hab
    subst hab
    obtain ⟨p, hp, rfl⟩ := List.mem_map.1 ha
    obtain ⟨p', hq0, hp'⟩ := List.mem_map.1 hb
    have hp := (List.mem_filter.1 hp).1
    have hd := get?_of_mem hk (d := p.2) hp
    have := (ho _ _ hd).2.1
    rw [← hp'] at this
    exact this rfl

theorem askIcons_keys {info : Info} (hk : (info.map Prod.fst).Nodup) (ho : OrdinaryNames info) :
    (askIcons info).map Prod.fst = rowsOf info := by
  have hn := rows_nodup hk ho
  unfold rowsOf at hn
  unfold askIcons
  rw [dispIcons_eq]
  have e1 : qubeIcons info = (info.filter fun p => !startsWith c!"uuid:" p.1).map fun p => (p.1, p.2.icon) := by
    unfold qubeIcons
    rw [foldl_set (fun p : Str × Dom => p.1) (fun p => p.2.icon)]
    · rfl
    · simpa using (List.nodup_append.1 hn).1
  rw [e1, foldl_set (fun p : Str × Dom => c!"@dispvm:" ++ p.1) (fun p => replaceApp p.2.icon)]
  · unfold rowsOf
    rw [List.map_append, List.map_map, List.map_map]
    rfl
  · rw [List.map_map]
    exact hn

theorem pyKeys_of_nodup {l : List (Str × Json)} (h : (l.map Prod.fst).Nodup) : pyKeys l = l.map Prod.fst := by
  unfold pyKeys
  rw [foldl_set (fun p : Str × Json => p.1) (fun p => p.2) l [] (by simpa using h), List.nil_append, List.map_map]
  rfl

theorem jsonTexts_str (l : List Str) : jsonTexts (l.map .str) = some l := by
  induction l with
  | nil => rfl
  | cons s r ih => rw [List.map_cons, jsonTexts, ih]; rfl

/-! ## The question -/

theorem askJson_plain (p : AskParams) (icons : List (Str × Str)) : (askJson p icons).plainJson := by
  unfold askJson
  refine .obj ?_
  intro k v hx
  simp only [List.mem_cons, List.not_mem_nil, or_false, Prod.mk.injEq] at hx
  rcases hx with ⟨_, rfl⟩ | ⟨_, rfl⟩ | ⟨_, rfl⟩ | ⟨_, rfl⟩ | ⟨_, rfl⟩ | ⟨_, rfl⟩
  all_goals try exact .str _
  · refine .arr ?_
    intro v hv
    obtain ⟨s, _, rfl⟩ := List.mem_map.1 hv
    exact .str _
  · refine .obj ?_
    intro k v hv
    obtain ⟨s, _, hs⟩ := List.mem_map.1 hv
    cases hs
    exact .str _

theorem notifyJson_plain (b : Bool) (s a src tg : Str) : (notifyJson b s a src tg).plainJson := by
  unfold notifyJson
  refine .obj ?_
  intro k v hx
  simp only [List.mem_cons, List.not_mem_nil, or_false, Prod.mk.injEq] at hx
  rcases hx with ⟨_, rfl⟩ | ⟨_, rfl⟩ | ⟨_, rfl⟩ | ⟨_, rfl⟩ | ⟨_, rfl⟩
  all_goals exact .str _

theorem paQuestion_ask (p : AskParams) (icons : List (Str × Str)) (h : (icons.map Prod.fst).Nodup) :
    paQuestion (askJson p icons) = some (Question.mk p.source p.service p.argument p.targets p.defaultTarget (icons.map Prod.fst)) := by
  have e : pyKeys (icons.map fun i => (i.1, Json.str i.2)) = icons.map Prod.fst := by
    rw [pyKeys_of_nodup (by rw [List.map_map]; exact h), List.map_map]; rfl
  have h1 : paText (askJson p icons) c!"source" = some p.source := rfl
  have h2 : paText (askJson p icons) c!"service" = some p.service := rfl
  have h3 : paText (askJson p icons) c!"argument" = some p.argument := rfl
  have h4 : (askJson p icons).get? c!"targets" = some (.arr (p.targets.map .str)) := rfl
  have h5 : paText (askJson p icons) c!"default_target" = some p.defaultTarget := rfl
  have h6 : (askJson p icons).get? c!"icons" = some (.obj (icons.map fun i => (i.1, .str i.2))) := rfl
  unfold paQuestion
  rw [h1, h2, h3, h4, h5, h6]
  dsimp only
  rw [jsonTexts_str]
  dsimp only
  rw [e]

/-- The bytes of a message: a header of at least two words, a NUL byte and the text. -/
theorem paHandle_of {service rest : Str} {v : Json} (hv : v.plainJson) (hs : ' ' ∉ service)
    (ha : isAscii (service ++ ' ' :: rest) = true) (h0 : '\x00' ∉ service ++ ' ' :: rest) :
    paHandle ((service ++ ' ' :: rest) ++ '\x00' :: jsonDumps v) = paDispatch service v := by
  unfold paHandle
  rw [if_neg, splitOnce_append h0]
  · dsimp only
    rw [splitOn_append hs]
    have : splitOn ' ' rest ≠ [] := by
      cases rest with
      | nil => decide
      | cons c cs =>
        unfold splitOn
        split_ifs
        · simp
        · split <;> simp
    cases hx : splitOn ' ' rest with
    | nil => exact absurd hx this
    | cons w ws =>
      dsimp only
      rw [loads_dumps v hv]
  · rw [isAscii_append, ha, isAscii_cons, jsonDumps_ascii v hv]
    decide

/-- What a service of the agent gets. -/
theorem askMessage_handled (guivm service : Str) {v : Json} (hv : v.plainJson)
    (hs : service = c!"policy.Ask" ∨ service = c!"policy.Notify") :
    ∃ data, askMessage guivm service v = some data ∧ paHandle data = paDispatch service v := by
  unfold askMessage
  by_cases hg : guivm = c!"dom0"
  · rw [if_pos hg]
    refine ⟨_, rfl, ?_⟩
    rcases hs with rfl | rfl
    · exact paHandle_of (service := c!"policy.Ask") (rest := c!"dom0 name dom0") hv (by decide) (by decide) (by decide)
    · exact paHandle_of (service := c!"policy.Notify") (rest := c!"dom0 name dom0") hv (by decide) (by decide) (by decide)
  · rw [if_neg hg]
    rcases hs with rfl | rfl
    · exact ⟨_, rfl, paHandle_of (service := c!"policy.Ask") (rest := c!"dom0") hv (by decide) (by decide) (by decide)⟩
    · exact ⟨_, rfl, paHandle_of (service := c!"policy.Notify") (rest := c!"dom0") hv (by decide) (by decide) (by decide)⟩

end Qrexec
