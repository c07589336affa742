import Verif.Model.Json
import Mathlib.Tactic.SplitIfs
import Mathlib.Tactic.ByContra

/-! # Reading what `json.dumps` writes -/
namespace Qrexec

theorem jsonHexVal_hex {d : Nat} (h : d < 16) : jsonHexVal (jsonHex d) = some d := by
  have : ∀ x : Fin 16, jsonHexVal (jsonHex x.1) = some x.1 := by decide
  exact this ⟨d, h⟩

theorem scan_unit {n : Nat} (h : n < 65536) (rest : Str) :
    scanPieces .plain (jsonUnit n ++ rest) = pushPiece (.unit n) (scanPieces .plain rest) := by
  have e1 : jsonUnit n ++ rest = '\\' :: 'u' :: jsonHex (n / 4096 % 16) :: jsonHex (n / 256 % 16) :: jsonHex (n / 16 % 16) ::
      jsonHex (n % 16) :: rest := rfl
  rw [e1, scanPieces, if_neg (by decide), if_pos rfl, scanPieces, if_pos rfl, scanPieces, jsonHexVal_hex (by omega)]
  dsimp only
  rw [if_neg (by decide), scanPieces, jsonHexVal_hex (by omega)]
  dsimp only
  rw [if_neg (by decide), scanPieces, jsonHexVal_hex (by omega)]
  dsimp only
  rw [if_neg (by decide), scanPieces, jsonHexVal_hex (by omega)]
  dsimp only
  rw [if_pos (by decide)]
  congr 2
  omega

/-- The pieces the scanner finds for a character. -/
def charPieces (c : Char) : List StrPiece :=
  if c = '"' ∨ c = '\\' ∨ c = '\n' ∨ c = '\r' ∨ c = '\t' ∨ c.toNat = 12 ∨ c.toNat = 8 ∨ (32 ≤ c.toNat ∧ c.toNat ≤ 126) then [.lit c]
  else if c.toNat < 0x10000 then [.unit c.toNat]
  else [.unit (0xd800 + (c.toNat - 0x10000) / 0x400), .unit (0xdc00 + (c.toNat - 0x10000) % 0x400)]

def pushPieces (ps : List StrPiece) (o : Option (List StrPiece × Str)) : Option (List StrPiece × Str) :=
  o.map fun p => (ps ++ p.1, p.2)

theorem pushPiece_eq (p : StrPiece) (o) : pushPiece p o = pushPieces [p] o := by
  cases o <;> rfl

theorem char_eq_of_toNat {c d : Char} (h : c.toNat = d.toNat) : c = d := by
  have := congrArg Char.ofNat h
  rwa [Char.ofNat_toNat, Char.ofNat_toNat] at this

theorem char_bound (c : Char) : c.toNat < 0xd800 ∨ 0xdfff < c.toNat ∧ c.toNat < 0x110000 := c.valid

theorem scan_char (c : Char) (rest : Str) :
    scanPieces .plain (jsonChar c ++ rest) = pushPieces (charPieces c) (scanPieces .plain rest) := by
  have esc : ∀ e x, e ≠ 'u' → jsonUnescape e = some x →
      scanPieces .plain ('\\' :: e :: rest) = pushPiece (.lit x) (scanPieces .plain rest) := by
    intro e x he hx
    rw [scanPieces, if_neg (by decide), if_pos rfl, scanPieces, if_neg he, hx]
  unfold jsonChar charPieces
  by_cases h1 : c = '"'
  · subst h1
    rw [if_pos rfl, if_pos (.inl rfl), ← pushPiece_eq]
    exact esc '"' '"' (by decide) rfl
  rw [if_neg h1]
  by_cases h2 : c = '\\'
  · subst h2
    rw [if_pos rfl, if_pos (.inr (.inl rfl)), ← pushPiece_eq]
    exact esc '\\' '\\' (by decide) rfl
  rw [if_neg h2]
  by_cases h3 : c = '\n'
  · subst h3
    rw [if_pos rfl, if_pos (by decide), ← pushPiece_eq]
    exact esc 'n' '\n' (by decide) rfl
  rw [if_neg h3]
  by_cases h4 : c = '\r'
  · subst h4
    rw [if_pos rfl, if_pos (by decide), ← pushPiece_eq]
    exact esc 'r' '\r' (by decide) rfl
  rw [if_neg h4]
  by_cases h5 : c = '\t'
  · subst h5
    rw [if_pos rfl, if_pos (by decide), ← pushPiece_eq]
    exact esc 't' '\t' (by decide) rfl
  rw [if_neg h5]
  by_cases h6 : c.toNat = 12
  · rw [if_pos h6, if_pos (by simp [h6]), ← pushPiece_eq]
    have : c = Char.ofNat 12 := char_eq_of_toNat (by rw [h6]; rfl)
    rw [this]
    exact esc 'f' (Char.ofNat 12) (by decide) rfl
  rw [if_neg h6]
  by_cases h7 : c.toNat = 8
  · rw [if_pos h7, if_pos (by simp [h7]), ← pushPiece_eq]
    have : c = Char.ofNat 8 := char_eq_of_toNat (by rw [h7]; rfl)
    rw [this]
    exact esc 'b' (Char.ofNat 8) (by decide) rfl
  rw [if_neg h7]
  by_cases h8 : 32 ≤ c.toNat ∧ c.toNat ≤ 126
  · rw [if_pos (by simpa using h8), if_pos (by simp [h8]), ← pushPiece_eq]
    show scanPieces .plain (c :: rest) = _
    rw [scanPieces, if_neg h1, if_neg h2, if_neg (by omega)]
  · rw [if_neg (by simpa using h8), if_neg (show ¬ (c = '"' ∨ c = '\\' ∨ c = '\n' ∨ c = '\r' ∨ c = '\t' ∨ c.toNat = 12 ∨ c.toNat = 8 ∨
      (32 ≤ c.toNat ∧ c.toNat ≤ 126)) by simp only [h1, h2, h3, h4, h5, h6, h7, h8, or_self, not_false_eq_true])]
    by_cases h9 : c.toNat < 0x10000
    · rw [if_pos h9, if_pos h9, ← pushPiece_eq]
      exact scan_unit h9 rest
    · have hb := char_bound c
      rw [if_neg h9, if_neg h9, List.append_assoc, scan_unit (by omega), scan_unit (by omega)]
      cases scanPieces .plain rest <;> rfl

theorem join_char (c : Char) (ps : List StrPiece) :
    joinPieces none (charPieces c ++ ps) = (joinPieces none ps).map (c :: ·) := by
  have hb := char_bound c
  unfold charPieces
  split_ifs with h1 h2
  · rfl
  · show joinPieces none (.unit c.toNat :: ps) = _
    rw [joinPieces, if_neg (by simp; omega), if_neg (by simp; omega), Char.ofNat_toNat]
  · show joinPieces none (.unit _ :: .unit _ :: ps) = _
    rw [joinPieces, if_pos (by simp; omega), joinPieces, if_pos (by simp; omega)]
    have : 0x10000 + (0xd800 + (c.toNat - 0x10000) / 0x400 - 0xd800) * 0x400 + (0xdc00 + (c.toNat - 0x10000) % 0x400 - 0xdc00) =
        c.toNat := by omega
    rw [this, Char.ofNat_toNat]

theorem scan_chars : ∀ (s : Str) (rest : Str),
    scanPieces .plain (s.flatMap jsonChar ++ '"' :: rest) = some (s.flatMap charPieces, rest)
  | [], rest => by
    show scanPieces .plain ('"' :: rest) = _
    rw [scanPieces, if_pos rfl]
    rfl
  | c :: s, rest => by
    rw [List.flatMap_cons, List.append_assoc, scan_char, scan_chars s rest]
    rfl

theorem join_chars : ∀ (s : Str), joinPieces none (s.flatMap charPieces) = some s
  | [] => rfl
  | c :: s => by rw [List.flatMap_cons, join_char, join_chars s]; rfl

theorem scanString_dumps (s rest : Str) : scanString (s.flatMap jsonChar ++ '"' :: rest) = some (s, rest) := by
  unfold scanString
  rw [scan_chars]
  dsimp only
  rw [join_chars]
  rfl

/-- A value without numbers. -/
inductive Json.plainJson : Json → Prop
  | null : plainJson .null
  | bool (b) : plainJson (.bool b)
  | str (s) : plainJson (.str s)
  | arr {l} : (∀ v ∈ l, plainJson v) → plainJson (.arr l)
  | obj {l} : (∀ k v, (k, v) ∈ l → plainJson v) → plainJson (.obj l)

theorem skipWs_of {c : Char} {s : Str} (h : jsonWs c = false) : skipWs (c :: s) = c :: s := by
  unfold skipWs
  rw [List.dropWhile_cons, h]
  rfl

theorem skipWs_space (s : Str) : skipWs (' ' :: s) = skipWs s := rfl

theorem dumps_head (v : Json) (h : v.plainJson) : ∃ c t, jsonDumps v = c :: t ∧ jsonWs c = false ∧ c ≠ ']' := by
  cases v with
  | null => exact ⟨_, _, rfl, by decide, by decide⟩
  | bool b => cases b <;> exact ⟨_, _, rfl, by decide, by decide⟩
  | num t => cases h
  | str s => exact ⟨'"', _, rfl, by decide, by decide⟩
  | arr l => exact ⟨'[', jsonElems l ++ [']'], by rw [jsonDumps]; rfl, by decide, by decide⟩
  | obj l => exact ⟨'{', jsonPairs l ++ ['}'], by rw [jsonDumps]; rfl, by decide, by decide⟩

theorem skipWs_dumps {v : Json} (h : v.plainJson) (rest : Str) : skipWs (jsonDumps v ++ rest) = jsonDumps v ++ rest := by
  obtain ⟨c, t, e, hw, -⟩ := dumps_head v h
  rw [e]
  exact skipWs_of hw

theorem elems_head (v : Json) (vs : List Json) : ∃ t, jsonElems (v :: vs) = jsonDumps v ++ t := by
  cases vs with
  | nil => exact ⟨[], by rw [jsonElems, List.append_nil]⟩
  | cons w vs => exact ⟨_, by rw [jsonElems]⟩

theorem pairs_head (k : Str) (v : Json) (kvs : List (Str × Json)) : ∃ t, jsonPairs ((k, v) :: kvs) = '"' :: t := by
  cases kvs with
  | nil => exact ⟨_, by rw [jsonPairs]; rfl⟩
  | cons w kvs => exact ⟨_, by rw [jsonPairs]; rfl⟩

theorem skipWs_elems {v : Json} (h : v.plainJson) (vs : List Json) (rest : Str) :
    skipWs (jsonElems (v :: vs) ++ rest) = jsonElems (v :: vs) ++ rest := by
  obtain ⟨t, e⟩ := elems_head v vs
  rw [e, List.append_assoc]
  exact skipWs_dumps h _

theorem scanElems_last {n : Nat} {s r r' : Str} {v : Json} (h1 : scanValue n s = some (v, r)) (h2 : skipWs r = ']' :: r') :
    scanElems (n + 1) s = some ([v], r') := by
  rw [scanElems, h1]
  dsimp only
  rw [h2]
  rfl

theorem scanElems_more {n : Nat} {s r r' : Str} {v : Json} (h1 : scanValue n s = some (v, r)) (h2 : skipWs r = ',' :: r') :
    scanElems (n + 1) s = (scanElems n (skipWs r')).map fun p => (v :: p.1, p.2) := by
  rw [scanElems, h1]
  dsimp only
  rw [h2]
  rfl

theorem scanMembers_last {n : Nat} {s r r1 r2 r3 : Str} {k : Str} {v : Json} (h0 : scanString s = some (k, r))
    (h1 : skipWs r = ':' :: r1) (h2 : scanValue n (skipWs r1) = some (v, r2)) (h3 : skipWs r2 = '}' :: r3) :
    scanMembers (n + 1) s = some ([(k, v)], r3) := by
  rw [scanMembers, h0]
  dsimp only
  rw [h1]
  show (match scanValue n (skipWs r1) with
        | none => none
        | some (v, r2) => _) = _
  rw [h2]
  dsimp only
  rw [h3]
  rfl

theorem scanMembers_more {n : Nat} {s r r1 r2 r3 r4 : Str} {k : Str} {v : Json} (h0 : scanString s = some (k, r))
    (h1 : skipWs r = ':' :: r1) (h2 : scanValue n (skipWs r1) = some (v, r2)) (h3 : skipWs r2 = ',' :: r3)
    (h4 : skipWs r3 = '"' :: r4) :
    scanMembers (n + 1) s = (scanMembers n r4).map fun p => ((k, v) :: p.1, p.2) := by
  rw [scanMembers, h0]
  dsimp only
  rw [h1]
  show (match scanValue n (skipWs r1) with
        | none => none
        | some (v, r2) => _) = _
  rw [h2]
  dsimp only
  rw [h3]
  show (match skipWs r3 with
        | '"' :: r4 => _
        | _ => none) = _
  rw [h4]
  rfl

mutual
theorem scan_dumps : ∀ (v : Json), v.plainJson → ∀ (n : Nat) (rest : Str), (jsonDumps v).length ≤ n →
    scanValue n (jsonDumps v ++ rest) = some (v, rest)
  | .null, _, 0, rest, hn => absurd hn (by simp [jsonDumps])
  | .null, _, n + 1, rest, hn => by
    rw [jsonDumps]; simp [scanValue, scanAtom, startsWith, List.isPrefixOf]
  | .bool b, _, 0, rest, hn => absurd hn (by cases b <;> simp [jsonDumps])
  | .bool b, _, n + 1, rest, hn => by
    rw [jsonDumps]; cases b <;> simp [scanValue, scanAtom, startsWith, List.isPrefixOf]
  | .num t, h, n, rest, hn => by cases h
  | .str s, _, 0, rest, hn => absurd hn (by simp [jsonDumps, jsonStr])
  | .str s, _, n + 1, rest, hn => by
    have e : jsonDumps (.str s) ++ rest = '"' :: (s.flatMap jsonChar ++ '"' :: rest) := by
      rw [jsonDumps]; simp [jsonStr]
    rw [e, scanValue, scanString_dumps]
    rfl
  | .arr l, _, 0, rest, hn => absurd hn (by simp [jsonDumps])
  | .arr [], _, n + 1, rest, hn => by
    have e : jsonDumps (.arr []) ++ rest = '[' :: ']' :: rest := by simp [jsonDumps, jsonElems]
    rw [e, scanValue, skipWs_of (by decide)]
    rfl
  | .arr (v :: vs), h, n + 1, rest, hn => by
    have h' : ∀ x ∈ v :: vs, x.plainJson := by cases h; assumption
    have e : jsonDumps (.arr (v :: vs)) ++ rest = '[' :: (jsonElems (v :: vs) ++ ']' :: rest) := by simp [jsonDumps]
    rw [e, scanValue, skipWs_elems (h' v (by simp))]
    have ih := scan_elems v vs h' n rest (by
      have := hn
      simp [jsonDumps] at this
      omega)
    obtain ⟨c, t, et, -, hc⟩ := dumps_head v (h' v (by simp))
    obtain ⟨t', e2⟩ : ∃ t', jsonElems (v :: vs) ++ ']' :: rest = c :: t' := by
      obtain ⟨t2, e3⟩ := elems_head v vs
      rw [e3, et]; exact ⟨_, rfl⟩
    rw [e2] at ih ⊢
    split
    · rename_i heq; cases heq; exact absurd rfl hc
    · rw [ih]; rfl
  | .obj l, _, 0, rest, hn => absurd hn (by simp [jsonDumps])
  | .obj [], _, n + 1, rest, hn => by
    have e : jsonDumps (.obj []) ++ rest = '{' :: '}' :: rest := by simp [jsonDumps, jsonPairs]
    rw [e, scanValue, skipWs_of (by decide)]
    rfl
  | .obj ((k, v) :: kvs), h, n + 1, rest, hn => by
    have h' : ∀ x ∈ (k, v) :: kvs, x.2.plainJson := by cases h with | obj h => exact fun x hx => h x.1 x.2 hx
    obtain ⟨t, e⟩ : ∃ t, jsonPairs ((k, v) :: kvs) ++ '}' :: rest = '"' :: t := by
      obtain ⟨t, e⟩ := pairs_head k v kvs
      rw [e]; exact ⟨_, rfl⟩
    have e1 : jsonDumps (.obj ((k, v) :: kvs)) ++ rest = '{' :: (jsonPairs ((k, v) :: kvs) ++ '}' :: rest) := by simp [jsonDumps]
    have ih := scan_members k v kvs h' n rest t (by
      have := hn
      simp [jsonDumps] at this
      omega) e
    rw [e1, e, scanValue, skipWs_of (by decide)]
    show (scanMembers n t).map (fun p => (Json.obj p.1, p.2)) = _
    rw [ih]; rfl

theorem scan_elems : ∀ (v : Json) (vs : List Json), (∀ x ∈ v :: vs, x.plainJson) → ∀ (n : Nat) (rest : Str),
    (jsonElems (v :: vs)).length + 1 ≤ n → scanElems n (jsonElems (v :: vs) ++ ']' :: rest) = some (v :: vs, rest)
  | v, vs, h, 0, rest, hn => absurd hn (by omega)
  | v, [], h, n + 1, rest, hn => by
    have e : jsonElems [v] = jsonDumps v := by simp [jsonElems]
    rw [e] at hn ⊢
    exact scanElems_last (scan_dumps v (h v (by simp)) n _ (by omega)) (skipWs_of (by decide))
  | v, w :: vs, h, n + 1, rest, hn => by
    have e : jsonElems (v :: w :: vs) = jsonDumps v ++ ',' :: ' ' :: jsonElems (w :: vs) := by
      conv_lhs => rw [jsonElems]
    rw [e] at hn ⊢
    have hl : (jsonDumps v).length + (jsonElems (w :: vs)).length + 2 + 1 ≤ n + 1 := by
      simp only [List.length_append, List.length_cons] at hn; omega
    rw [List.append_assoc, List.cons_append, List.cons_append,
      scanElems_more (scan_dumps v (h v (by simp)) n _ (by omega)) (skipWs_of (by decide)), skipWs_space, skipWs_elems (h w (by simp)),
      scan_elems w vs (fun x hx => h x (by simp [hx])) n rest (by omega)]
    rfl

theorem scan_members : ∀ (k : Str) (v : Json) (kvs : List (Str × Json)), (∀ x ∈ (k, v) :: kvs, x.2.plainJson) →
    ∀ (n : Nat) (rest t : Str), (jsonPairs ((k, v) :: kvs)).length + 1 ≤ n →
    jsonPairs ((k, v) :: kvs) ++ '}' :: rest = '"' :: t → scanMembers n t = some ((k, v) :: kvs, rest)
  | k, v, kvs, h, 0, rest, t, hn, ht => absurd hn (by omega)
  | k, v, [], h, n + 1, rest, t, hn, ht => by
    have e : jsonPairs [(k, v)] = '"' :: (k.flatMap jsonChar ++ '"' :: ':' :: ' ' :: jsonDumps v) := by
      simp [jsonPairs, jsonStr]
    rw [e] at hn ht
    have ht : t = k.flatMap jsonChar ++ '"' :: (':' :: ' ' :: (jsonDumps v ++ '}' :: rest)) := by
      have := List.tail_eq_of_cons_eq ht
      rw [← this]; simp
    have hl : (jsonDumps v).length ≤ n := by
      simp only [List.length_append, List.length_cons] at hn; omega
    rw [ht]
    refine scanMembers_last (scanString_dumps _ _) (skipWs_of (by decide)) ?_ (skipWs_of (by decide))
    rw [skipWs_space, skipWs_dumps (h (k, v) (by simp)), scan_dumps v (h (k, v) (by simp)) n _ hl]
  | k, v, (k2, v2) :: kvs, h, n + 1, rest, t, hn, ht => by
    have e : jsonPairs ((k, v) :: (k2, v2) :: kvs) = '"' :: (k.flatMap jsonChar ++ '"' :: ':' :: ' ' :: (jsonDumps v ++
        ',' :: ' ' :: jsonPairs ((k2, v2) :: kvs))) := by
      conv_lhs => rw [jsonPairs]
      simp [jsonStr]
    rw [e] at hn ht
    obtain ⟨t2, e2⟩ : ∃ t2, jsonPairs ((k2, v2) :: kvs) ++ '}' :: rest = '"' :: t2 := by
      obtain ⟨t, e⟩ := pairs_head k2 v2 kvs
      rw [e]; exact ⟨_, rfl⟩
    have ht : t = k.flatMap jsonChar ++ '"' :: (':' :: ' ' :: (jsonDumps v ++ ',' :: ' ' :: '"' :: t2)) := by
      have := List.tail_eq_of_cons_eq ht
      rw [← this, ← e2]; simp
    have hl : (jsonDumps v).length ≤ n ∧ (jsonPairs ((k2, v2) :: kvs)).length + 1 ≤ n := by
      simp only [List.length_append, List.length_cons] at hn; omega
    rw [ht, scanMembers_more (scanString_dumps _ _) (skipWs_of (by decide)) (v := v)
      (r2 := ',' :: ' ' :: '"' :: t2) ?_ (skipWs_of (by decide)) (skipWs_space _ |>.trans (skipWs_of (by decide))),
      scan_members k2 v2 kvs (fun x hx => h x (by simp [hx])) n rest t2 hl.2 e2]
    · rfl
    · rw [skipWs_space, skipWs_dumps (h (k, v) (by simp)), scan_dumps v (h (k, v) (by simp)) n _ hl.1]
end

/-- `json.loads(json.dumps(v)) == v`. -/
theorem loads_dumps (v : Json) (h : v.plainJson) : jsonLoads (jsonDumps v) = some v := by
  unfold jsonLoads
  have e := skipWs_dumps h []
  rw [List.append_nil] at e
  have s := scan_dumps v h ((jsonDumps v).length + 1) [] (by omega)
  rw [List.append_nil] at s
  rw [e, s]
  rfl

end Qrexec
