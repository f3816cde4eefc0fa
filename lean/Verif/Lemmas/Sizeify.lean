import Verif.Lemmas.Common

/-! # Lemmas about sized serializations -/

namespace Cesride

/-! ## Entries of an object -/

theorem lookup_split {o : List (Str × Value)} {k : Str} {v : Value} (h : o.lookup k = some v) :
    ∃ o1 o2, o = o1 ++ (k, v) :: o2 ∧ k ∉ o1.map Prod.fst := by
  induction o with
  | nil => simp at h
  | cons e o ih =>
    obtain ⟨k', v'⟩ := e
    rw [List.lookup_cons] at h
    by_cases hk : k = k'
    · subst hk
      simp at h
      exact ⟨[], o, by simp [h], by simp⟩
    · have : (k == k') = false := by simp [hk]
      rw [this] at h
      obtain ⟨o1, o2, e, hn⟩ := ih h
      exact ⟨(k', v') :: o1, o2, by rw [e]; rfl, by simp [hk]; simpa using hn⟩

theorem lookup_of_split {o1 o2 : List (Str × Value)} {k : Str} {v : Value} (h : k ∉ o1.map Prod.fst) :
    (o1 ++ (k, v) :: o2).lookup k = some v := by
  induction o1 with
  | nil => simp
  | cons e o ih =>
    obtain ⟨k', v'⟩ := e
    simp only [List.map_cons, List.mem_cons, not_or] at h
    rw [List.cons_append, List.lookup_cons]
    have : (k == k') = false := by simp [h.1]
    rw [this]
    exact ih h.2

theorem insert_of_split {o1 o2 : List (Str × Value)} {k : Str} {v x : Value} (h : k ∉ o1.map Prod.fst) :
    Value.insert (o1 ++ (k, v) :: o2) k x = o1 ++ (k, x) :: o2 := by
  induction o1 with
  | nil => simp [Value.insert]
  | cons e o ih =>
    obtain ⟨k', v'⟩ := e
    simp only [List.map_cons, List.mem_cons, not_or] at h
    rw [List.cons_append, Value.insert, if_neg (fun e => h.1 e.symm), ih h.2]
    rfl

theorem lookup_none_iff {o : List (Str × Value)} {k : Str} : o.lookup k = none ↔ k ∉ o.map Prod.fst := by
  induction o with
  | nil => simp
  | cons e o ih =>
    obtain ⟨k', v'⟩ := e
    rw [List.lookup_cons]
    by_cases hk : k = k'
    · subst hk; simp
    · have : (k == k') = false := by simp [hk]
      rw [this]
      simp only [ih, List.map_cons, List.mem_cons, hk, false_or]

theorem insert_split (o : List (Str × Value)) (k : Str) : ∃ o1 o2, k ∉ o1.map Prod.fst ∧ (∀ x, Value.insert o k x = o1 ++ (k, x) :: o2) ∧
    (∀ v, o.lookup k = some v → o = o1 ++ (k, v) :: o2) := by
  cases h : o.lookup k with
  | none => exact ⟨o, [], lookup_none_iff.mp h, fun x => by rw [Json.insert_fresh (lookup_none_iff.mp h)], by simp⟩
  | some v =>
    obtain ⟨o1, o2, e, hn⟩ := lookup_split h
    refine ⟨o1, o2, hn, fun x => by rw [e, insert_of_split hn], ?_⟩
    intro w hw
    injection hw with hw
    rw [← hw]; exact e

theorem lookup_insert_self (o : List (Str × Value)) (k : Str) (x : Value) : (Value.insert o k x).lookup k = some x := by
  obtain ⟨o1, o2, hn, h, _⟩ := insert_split o k
  rw [h, lookup_of_split hn]

theorem insert_insert (o : List (Str × Value)) (k : Str) (x y : Value) : Value.insert (Value.insert o k x) k y = Value.insert o k y := by
  obtain ⟨o1, o2, hn, h, _⟩ := insert_split o k
  rw [h, insert_of_split hn, h]

theorem insert_lookup {o : List (Str × Value)} {k : Str} {x : Value} (h : o.lookup k = some x) : Value.insert o k x = o := by
  obtain ⟨o1, o2, hn, h1, h2⟩ := insert_split o k
  rw [h1, ← h2 x h]

theorem lookup_insert_ne (o : List (Str × Value)) {k j : Str} (x : Value) (h : j ≠ k) : (Value.insert o k x).lookup j = o.lookup j := by
  induction o with
  | nil =>
    have : (j == k) = false := by simp [h]
    simp [Value.insert, List.lookup_cons, this]
  | cons e o ih =>
    obtain ⟨k', v'⟩ := e
    rw [Value.insert]
    split
    · rename_i hk
      subst hk
      have : (j == k') = false := by simp [h]
      rw [List.lookup_cons, List.lookup_cons, this]
    · rw [List.lookup_cons, List.lookup_cons, ih]

theorem insert_comm {o : List (Str × Value)} {k j : Str} {x y : Value} (h : j ≠ k) (hk : (o.lookup k).isSome) (hj : (o.lookup j).isSome) :
    Value.insert (Value.insert o k x) j y = Value.insert (Value.insert o j y) k x := by
  induction o with
  | nil => simp at hk
  | cons e o ih =>
    obtain ⟨k', v'⟩ := e
    by_cases h1 : k' = k
    · subst h1
      have h2 : ¬ k' = j := fun e => h e.symm
      simp [Value.insert, h2]
    · by_cases h2 : k' = j
      · subst h2
        simp [Value.insert, h1]
      · simp only [Value.insert, if_neg h1, if_neg h2]
        rw [List.lookup_cons] at hk hj
        have e1 : (k == k') = false := by simp; exact fun e => h1 e.symm
        have e2 : (j == k') = false := by simp; exact fun e => h2 e.symm
        rw [e1] at hk; rw [e2] at hj
        rw [ih hk hj]

/-! ## The JSON text around one entry -/

/-- The text of the entries in front of an entry. -/
def jsonFore (o : List (Str × Value)) : Str := match o with | [] => [] | _ :: _ => fieldsJson o ++ [ch ',']
/-- The text of the entries after an entry. -/
def jsonBack (o : List (Str × Value)) : Str := match o with | [] => [] | _ :: _ => ch ',' :: fieldsJson o

theorem fieldsJson_split (o1 o2 : List (Str × Value)) (k : Str) (v : Value) :
    fieldsJson (o1 ++ (k, v) :: o2) = jsonFore o1 ++ (jsonStr k ++ ch ':' :: (v.toJson ++ jsonBack o2)) := by
  induction o1 with
  | nil => cases o2 <;> simp [fieldsJson, jsonFore, jsonBack]
  | cons e o1 ih =>
    obtain ⟨k', v'⟩ := e
    cases o1 with
    | nil =>
      simp only [List.nil_append, jsonFore] at ih
      simp only [List.singleton_append, fieldsJson, jsonFore]
      cases o2 <;> simp [fieldsJson, jsonBack]
    | cons f o1 =>
      obtain ⟨k2, v2⟩ := f
      rw [List.cons_append] at ih
      simp only [List.cons_append, fieldsJson, jsonFore] at ih ⊢
      rw [ih]
      simp

/-- Text in front of the value of the entry `k`, without the opening quote. -/
def objFore (o1 : List (Str × Value)) (k : Str) : Str := ch '{' :: (jsonFore o1 ++ (jsonStr k ++ [ch ':']))
/-- Text after the value. -/
def objBack (o2 : List (Str × Value)) : Str := jsonBack o2 ++ [ch '}']

theorem toJson_split (o1 o2 : List (Str × Value)) (k : Str) (v : Value) :
    (Value.obj (o1 ++ (k, v) :: o2)).toJson = objFore o1 k ++ (v.toJson ++ objBack o2) := by
  rw [Value.toJson, fieldsJson_split]
  simp [objFore, objBack]

theorem jsonStr_plain {s : Str} (h : ∀ c ∈ s, escapeByte c = [c]) : jsonStr s = ch '"' :: (s ++ [ch '"']) := by
  have : s.flatMap escapeByte = s := by
    induction s with
    | nil => rfl
    | cons c s ih => rw [List.flatMap_cons, h c (by simp), ih (fun c hc => h c (by simp [hc]))]; rfl
  rw [jsonStr, this]

end Cesride

namespace Cesride.Common
open Cesride Spec

theorem versionText_plain {vs i k : Str} {a b n : Nat} (h : VersionText vs i a b k n) : ∀ c ∈ vs, escapeByte c = [c] := by
  have hu : ∀ c ∈ upperCase, escapeByte c = [c] := by decide +kernel
  have hl : ∀ c ∈ lowerHex, escapeByte c = [c] := by decide +kernel
  obtain ⟨x, y, z, rfl, h1, h2, h3, h4, h5⟩ := h
  intro c hc
  simp only [List.mem_append] at hc
  rcases hc with ((((hc | hc) | hc) | hc) | hc) | hc
  · exact hu c (h1.2 c hc)
  · exact hl c (h2.2.1 c hc)
  · exact hl c (h3.2.1 c hc)
  · exact hu c (h4.2 c hc)
  · exact hl c (h5.2.1 c hc)
  · simp only [lit, List.mem_map] at hc
    obtain ⟨d, hd, rfl⟩ := hc
    simp at hd
    subst hd
    decide

/-- The JSON text of an object with a version string. -/
theorem toJson_versioned {o1 o2 : List (Str × Value)} {k vs i kd : Str} {a b n : Nat} (h : VersionText vs i a b kd n) :
    (Value.obj (o1 ++ (k, .str vs) :: o2)).toJson = objFore o1 k ++ ch '"' :: (vs ++ ch '"' :: objBack o2) := by
  rw [toJson_split, Value.toJson, jsonStr_plain (versionText_plain h)]
  simp

theorem find_quote (a x : Str) : find (a ++ ch '"' :: x) = (match find a with | some i => some i | none => (find x).map (· + (a.length + 1))) :=
  find_stop (rever_rejects (.inl rfl)) a x

/-- Where the search stops: in the text in front of the version string, or at the version string. -/
theorem find_versioned {A C vs i kd : Str} {a b n : Nat} (h : VersionText vs i a b kd n) :
    find (A ++ ch '"' :: (vs ++ C)) = some ((find A).getD (A.length + 1)) := by
  rw [find_quote, find_match (matchHere_prefix C ((matchHere_iff (versionText_length h)).mpr ⟨_, _, _, _, _, h⟩))]
  cases find A <;> simp

theorem find_objFore (o1 : List (Str × Value)) : find (objFore o1 (lit "v")) = (find (fieldsJson o1)).map (· + 1) := by
  have h0 : find (jsonStr (lit "v") ++ [ch ':']) = none := by decide +kernel
  have e : objFore o1 (lit "v") = [] ++ ch '{' :: (jsonFore o1 ++ (jsonStr (lit "v") ++ [ch ':'])) := rfl
  rw [e, find_stop (rever_rejects (.inr (.inr (.inl rfl))))]
  simp only [find, List.length_nil, Nat.zero_add]
  congr 1
  cases o1 with
  | nil => rw [jsonFore, List.nil_append, h0]; rfl
  | cons e o =>
    rw [jsonFore]
    simp only [List.append_assoc, List.cons_append, List.nil_append]
    rw [find_stop (rever_rejects (.inr (.inr (.inr rfl)))), h0]
    generalize find (fieldsJson _) = q
    cases q <;> rfl

/-- The version string `versify` writes for the current version. -/
def mkVs (i : Str) (n : Nat) : Str := i ++ hexStr 1 ++ hexStr 0 ++ lit "JSON" ++ hex6 n ++ lit "_"

theorem mkVs_text {i : Str} {n : Nat} (hi : i ∈ protocols) (hn : n < 2 ^ 24) : VersionText (mkVs i n) i 1 0 (lit "JSON") n :=
  ⟨_, _, _, rfl, protocol_word hi, hexStr_field1 (by decide), hexStr_field1 (by decide), json_word, hex6_field hn⟩

theorem mkVs_length {i : Str} {n : Nat} (hi : i ∈ protocols) : (mkVs i n).length = 17 ↔ n < 2 ^ 24 := by
  rw [← hex6_length]
  have h1 : (hexStr 1).length = 1 := by rw [hexStr_lt (by decide)]; rfl
  have h0 : (hexStr 0).length = 1 := by rw [hexStr_lt (by decide)]; rfl
  simp only [mkVs, List.length_append, h1, h0, (protocol_word hi).1, json_word.1, show (lit "_").length = 1 from rfl]
  omega

theorem versify_current {i : Str} (hi : i ∈ protocols) (n : Nat) : versify (some i) (some currentVersion) (some (lit "JSON")) (some n) = .ok (mkVs i n) := by
  rw [versify_eq]
  simp only [Option.getD_some, hi, and_self, if_true]
  rfl

theorem slice_all {α : Type} (v : List α) (a : Nat) (h : a ≤ v.length) : slice v 0 a = .ok (v.take a) ∧ slice v a v.length = .ok (v.drop a) := by
  unfold slice
  simp [h]

/-- Where `sizeify` writes the version string. -/
def vsStart (o1 : List (Str × Value)) : Nat := (find (objFore o1 (lit "v"))).getD ((objFore o1 (lit "v")).length + 1)

/-- What `sizeify` returns for an object with a current version string. -/
theorem sizeify_eq {o1 o2 : List (Str × Value)} {vs i : Str} {sz : Nat} {kind : Option Str} (hv : lit "v" ∉ o1.map Prod.fst)
    (h : VersionText vs i 1 0 (lit "JSON") sz) (hi : i ∈ protocols) (hk : kind.getD (lit "JSON") = lit "JSON") :
    let ked := Value.obj (o1 ++ (lit "v", .str vs) :: o2)
    let raw := ked.toJson
    let nvs := mkVs i (raw.length % 2 ^ 32)
    sizeify ked kind = if vsStart o1 ≤ 12 ∧ raw.length % 2 ^ 32 < 2 ^ 24 then
      .ok { raw := raw.take (vsStart o1) ++ nvs ++ raw.drop (vsStart o1 + 17), ident := i, kind := lit "JSON",
            ked := .obj (o1 ++ (lit "v", .str nvs) :: o2), version := currentVersion }
      else .err .value := by
  intro ked raw nvs
  have hl : (o1 ++ (lit "v", Value.str vs) :: o2).lookup (lit "v") = some (.str vs) := lookup_of_split hv
  have hd : deversify vs = .ok { ident := i, kind := lit "JSON", version := currentVersion, size := sz } := by
    rw [deversify_of_text h, if_pos ⟨hi, rfl⟩]; rfl
  have hkey : Value.hasKey (o1 ++ (lit "v", Value.str vs) :: o2) (lit "v") = true := by rw [Value.hasKey, hl]; rfl
  have hidx : ked.index (lit "v") = .ok (.str vs) := by
    show (match (o1 ++ (lit "v", Value.str vs) :: o2).lookup (lit "v") with | some x => Res.ok x | none => .panic) = _
    rw [hl]
  have hjs : serials.contains (lit "JSON") = true := (serials_iff _).mpr rfl
  have hraw : raw = objFore o1 (lit "v") ++ ch '"' :: (vs ++ ch '"' :: objBack o2) := toJson_versioned h
  have hf : find raw = some (vsStart o1) := by rw [hraw, find_versioned h]; rfl
  have hb := (find_some hf).1
  have hkd : (match kind with | some kind => kind | none => lit "JSON") = lit "JSON" := by
    cases kind with
    | none => rfl
    | some k => simpa using hk
  have hset : ∀ x, ked.set (lit "v") x = .ok (.obj (o1 ++ (lit "v", x) :: o2)) := by
    intro x
    show Res.ok (Value.obj (Value.insert _ _ _)) = _
    rw [insert_of_split hv]
  have hmap : ked.toMap = .ok (o1 ++ (lit "v", Value.str vs) :: o2) := rfl
  have hkg : kind.getD (lit "JSON") = lit "JSON" := hk
  rw [sizeify, hmap, Res.ok_bind, hkey]
  simp only [Bool.not_true, Bool.false_eq_true, if_false]
  rw [hidx, Res.ok_bind]
  have hts : (Value.str vs).toStr = .ok vs := rfl
  rw [hts, Res.ok_bind, hd, Res.ok_bind]
  simp only [ne_eq, not_true_eq_false, if_false, hkg, hjs, Bool.not_true, Bool.false_eq_true]
  have hdump : dumps ked (some (lit "JSON")) = .ok raw := rfl
  rw [hdump, Res.ok_bind]
  simp only [hf]
  by_cases hs : vsStart o1 ≤ 12
  · rw [if_neg (by omega), (slice_all raw (vsStart o1) (by omega)).1, Res.ok_bind, (slice_all raw (vsStart o1 + 17) hb).2, Res.ok_bind,
      versify_current hi, Res.ok_bind]
    by_cases hn : raw.length % 2 ^ 32 < 2 ^ 24
    · have hlen := (mkVs_length (n := raw.length % 2 ^ 32) hi).mpr hn
      rw [if_neg, if_pos ⟨hs, hn⟩]
      · rw [hset]; rfl
      · simp only [List.length_append, List.length_take, List.length_drop, hlen]
        omega
    · have hlen : (mkVs i (raw.length % 2 ^ 32)).length ≠ 17 := fun e => hn ((mkVs_length hi).mp e)
      rw [if_pos, if_neg (by simp [hn])]
      simp only [List.length_append, List.length_take, List.length_drop]
      omega
  · rw [if_pos (by omega), if_neg (by simp [hs])]

/-- When `sizeify` can return something. -/
theorem sizeify_ok {ked : Value} {kind : Option Str} {r : Sized} (h : sizeify ked kind = .ok r) :
    ∃ o1 o2 vs i sz, ked = .obj (o1 ++ (lit "v", .str vs) :: o2) ∧ lit "v" ∉ o1.map Prod.fst ∧ VersionText vs i 1 0 (lit "JSON") sz ∧ i ∈ protocols ∧
      kind.getD (lit "JSON") = lit "JSON" := by
  cases ked with
  | obj o =>
    rw [sizeify] at h
    obtain ⟨m, hm, h⟩ := Res.bind_eq_ok.mp h
    cases hm
    split at h
    · cases h
    obtain ⟨v, hv, h⟩ := Res.bind_eq_ok.mp h
    obtain ⟨vs, hs, h⟩ := Res.bind_eq_ok.mp h
    obtain ⟨d, hd, h⟩ := Res.bind_eq_ok.mp h
    have hlook : o.lookup (lit "v") = some v := by
      rw [Value.index] at hv
      cases hl : o.lookup (lit "v") with
      | none => simp only [hl] at hv; cases hv
      | some x => simp only [hl] at hv; injection hv with hv; rw [hv]
    have hvs : v = .str vs := by
      cases v <;> simp only [Value.toStr] at hs <;> cases hs
      rfl
    rw [hvs] at hlook
    obtain ⟨o1, o2, e, hn⟩ := lookup_split hlook
    obtain ⟨ht, hp, hkd⟩ := deversify_ok.mp hd
    split at h
    · cases h
    rename_i hver
    simp only [ne_eq, Decidable.not_not] at hver
    dsimp only at h
    split at h
    · cases h
    rename_i hser
    simp only [Bool.not_eq_true, Bool.not_eq_false'] at hser
    have hser := (serials_iff _).mp (by simpa using hser)
    rw [hver, hkd] at ht
    rw [hkd] at hser
    exact ⟨o1, o2, vs, d.ident, d.size, by rw [e], hn, ht, hp, hser⟩
  | _ => simp [sizeify, Value.toMap] at h

theorem sizeify_ne_panic (ked : Value) (kind : Option Str) : sizeify ked kind ≠ .panic := by
  intro h
  have h0 := h
  cases ked with
  | obj o =>
    rw [sizeify] at h
    have hm : (Value.obj o).toMap = .ok o := rfl
    rw [hm, Res.ok_bind] at h
    split at h
    · cases h
    rename_i hk
    obtain ⟨x, hx⟩ : ∃ x, o.lookup (lit "v") = some x := by
      simp only [Bool.not_eq_true, Bool.not_eq_false', Value.hasKey] at hk
      exact Option.isSome_iff_exists.mp (by simpa using hk)
    have hi : (Value.obj o).index (lit "v") = .ok x := by rw [Value.index]; simp only [hx]
    rw [hi, Res.ok_bind] at h
    cases x with
    | str vs =>
      have ht : (Value.str vs).toStr = .ok vs := rfl
      rw [ht, Res.ok_bind] at h
      rcases Res.bind_eq_panic.mp h with h | ⟨d, hd, h⟩
      · exact deversify_ne_panic _ h
      split at h
      · cases h
      rename_i hver
      dsimp only at h
      split at h
      · cases h
      rename_i hser
      obtain ⟨o1, o2, e, hn⟩ := lookup_split hx
      obtain ⟨hT, hp, hkd⟩ := deversify_ok.mp hd
      simp only [ne_eq, Decidable.not_not] at hver
      simp only [Bool.not_eq_true, Bool.not_eq_false'] at hser
      have hser := (serials_iff _).mp (by simpa using hser)
      rw [hver, hkd] at hT
      rw [hkd] at hser
      have h' : sizeify (.obj o) kind = .panic := h0
      rw [e, sizeify_eq hn hT hp hser] at h'
      split at h' <;> cases h'
    | _ => simp [Value.toStr] at h
  | _ => simp [sizeify, Value.toMap] at h

end Cesride.Common
