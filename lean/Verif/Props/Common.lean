import Verif.Lemmas.Sizeify

/-! # C40, C41: version strings and sized serializations -/

namespace Cesride
open Spec Common

/-! ## C40 -/

/-- C40: a version string is accepted exactly when it has the layout `PPPPvvKKKKssssss_` with a known protocol and kind; what
is returned are its components. -/
theorem C40_accepted_iff (vs : Str) (r : Versioned) : deversify vs = .ok r ↔
    VersionText vs r.ident r.version.major r.version.minor r.kind r.size ∧ r.ident ∈ protocols ∧ r.kind = lit "JSON" := deversify_ok

/-- The strings of a layout are determined by the components. -/
theorem VersionText_unique {s t i k : Str} {a b n : Nat} (hs : VersionText s i a b k n) (ht : VersionText t i a b k n) : s = t := by
  obtain ⟨x, y, z, rfl, _, h2, h3, _, h5⟩ := hs
  obtain ⟨x', y', z', rfl, _, g2, g3, _, g5⟩ := ht
  rw [Common.HexField.unique h2 g2, Common.HexField.unique h3 g3, Common.HexField.unique h5 g5]

/-- Digits bound a field. -/
theorem HexField_lt {s : Str} {w n : Nat} (h : HexField s w n) : n < 16 ^ w := by
  obtain ⟨hl, hc, rfl⟩ := h
  rw [← hl]; exact lowHexNum_lt hc

/-- C40: every accepted string is what `versify` writes for the returned components. -/
theorem C40_versify_deversify {vs : Str} {r : Versioned} (h : deversify vs = .ok r) :
    versify (some r.ident) (some r.version) (some r.kind) (some r.size) = .ok vs := by
  obtain ⟨ht, hp, hk⟩ := deversify_ok.mp h
  have hb : r.version.major < 16 ∧ r.version.minor < 16 ∧ r.size < 2 ^ 24 := by
    obtain ⟨x, y, z, _, _, h2, h3, _, h5⟩ := ht
    have := HexField_lt h2; have := HexField_lt h3; have := HexField_lt h5
    omega
  rw [hk] at ht ⊢
  obtain ⟨vs', h1, h2⟩ := versify_text hp hb.1 hb.2.1 hb.2.2
  rw [h1, VersionText_unique ht h2]

/-- C40: what `versify` writes is read back, exactly when version digits are below 16 and the size is below `2 ^ 24`; otherwise
the string that was written is refused. -/
theorem C40_deversify_versify {i k vs : Str} {v : Version} {n : Nat} (h : versify (some i) (some v) (some k) (some n) = .ok vs) :
    (v.major < 16 ∧ v.minor < 16 ∧ n < 2 ^ 24 → deversify vs = .ok { ident := i, kind := k, version := v, size := n }) ∧
    (¬ (v.major < 16 ∧ v.minor < 16 ∧ n < 2 ^ 24) → ∃ e, deversify vs = .err e) := by
  have h0 := h
  rw [versify_eq] at h
  simp only [Option.getD_some] at h
  split at h
  case isFalse => cases h
  rename_i hik
  obtain ⟨hi, rfl⟩ := hik
  constructor
  · rintro ⟨h1, h2, h3⟩
    obtain ⟨vs', e, ht⟩ := versify_text hi h1 h2 h3
    rw [h0] at e
    injection e with e
    subst e
    exact deversify_ok.mpr ⟨ht, hi, rfl⟩
  · intro hb
    cases hd : deversify vs with
    | err e => exact ⟨e, rfl⟩
    | panic => exact absurd hd (deversify_ne_panic vs)
    | ok r =>
      exfalso
      apply hb
      obtain ⟨ht, _, _⟩ := deversify_ok.mp hd
      have hl := versionText_length ht
      injection h with h
      have one : ∀ m : Nat, 1 ≤ (hexStr m).length := by
        intro m
        rw [hexStr]
        split <;> simp
      have h6 : 6 ≤ (hex6 n).length := by
        simp only [hex6, List.length_append, List.length_replicate]
        omega
      have e1 := one v.major
      have e2 := one v.minor
      rw [← h] at hl
      simp only [List.length_append, (protocol_word hi).1, json_word.1, show (lit "_").length = 1 from rfl] at hl
      have l1 := (hexStr_length_le v.major 1 (by decide)).mp (by omega)
      have l2 := (hexStr_length_le v.minor 1 (by decide)).mp (by omega)
      exact ⟨by omega, by omega, (hex6_length n).mp (by omega)⟩

/-- C40: `versify` writes for every known protocol and kind, whatever version and size, and only for those. -/
theorem C40_versify_ok_iff (i k : Str) (v : Version) (n : Nat) :
    (∃ vs, versify (some i) (some v) (some k) (some n) = .ok vs) ↔ i ∈ protocols ∧ k = lit "JSON" := by
  rw [versify_eq]
  simp only [Option.getD_some]
  split <;> simp_all

/-- C40: no input panics. -/
theorem C40_total (vs : Str) (i k : Option Str) (v : Option Version) (n : Option Nat) : deversify vs ≠ .panic ∧ versify i v k n ≠ .panic := by
  refine ⟨deversify_ne_panic vs, ?_⟩
  rw [versify_eq]
  split <;> simp

example : versify (some (lit "ACDC")) (some ⟨1, 15⟩) (some (lit "JSON")) (some 0xabcdef) = .ok (lit "ACDC1fJSONabcdef_") := by decide +kernel
example : deversify (lit "ACDC1fJSONabcdef_") = .ok { ident := lit "ACDC", kind := lit "JSON", version := ⟨1, 15⟩, size := 0xabcdef } := by
  decide +kernel
/-- The exception of C40 is reachable: a `u32` size of `2 ^ 24` is written with seven digits and refused when read. -/
example : versify none none none (some (2 ^ 24)) = .ok (lit "KERI10JSON1000000_") ∧ deversify (lit "KERI10JSON1000000_") = .err .validation := by
  decide +kernel

/-! ## C41 -/

/-- C41: what sizing a map gives. The returned map is the given one with a new `v`; the size it declares is the number of
bytes returned (modulo `2 ^ 32`), which is also the length of the serialization of the returned map. -/
theorem C41_size {ked : Value} {kind : Option Str} {r : Sized} (h : sizeify ked kind = .ok r) :
    ∃ o vs, ked = .obj o ∧ (o.lookup (lit "v")).isSome ∧ r.ked = .obj (Value.insert o (lit "v") (.str vs)) ∧
      deversify vs = .ok { ident := r.ident, kind := r.kind, version := ⟨1, 0⟩, size := r.raw.length % 2 ^ 32 } ∧
      r.raw.length = r.ked.toJson.length ∧ r.version = ⟨1, 0⟩ ∧ r.kind = lit "JSON" := by
  obtain ⟨o1, o2, vs, i, sz, rfl, hn, ht, hi, hk⟩ := sizeify_ok h
  have hraw := toJson_versioned (o1 := o1) (o2 := o2) (k := lit "v") ht
  rw [sizeify_eq hn ht hi hk] at h
  split at h
  case isFalse => cases h
  rename_i hc
  injection h with h
  subst h
  have hT := mkVs_text hi hc.2
  have hlen := versionText_length hT
  have hvl := versionText_length ht
  have hraw2 := toJson_versioned (o1 := o1) (o2 := o2) (k := lit "v") hT
  have hf : vsStart o1 + 17 ≤ (Value.obj (o1 ++ (lit "v", .str vs) :: o2)).toJson.length := by
    refine (find_some (?_ : find _ = some (vsStart o1))).1
    rw [hraw, find_versioned ht]; rfl
  have hrl : ((Value.obj (o1 ++ (lit "v", .str vs) :: o2)).toJson.take (vsStart o1) ++
      mkVs i ((Value.obj (o1 ++ (lit "v", .str vs) :: o2)).toJson.length % 2 ^ 32) ++
      (Value.obj (o1 ++ (lit "v", .str vs) :: o2)).toJson.drop (vsStart o1 + 17)).length =
      (Value.obj (o1 ++ (lit "v", .str vs) :: o2)).toJson.length := by
    simp only [List.length_append, List.length_take, List.length_drop, hlen]
    omega
  refine ⟨_, mkVs i _, rfl, by rw [lookup_of_split hn]; rfl, by rw [insert_of_split hn], ?_, ?_, rfl, rfl⟩
  · rw [hrl]
    exact deversify_ok.mpr ⟨hT, hi, rfl⟩
  · show List.length (_ ++ _ ++ _) = _
    rw [hrl, hraw2]
    have e := congrArg List.length hraw
    simp only [List.length_append, List.length_cons, hvl] at e
    simp only [List.length_append, List.length_cons, hlen]
    exact e

/-- C41: the returned bytes are the serialization of the returned map, when no version-like text precedes the version field. -/
theorem C41_bytes {o1 o2 : List (Str × Value)} {x : Value} {kind : Option Str} {r : Sized}
    (h : sizeify (.obj (o1 ++ (lit "v", x) :: o2)) kind = .ok r) (hv : lit "v" ∉ o1.map Prod.fst) (hn : NoVersionLike (Value.obj o1).toJson) :
    r.raw = r.ked.toJson := by
  obtain ⟨o1', o2', vs, i, sz, e, hn', ht, hi, hk⟩ := sizeify_ok h
  injection e with e
  have hx : x = .str vs := by
    have a := lookup_of_split (o2 := o2) (v := x) hv
    rw [e, lookup_of_split hn'] at a
    injection a with a; exact a.symm
  subst hx
  have hf : find (objFore o1 (lit "v")) = none := by
    rw [find_objFore, Option.map_eq_none_iff, find_none_iff]
    intro p w q e
    refine hn (ch '{' :: p) w (q ++ [ch '}']) ?_
    rw [Value.toJson, e]; simp
  rw [sizeify_eq hv ht hi hk] at h
  split at h
  case isFalse => cases h
  rename_i hc
  injection h with h
  subst h
  have hT := mkVs_text hi hc.2
  have hvl := versionText_length ht
  have hs : vsStart o1 = (objFore o1 (lit "v")).length + 1 := by rw [vsStart, hf]; rfl
  show List.take _ _ ++ _ ++ List.drop _ _ = _
  rw [toJson_versioned hT]
  generalize mkVs i _ = nvs
  rw [toJson_versioned ht, hs]
  have e1 : objFore o1 (lit "v") ++ ch '"' :: (vs ++ ch '"' :: objBack o2) = (objFore o1 (lit "v") ++ [ch '"']) ++ (vs ++ ch '"' :: objBack o2) := by simp
  have e2 : (objFore o1 (lit "v") ++ [ch '"']).length = (objFore o1 (lit "v")).length + 1 := by simp
  rw [e1, ← e2, List.take_left, ← List.drop_drop, List.drop_left, ← hvl, List.drop_left]
  simp

/-- C41: with the version field first the bytes are always the serialization, and sizing succeeds for every current version
string and every serialization below 16 MiB. -/
theorem C41_version_first {rest : List (Str × Value)} {vs i : Str} {n : Nat} (ht : VersionText vs i 1 0 (lit "JSON") n) (hi : i ∈ protocols)
    (hl : (Value.obj ((lit "v", .str vs) :: rest)).toJson.length < 2 ^ 24) :
    ∃ r, sizeify (.obj ((lit "v", .str vs) :: rest)) none = .ok r ∧ r.raw = r.ked.toJson ∧ r.ident = i := by
  have hn : lit "v" ∉ ([] : List (Str × Value)).map Prod.fst := by simp
  have e := sizeify_eq (o2 := rest) (kind := none) hn ht hi rfl
  simp only [List.nil_append] at e
  rw [if_pos ⟨by decide +kernel, by omega⟩] at e
  exact ⟨_, e, C41_bytes (o1 := []) e hn (by
    rw [← find_none_iff]; decide +kernel), rfl⟩

/-- C41: sizing never panics. -/
theorem C41_total (ked : Value) (kind : Option Str) : sizeify ked kind ≠ .panic := sizeify_ne_panic ked kind

/-- C41: sizing what has been sized changes nothing. -/
theorem C41_idempotent {ked : Value} {kind kind' : Option Str} {r : Sized} (h : sizeify ked kind = .ok r)
    (hk' : kind' = none ∨ kind' = some (lit "JSON")) :
    ∃ r', sizeify r.ked kind' = .ok r' ∧ r'.ked = r.ked ∧ r'.ident = r.ident ∧ r'.version = r.version ∧ r'.raw.length = r.raw.length := by
  obtain ⟨_, _, _, _, _, _, hlen, _⟩ := C41_size h
  obtain ⟨o1, o2, vs, i, sz, rfl, hn, ht, hi, hk⟩ := sizeify_ok h
  rw [sizeify_eq hn ht hi hk] at h
  split at h
  case isFalse => cases h
  rename_i hc
  injection h with h
  subst h
  have hT := mkVs_text hi hc.2
  have e := sizeify_eq (o2 := o2) (kind := kind') hn hT hi (by rcases hk' with rfl | rfl <;> rfl)
  have hl : (Value.obj (o1 ++ (lit "v", .str (mkVs i ((Value.obj (o1 ++ (lit "v", .str vs) :: o2)).toJson.length % 2 ^ 32))) :: o2)).toJson.length =
      (Value.obj (o1 ++ (lit "v", .str vs) :: o2)).toJson.length := by
    rw [toJson_versioned hT]
    generalize hm : mkVs i _ = nvs at hT
    rw [toJson_versioned ht]
    simp only [List.length_append, List.length_cons, versionText_length ht, versionText_length hT]
  simp only [hl] at e
  rw [if_pos hc] at e
  refine ⟨_, e, rfl, rfl, rfl, ?_⟩
  obtain ⟨_, _, _, _, _, _, hlen', _⟩ := C41_size e
  rw [hlen']
  exact hlen.symm

/-- A map with a version-like key in front of its version field. -/
def C41_trap : Value := .obj [(lit "KERI10JSON000000_", .int 0), (lit "v", .str (lit "KERI10JSON000000_"))]

/-- C41, defect: for this map the key is overwritten in the returned bytes, the version string in the returned map, so the bytes
are not the serialization of the map. -/
theorem C41_defect : ∃ r, sizeify C41_trap none = .ok r ∧ r.raw ≠ r.ked.toJson ∧
    r.raw = lit "{\"KERI10JSON00002f_\":0,\"v\":\"KERI10JSON000000_\"}" ∧
    r.ked.toJson = lit "{\"KERI10JSON000000_\":0,\"v\":\"KERI10JSON00002f_\"}" := by
  have hn : lit "v" ∉ [(lit "KERI10JSON000000_", Value.int 0)].map Prod.fst := by decide +kernel
  have ht : VersionText (lit "KERI10JSON000000_") (lit "KERI") 1 0 (lit "JSON") 0 := by
    have := (deversify_ok (vs := lit "KERI10JSON000000_") (r := ⟨lit "KERI", lit "JSON", ⟨1, 0⟩, 0⟩)).mp (by decide +kernel)
    exact this.1
  have e := sizeify_eq (o2 := []) (kind := none) hn ht (by decide +kernel) rfl
  simp only [List.cons_append, List.nil_append] at e
  rw [if_pos (by decide +kernel)] at e
  refine ⟨_, e, ?_, ?_, ?_⟩ <;> decide +kernel

end Cesride
