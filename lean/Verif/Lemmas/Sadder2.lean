import Verif.Lemmas.Sadder

/-! # Lemmas on messages with the version field first -/

namespace Cesride
open Common Spec

/-- The text in front of a leading version string. -/
def vHead : Str := lit "{\"v\":\""

theorem toJson_first {rest : List (Str × Value)} {vs i k : Str} {a b n : Nat} (ht : VersionText vs i a b k n) :
    (Value.obj ((lit "v", .str vs) :: rest)).toJson = vHead ++ vs ++ (ch '"' :: objBack rest) := by
  have := toJson_versioned (o1 := []) (o2 := rest) (k := lit "v") ht
  simp only [List.nil_append] at this
  rw [this, show objFore [] (lit "v") = lit "{\"v\":" from by decide +kernel, show vHead = lit "{\"v\":" ++ [ch '"'] from by decide +kernel]
  simp

/-- Sizing a map with the version field first. -/
theorem sizeify_first {rest : List (Str × Value)} {x : Value} {kind : Option Str} {r : Sized} :
    sizeify (.obj ((lit "v", x) :: rest)) kind = .ok r ↔
    ∃ vs i sz, x = .str vs ∧ VersionText vs i 1 0 (lit "JSON") sz ∧ i ∈ protocols ∧ kind.getD (lit "JSON") = lit "JSON" ∧
      (Value.obj ((lit "v", x) :: rest)).toJson.length % 2 ^ 32 < 2 ^ 24 ∧
      r = { raw := (Value.obj ((lit "v", .str (mkVs i ((Value.obj ((lit "v", x) :: rest)).toJson.length % 2 ^ 32))) :: rest)).toJson, ident := i, kind := lit "JSON",
            ked := .obj ((lit "v", .str (mkVs i ((Value.obj ((lit "v", x) :: rest)).toJson.length % 2 ^ 32))) :: rest), version := currentVersion } := by
  have hn : lit "v" ∉ ([] : List (Str × Value)).map Prod.fst := by simp
  have h12 : vsStart [] ≤ 12 := by decide +kernel
  constructor
  · intro h
    obtain ⟨o1, o2, vs, i, sz, e, hv, ht, hi, hk⟩ := sizeify_ok h
    have hx : x = .str vs := by
      injection e with e
      have := congrArg (List.lookup (lit "v")) e
      rw [lookup_of_split hv] at this
      simpa using this
    subst hx
    have e := sizeify_eq (o2 := rest) (kind := kind) hn ht hi hk
    simp only [List.nil_append] at e
    rw [h] at e
    split at e
    · rename_i hc
      injection e with e
      refine ⟨vs, i, sz, rfl, ht, hi, hk, hc.2, ?_⟩
      have hb := C41_bytes (o1 := []) (o2 := rest) (x := .str vs) h hn (by rw [← find_none_iff]; decide +kernel)
      have hked : r.ked = .obj ((lit "v", .str (mkVs i ((Value.obj ((lit "v", .str vs) :: rest)).toJson.length % 2 ^ 32))) :: rest) := by rw [e]
      rw [hked] at hb
      rw [← hb, ← hked, e]
    · cases e
  · rintro ⟨vs, i, sz, rfl, ht, hi, hk, hlt, rfl⟩
    have e := sizeify_eq (o2 := rest) (kind := kind) hn ht hi hk
    simp only [List.nil_append] at e
    rw [if_pos ⟨h12, hlt⟩] at e
    have hb := C41_bytes (o1 := []) (o2 := rest) (x := .str vs) e hn (by rw [← find_none_iff]; decide +kernel)
    dsimp only at hb
    rw [e, hb]

theorem toJson_first_length {rest : List (Str × Value)} {vs i k vs' i' k' : Str} {a b n a' b' n' : Nat} (ht : VersionText vs i a b k n)
    (ht' : VersionText vs' i' a' b' k' n') :
    (Value.obj ((lit "v", .str vs) :: rest)).toJson.length = (Value.obj ((lit "v", .str vs') :: rest)).toJson.length := by
  rw [toJson_first ht, toJson_first ht']
  simp [versionText_length ht, versionText_length ht']

/-- A version string after text without upper-case letters is the first one. -/
theorem first_version' {h vs i k : Str} {a b n : Nat} (ht : VersionText vs i a b k n) (hh : ∀ c ∈ h, c ∉ upperCase) (tail : Str) :
    FirstVersion (h ++ vs ++ tail) h vs tail := by
  refine ⟨rfl, ⟨i, a, b, k, n, ht⟩, ?_⟩
  intro pre w post e hw
  rw [Nat.le_iff_lt_add_one]
  apply Decidable.byContradiction
  intro hlt
  obtain ⟨i', a', b', k', n', x, y, z, rfl, h1, _⟩ := hw
  have hne : i' ≠ [] := by intro h; rw [h] at h1; cases h1.1
  obtain ⟨c, i'', rfl⟩ := List.exists_cons_of_ne_nil hne
  have hc := h1.2 c (by simp)
  have h2 : (h ++ vs ++ tail)[pre.length]? = some c := by
    rw [e]
    simp
  rw [List.append_assoc, List.getElem?_append_left (by omega)] at h2
  exact hh c (List.mem_of_getElem? h2) hc

/-- A leading version string is the first one. -/
theorem first_version {vs i k : Str} {a b n : Nat} (ht : VersionText vs i a b k n) (tail : Str) : FirstVersion (vHead ++ vs ++ tail) vHead vs tail :=
  first_version' ht (by decide +kernel) tail

/-- What the bytes of such a message announce. -/
theorem sniff_first {vs i : Str} {n : Nat} {a b : Nat} (ht : VersionText vs i a b (lit "JSON") n) {tail : Str} (hl : 6 ≤ tail.length)
    (hu : utf8Valid (vHead ++ vs ++ tail) = true) :
    sniff (vHead ++ vs ++ tail) = .ok { ident := i, kind := lit "JSON", version := { major := a, minor := b }, size := n } := by
  have hlen : vHead.length = 6 := by decide +kernel
  rw [sniff_of (by simp [versionText_length ht, hlen]; omega) hu (first_version ht tail) ht (by omega), if_pos rfl]

/-- A message with a `d` field is long enough. -/
theorem objBack_length {rest : List (Str × Value)} {k : Str} (h : k ∈ rest.map Prod.fst) : 5 ≤ (objBack rest).length := by
  obtain ⟨x, hx⟩ := Option.isSome_iff_exists.mp (Saider.hasKey_iff.mpr h)
  obtain ⟨o1, o2, rfl, _⟩ := lookup_split hx
  have : jsonBack (o1 ++ (k, x) :: o2) = ch ',' :: fieldsJson (o1 ++ (k, x) :: o2) := by cases o1 <;> rfl
  rw [objBack, this, fieldsJson_split]
  simp only [List.cons_append, List.length_cons, List.length_append, jsonStr]
  simp
  omega

theorem isB64_plain : ∀ c : UInt8, isB64 c = true → escapeByte c = [c] :=
  byte_forall (P := fun c => isB64 c = true → escapeByte c = [c]) (by decide +kernel)

theorem dummy_plain : escapeByte (ch '#') = [ch '#'] := by decide +kernel

/-- Replacing a text by a text of the same length keeps the length of the serialization. -/
theorem toJson_insert_length {o : List (Str × Value)} {k s t : Str} (hs : ∀ c ∈ s, escapeByte c = [c]) (ht : ∀ c ∈ t, escapeByte c = [c]) (hl : s.length = t.length) :
    (Value.obj (Value.insert o k (.str s))).toJson.length = (Value.obj (Value.insert o k (.str t))).toJson.length := by
  obtain ⟨o1, o2, _, h, _⟩ := insert_split o k
  rw [h, h, toJson_split, toJson_split, Value.toJson, Value.toJson, jsonStr_plain hs, jsonStr_plain ht]
  simp [hl]

theorem insert_first {rest : List (Str × Value)} {x y : Value} {k : Str} (h : k ≠ lit "v") :
    Value.insert ((lit "v", x) :: rest) k y = (lit "v", x) :: Value.insert rest k y := by
  rw [Value.insert, if_neg (fun e => h e.symm)]

theorem plain_first {rest : List (Str × Value)} {vs vs' : Str} (h : Plain (.obj ((lit "v", .str vs) :: rest))) : Plain (.obj ((lit "v", .str vs') :: rest)) := by
  simp only [Plain, PlainFields, List.map_cons] at h ⊢
  exact ⟨⟨trivial, h.1.2⟩, h.2⟩

theorem depth_first {rest : List (Str × Value)} {vs vs' : Str} : depth (.obj ((lit "v", .str vs) :: rest)) = depth (.obj ((lit "v", .str vs') :: rest)) := by
  simp only [depth, depthFields]

theorem utf8_first {rest : List (Str × Value)} {vs vs' i k : Str} {a b n : Nat} (ht : VersionText vs' i a b k n) (h : Utf8Value (.obj ((lit "v", .str vs) :: rest))) :
    Utf8Value (.obj ((lit "v", .str vs') :: rest)) := by
  simp only [Utf8Value, Utf8Fields] at h ⊢
  exact ⟨h.1, utf8Valid_ascii (versionText_ascii ht), h.2.2⟩

end Cesride
