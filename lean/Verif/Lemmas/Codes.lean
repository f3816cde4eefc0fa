import Verif.Lemmas.B64

/-! # Slices and code conversions -/

namespace Cesride

/-! ## Slices -/

theorem sliceStr_ok {s t : Str} {a b : Nat} (h : sliceStr s a b = .ok t) :
    a ≤ b ∧ b ≤ s.length ∧ t = (s.take b).drop a := by
  unfold sliceStr at h
  split at h
  · rename_i hc; cases h; exact ⟨hc.1, hc.2.1, rfl⟩
  · cases h

theorem slice_ok {α : Type} {s t : List α} {a b : Nat} (h : slice s a b = .ok t) :
    a ≤ b ∧ b ≤ s.length ∧ t = (s.take b).drop a := by
  unfold slice at h
  split at h
  · rename_i hc; cases h; exact ⟨hc.1, hc.2, rfl⟩
  · cases h

theorem slice_eq {α : Type} {s : List α} {a b : Nat} (h1 : a ≤ b) (h2 : b ≤ s.length) :
    slice s a b = .ok ((s.take b).drop a) := by
  simp [slice, h1, h2]

theorem slice_to_end {α : Type} {s : List α} {a : Nat} (h1 : a ≤ s.length) :
    slice s a s.length = .ok (s.drop a) := by
  simp [slice, h1]

/-- All bytes are ASCII. -/
def Ascii (s : Str) : Prop := ∀ c ∈ s, c < 128

theorem isCont_of_ascii {b : UInt8} (h : b < 128) : isCont b = false := by
  have : b.toNat < 128 := by simpa [UInt8.lt_iff_toNat_lt] using h
  simp only [isCont, beq_eq_false_iff_ne]
  omega

theorem isBoundary_ascii {s : Str} (h : Ascii s) {i : Nat} (hi : i ≤ s.length) : isBoundary s i = true := by
  unfold isBoundary
  cases hs : s[i]? with
  | none =>
    have := List.getElem?_eq_none_iff.mp hs
    simp; omega
  | some b =>
    have hm : b ∈ s := List.mem_of_getElem? hs
    simp [isCont_of_ascii (h b hm)]

theorem isBoundary_zero (s : Str) : isBoundary s 0 = true := by
  unfold isBoundary
  cases s <;> simp

/-- A valid UTF-8 string does not start with a continuation byte. -/
theorem utf8_head {c : UInt8} {r : Str} (h : utf8Valid (c :: r) = true) : isCont c = false := by
  unfold utf8Valid at h
  by_cases h1 : c < 128
  · exact isCont_of_ascii h1
  · simp only [h1, if_false] at h
    have hc : 194 ≤ c.toNat := by
      apply Classical.byContradiction
      intro hlt
      have e1 : ¬ (194 ≤ c) := by rw [UInt8.le_iff_toNat_le]; simpa using hlt
      have e2 : ¬ (224 ≤ c) := by rw [UInt8.le_iff_toNat_le]; simp; omega
      have e3 : ¬ (240 ≤ c) := by rw [UInt8.le_iff_toNat_le]; simp; omega
      simp [e1, e2, e3] at h
    simp only [isCont, beq_eq_false_iff_ne]
    omega

/-- Boundaries inside an ASCII prefix followed by a valid string. -/
theorem isBoundary_prefix {q rest : Str} (hq : Ascii q) (hr : utf8Valid rest = true) {i : Nat}
    (hi : i ≤ q.length) : isBoundary (q ++ rest) i = true := by
  unfold isBoundary
  cases hs : (q ++ rest)[i]? with
  | none =>
    have := List.getElem?_eq_none_iff.mp hs
    simp at this ⊢; omega
  | some b =>
    by_cases hlt : i < q.length
    · rw [List.getElem?_append_left hlt] at hs
      simp [isCont_of_ascii (hq b (List.mem_of_getElem? hs))]
    · have hi : i = q.length := by omega
      rw [List.getElem?_append_right (by omega)] at hs
      cases rest with
      | nil => simp at hs
      | cons c r =>
        simp [hi] at hs
        subst hs
        simp [utf8_head hr]

theorem sliceStr_prefix {q rest : Str} (hq : Ascii q) (hr : utf8Valid rest = true) {a b : Nat}
    (hab : a ≤ b) (hb : b ≤ q.length) : sliceStr (q ++ rest) a b = .ok ((q.take b).drop a) := by
  unfold sliceStr
  rw [if_pos ⟨hab, by simp; omega, isBoundary_prefix hq hr (by omega), isBoundary_prefix hq hr hb⟩]
  rw [List.take_append_of_le_length hb]

theorem sliceStr_ascii {q : Str} (hq : Ascii q) {a b : Nat}
    (hab : a ≤ b) (hb : b ≤ q.length) : sliceStr q a b = .ok ((q.take b).drop a) := by
  have := sliceStr_prefix (rest := []) hq (by rfl) hab hb
  simpa using this

theorem sliceStr_ascii_to_end {q : Str} (hq : Ascii q) {a : Nat}
    (ha : a ≤ q.length) : sliceStr q a q.length = .ok (q.drop a) := by
  rw [sliceStr_ascii hq ha (Nat.le_refl _)]; simp

theorem ascii_of_isB64 {s : Str} (h : ∀ c ∈ s, isB64 c = true) : Ascii s :=
  fun c hc => isB64_lt128 c (h c hc)

theorem ascii_encD {d : List Nat} (h : ∀ x ∈ d, x < 64) : Ascii (encD d) := ascii_of_isB64 (encD_isB64 h)

theorem ascii_append {a b : Str} (ha : Ascii a) (hb : Ascii b) : Ascii (a ++ b) := by
  intro c hc
  rcases List.mem_append.mp hc with h | h
  · exact ha c h
  · exact hb c h

/-! ## The sextet stream of a byte string -/

/-- Sextets of the zero-padded byte string, as in `nab_sextets`. -/
def sext (b : List UInt8) : List Nat := sextets (b ++ List.replicate (3 - b.length % 3) 0)

theorem sext_lt (b : List UInt8) : ∀ d ∈ sext b, d < 64 := sextets_lt _

theorem padded_length (b : List UInt8) : (b ++ List.replicate (3 - b.length % 3) (0 : UInt8)).length % 3 = 0 := by
  simp; omega

theorem sext_length (b : List UInt8) : (sext b).length = (b.length / 3 + 1) * 4 := by
  rw [sext, sextets_length]; simp; omega

theorem sext_append_take {a rest : List UInt8} (ha : a.length % 3 = 0) {k : Nat} (hk : k ≤ a.length / 3 * 4) :
    (sext (a ++ rest)).take k = (sextets a).take k := by
  unfold sext
  rw [List.append_assoc, sextets_append _ ha, List.take_append_of_le_length]
  rw [sextets_length]; exact hk

/-- Value of the leading `len` sextets in terms of the leading bytes. -/
theorem valB_sext_take (b : List UInt8) {len : Nat} (h : (len + 1) * 3 / 4 ≤ b.length) :
    valB 64 ((sext b).take len) = beNat (b.take ((len + 1) * 3 / 4)) / 4 ^ (len % 4) := by
  have hp := padded_length b
  have htake : b.take ((len + 1) * 3 / 4)
      = (b ++ List.replicate (3 - b.length % 3) (0 : UInt8)).take ((len + 1) * 3 / 4) := by
    rw [List.take_append_of_le_length h]
  rw [valB_take (sext_lt b), htake, beNat_take, sext_length]
  unfold sext
  rw [valB_sextets hp, Nat.div_div_eq_div_mul]
  congr 1
  have e64 : (64 : Nat) = 2 ^ 6 := by decide
  have e256 : (256 : Nat) = 2 ^ 8 := by decide
  have e4 : (4 : Nat) = 2 ^ 2 := by decide
  rw [e64, e256, e4, ← Nat.pow_mul, ← Nat.pow_mul, ← Nat.pow_mul, ← Nat.pow_add]
  congr 1
  simp
  omega

theorem codeB2ToB64_eq (E : Env) (b : List UInt8) {len : Nat} (hl : len ≤ 8)
    (h : (len + 1) * 3 / 4 ≤ b.length) :
    codeB2ToB64 E b len = .ok (encD ((sext b).take len)) := by
  unfold codeB2ToB64
  split
  · rename_i h0; subst h0; simp
  · rename_i h0
    have hlen : ((sext b).take len).length = len := by
      rw [List.length_take, sext_length]; omega
    have hlt : ∀ d ∈ (sext b).take len, d < 64 := fun d hd => sext_lt b d (List.mem_of_mem_take hd)
    have hv := valB_lt hlt
    rw [hlen] at hv
    have hd := digitsB_valB hlt
    rw [hlen] at hd
    have h64 : valB 64 ((sext b).take len) < 2 ^ 64 := by
      have : 64 ^ len ≤ 64 ^ 8 := Nat.pow_le_pow_right (by decide) hl
      omega
    have hval := valB_sext_take b h
    simp only [show ¬ (b.length < (len + 1) * 3 / 4) by omega, if_false]
    have aux : ∀ k x : Nat, x * 256 ^ k / 2 ^ (2 * (len % 4) + k * 8) = x / 4 ^ (len % 4) := by
      intro k x
      have : 2 ^ (2 * (len % 4) + k * 8) = 4 ^ (len % 4) * 256 ^ k := by
        rw [Nat.pow_add, Nat.pow_mul, Nat.mul_comm k 8, Nat.pow_mul]
      rw [this, Nat.mul_comm (4 ^ _), ← Nat.div_div_eq_div_mul, Nat.mul_div_cancel _ (Nat.pow_pos (by decide))]
    rw [aux, aux, ← hval, uintToB64_eq E hv h64, hd]
    split
    · rfl
    · rfl

theorem nabSextets_eq (b : List UInt8) {count : Nat} (h : (count + 1) * 3 / 4 ≤ b.length) :
    nabSextets b count = .ok ((sext b).take count) := by
  unfold nabSextets
  simp only [show ¬ (b.length < (count + 1) * 3 / 4) by omega, if_false]
  change slice (sext b) 0 count = _
  rw [slice_eq (Nat.zero_le _) (by rw [sext_length]; omega)]
  simp

theorem nabSextets_ne_panic (b : List UInt8) (count : Nat) : nabSextets b count ≠ .panic := by
  by_cases h : (count + 1) * 3 / 4 ≤ b.length
  · rw [nabSextets_eq b h]; simp
  · unfold nabSextets; simp [show b.length < (count + 1) * 3 / 4 by omega]

/-- Bytes of a sextet list shifted up to a byte boundary. -/
def packD (d : List Nat) : List UInt8 := toBe ((d.length + 1) * 3 / 4) (valB 64 d * 4 ^ (d.length % 4))

@[simp] theorem packD_length (d : List Nat) : (packD d).length = (d.length + 1) * 3 / 4 := by simp [packD]

theorem pack_bound {d : List Nat} (hd : ∀ x ∈ d, x < 64) :
    valB 64 d * 4 ^ (d.length % 4) < 256 ^ ((d.length + 1) * 3 / 4) := by
  have h := valB_lt hd
  have : 64 ^ d.length * 4 ^ (d.length % 4) = 256 ^ ((d.length + 1) * 3 / 4) := by
    have e64 : (64 : Nat) = 2 ^ 6 := by decide
    have e256 : (256 : Nat) = 2 ^ 8 := by decide
    have e4 : (4 : Nat) = 2 ^ 2 := by decide
    rw [e64, e256]
    conv => lhs; rw [show (4:Nat) ^ (d.length % 4) = (2 ^ 2) ^ (d.length % 4) by rfl]
    rw [← Nat.pow_mul, ← Nat.pow_mul, ← Nat.pow_mul, ← Nat.pow_add]
    congr 1
    omega
  rw [← this]
  exact Nat.mul_lt_mul_of_pos_right h (Nat.pow_pos (by decide))

theorem beNat_packD {d : List Nat} (hd : ∀ x ∈ d, x < 64) :
    beNat (packD d) = valB 64 d * 4 ^ (d.length % 4) := by
  rw [packD, beNat_toBe, Nat.mod_eq_of_lt (pack_bound hd)]

theorem codeB64ToB2_encD {d : List Nat} (hd : ∀ x ∈ d, x < 64) (hl : d.length ≤ 10) :
    codeB64ToB2 (encD d) = .ok (packD d) := by
  unfold codeB64ToB2
  rw [b64ToU64_encD hd hl]
  simp only [Res.ok_bind, encD_length]
  have hn : ¬ (8 < (d.length + 1) * 3 / 4) := by omega
  rw [if_neg hn]
  have hb := pack_bound hd
  have : 256 ^ ((d.length + 1) * 3 / 4) ≤ 256 ^ 8 := Nat.pow_le_pow_right (by decide) (by omega)
  rw [show (2:Nat) ^ (2 * (d.length % 4)) = 4 ^ (d.length % 4) by rw [Nat.pow_mul]]
  rw [Nat.mod_eq_of_lt (by omega), toBe_drop _ _ _ (by omega)]
  rw [packD]
  congr 2
  omega

/-- The leading sextets of `packD d ++ rest` are `d`. -/
theorem sext_packD {d : List Nat} (hd : ∀ x ∈ d, x < 64) (rest : List UInt8) :
    (sext (packD d ++ rest)).take d.length = d := by
  have hlen : ((sext (packD d ++ rest)).take d.length).length = d.length := by
    rw [List.length_take, sext_length]; simp; omega
  apply valB_inj (b := 64) (fun x hx => sext_lt _ x (List.mem_of_mem_take hx)) hd hlen
  rw [valB_sext_take _ (by simp)]
  rw [List.take_append_of_le_length (by simp), List.take_of_length_le (by simp), beNat_packD hd,
    Nat.mul_div_cancel _ (Nat.pow_pos (by decide))]

end Cesride
