import Verif.Lemmas.Matter6

/-! # Material after a code: generic decode / encode facts shared by the parsers -/

namespace Cesride

/-- Decoding the material of a frame gives the zero bytes and the raw bytes back. -/
theorem body_decode {p ls : Nat} {raw : List UInt8} (h3 : (raw.length + p + ls) % 3 = 0)
    (hp : p ≤ 3 ∧ (p = 0 ∨ 0 < raw.length + ls)) :
    b64Decode (List.replicate p (ch 'A') ++ encD ((sextets (List.replicate (p + ls) 0 ++ raw)).drop p))
      = .ok (List.replicate (p + ls) 0 ++ raw) := by
  rw [← encD_replicate, ← encD_append, sextets_zeros_split h3 hp]
  exact b64Decode_encD_sextets (by rw [lead_len]; omega)

/-- Decoded material without pad characters whose pad bits / lead bytes are zero is the canonical frame. -/
theorem body_canonical {p ls : Nat} {mat : Str} {paw : List UInt8} (hp : p ≤ 2) (hpl : p = 0 ∨ ls = 0)
    (hnp : ∀ c ∈ mat, c ≠ ch '=') (hdec : b64DecodeOpt (List.replicate p (ch 'A') ++ mat) = some paw)
    (hlen : p + ls ≤ paw.length) (hpz : p ≠ 0 → beNat (paw.take p) % 4 ^ p = 0)
    (hlz : p = 0 → beNat (paw.take ls) = 0) :
    paw.length % 3 = 0 ∧ paw = List.replicate (p + ls) 0 ++ paw.drop (p + ls) ∧
      mat = encD ((sextets paw).drop p) ∧ mat.length + p = paw.length / 3 * 4 := by
  have hnp2 : ∀ c ∈ List.replicate p (ch 'A') ++ mat, c ≠ ch '=' := by
    intro c hc
    rcases List.mem_append.mp hc with hc | hc
    · rw [List.eq_of_mem_replicate hc]; decide
    · exact hnp c hc
  obtain ⟨hp3, henc⟩ := decode_some_nopad hnp2 hdec
  have hl := congrArg List.length henc
  rw [encD_length, sextets_length] at hl
  simp only [List.length_append, List.length_replicate] at hl
  refine ⟨hp3, ?_, ?_, by omega⟩
  · have hz0 : beNat (paw.take (p + ls)) = 0 := by
      by_cases h0 : p = 0
      · rw [h0, Nat.zero_add]; exact hlz h0
      · have hl0 : ls = 0 := by omega
        rw [hl0, Nat.add_zero]
        have hv := valB_sextets hp3
        obtain ⟨d, hd, he⟩ : ∃ d : List Nat, (∀ x ∈ d, x < 64) ∧ encD d = mat := by
          apply exists_encD
          intro c hc
          have : c ∈ encD (sextets paw) := by rw [henc]; exact List.mem_append_right _ hc
          exact encD_isB64 (sextets_lt _) c this
        have hse : sextets paw = List.replicate p 0 ++ d := by
          apply encD_inj (sextets_lt _)
          · intro x hx
            rcases List.mem_append.mp hx with hx | hx
            · have := List.eq_of_mem_replicate hx; omega
            · exact hd x hx
          · rw [henc, encD_append, encD_replicate, he]
        have hdl : d.length = mat.length := by rw [← encD_length, he]
        rw [hse, valB_append, valB_replicate_zero] at hv
        have hlt := valB_lt hd
        have hpz := hpz h0
        have hbt := beNat_take paw p
        have : beNat (paw.take p) < 4 ^ p := by
          rw [hbt, Nat.div_lt_iff_lt_mul (Nat.pow_pos (by decide))]
          have : 64 ^ d.length = 4 ^ p * 256 ^ (paw.length - p) := by
            rw [show (256:Nat) = 2 ^ 8 by decide, show (64:Nat) = 2 ^ 6 by decide,
              show (4:Nat) ^ p = (2 ^ 2) ^ p by rfl, ← Nat.pow_mul, ← Nat.pow_mul, ← Nat.pow_mul, ← Nat.pow_add]
            congr 1
            omega
          omega
        rw [Nat.mod_eq_of_lt this] at hpz
        exact hpz
    have := Matter.beNat_zero_replicate hz0
    rw [List.length_take, Nat.min_eq_left hlen] at this
    rw [← this, List.take_append_drop]
  · rw [encD_drop, henc, List.drop_append_of_le_length (by simp)]
    simp

/-- The last byte of a packed code has zero pad bits. -/
theorem packD_last {h : List Nat} (hd : ∀ x ∈ h, x < 64) {b : UInt8} {k : Nat} (hk : k = (h.length + 1) * 3 / 4)
    (hb : (packD h)[k - 1]? = some b) : b.toNat % 4 ^ (h.length % 4) = 0 := by
  have hb' : (packD h)[(packD h).length - 1]? = some b := by rw [packD_length, ← hk]; exact hb
  have hlast := last_byte hb'
  rw [beNat_packD hd] at hlast
  rw [← hlast]
  have hdv : (4 : Nat) ^ (h.length % 4) ∣ 256 := by
    have : (256 : Nat) = 4 ^ 4 := by decide
    rw [this]; exact Nat.pow_dvd_pow 4 (by omega)
  rw [Nat.mod_mod_of_dvd _ hdv]
  simp

/-- Bytes whose last code byte has zero pad bits are the packing of their sextets. -/
theorem packD_of_last {b : List UInt8} {len : Nat} (hpos : 0 < len) (hb : (len + 1) * 3 / 4 ≤ b.length) {v : UInt8}
    (hv : b[(len + 1) * 3 / 4 - 1]? = some v) (hz : v.toNat % 4 ^ (len % 4) = 0) :
    packD ((sext b).take len) = b.take ((len + 1) * 3 / 4) := by
  apply packD_sext hb
  have hl : (b.take ((len + 1) * 3 / 4)).length = (len + 1) * 3 / 4 := by rw [List.length_take]; omega
  have h1 : (b.take ((len + 1) * 3 / 4))[(b.take ((len + 1) * 3 / 4)).length - 1]? = some v := by
    rw [hl, List.getElem?_take_of_lt (by omega)]; exact hv
  have := last_byte h1
  have hdv : (4 : Nat) ^ (len % 4) ∣ 256 := by
    have : (256 : Nat) = 4 ^ 4 := by decide
    rw [this]; exact Nat.pow_dvd_pow 4 (by omega)
  rw [← Nat.mod_mod_of_dvd _ hdv, this]
  exact hz

/-- With a whole number of quadlets there are no pad bits. -/
theorem packD_of_aligned {b : List UInt8} {len : Nat} (h4 : len % 4 = 0) (hb : (len + 1) * 3 / 4 ≤ b.length) :
    packD ((sext b).take len) = b.take ((len + 1) * 3 / 4) := by
  apply packD_sext hb
  rw [h4]
  simp [Nat.mod_one]

end Cesride
