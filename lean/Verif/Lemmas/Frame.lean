import Verif.Lemmas.Codes

/-! # Framing of material after a code: `cs` code characters, `cs % 4` virtual pad bytes, `ls` lead bytes, raw -/

namespace Cesride

/-- Sextets of a framed primitive: the code digits `h`, then the sextets of the zero-padded raw with the
first `h.length % 4` dropped. -/
def frameD (h : List Nat) (ls : Nat) (raw : List UInt8) : List Nat :=
  h ++ (sextets (List.replicate (h.length % 4 + ls) 0 ++ raw)).drop (h.length % 4)

theorem lead_len {p ls : Nat} {raw : List UInt8} :
    (List.replicate (p + ls) (0 : UInt8) ++ raw).length = p + ls + raw.length := by simp

/-- The first `p` sextets of `p + ls` zero bytes followed by raw are zero. -/
theorem take_sextets_zeros {p ls : Nat} {raw : List UInt8} (h3 : (raw.length + p + ls) % 3 = 0)
    (hp : p ≤ 3 ∧ (p = 0 ∨ 0 < raw.length + ls)) :
    (sextets (List.replicate (p + ls) 0 ++ raw)).take p = List.replicate p 0 := by
  have hl3 : (List.replicate (p + ls) (0 : UInt8) ++ raw).length % 3 = 0 := by rw [lead_len]; omega
  have hlen := sextets_length (List.replicate (p + ls) (0 : UInt8) ++ raw)
  rw [lead_len] at hlen
  apply valB_inj (b := 64) (fun x hx => sextets_lt _ x (List.mem_of_mem_take hx))
  · intro d hd
    have := List.eq_of_mem_replicate hd
    omega
  · rw [List.length_take, hlen]; simp; omega
  · rw [valB_take (sextets_lt _), valB_sextets hl3, hlen, valB_replicate_zero]
    apply Nat.div_eq_of_lt
    rw [beNat_append, beNat_replicate]
    have h1 := beNat_lt raw
    have : 256 ^ raw.length ≤ 64 ^ ((p + ls + raw.length) / 3 * 4 - p) := by
      rw [show (256:Nat) = 2 ^ 8 by decide, show (64:Nat) = 2 ^ 6 by decide, ← Nat.pow_mul, ← Nat.pow_mul]
      apply Nat.pow_le_pow_right (by decide)
      omega
    omega

theorem sextets_zeros_split {p ls : Nat} {raw : List UInt8} (h3 : (raw.length + p + ls) % 3 = 0)
    (hp : p ≤ 3 ∧ (p = 0 ∨ 0 < raw.length + ls)) :
    List.replicate p 0 ++ (sextets (List.replicate (p + ls) 0 ++ raw)).drop p
      = sextets (List.replicate (p + ls) 0 ++ raw) := by
  have := take_sextets_zeros h3 hp
  conv => rhs; rw [← List.take_append_drop p (sextets (List.replicate (p + ls) 0 ++ raw)), this]

theorem frameD_length (h : List Nat) (ls : Nat) (raw : List UInt8)
    (h3 : (raw.length + h.length % 4 + ls) % 3 = 0) :
    (frameD h ls raw).length = h.length - h.length % 4 + (raw.length + h.length % 4 + ls) / 3 * 4 ∨
      (raw.length + ls = 0 ∧ h.length % 4 = 3) := by
  unfold frameD
  rw [List.length_append, List.length_drop, sextets_length, lead_len]
  omega

theorem frameD_lt {h : List Nat} (hd : ∀ x ∈ h, x < 64) (ls : Nat) (raw : List UInt8) :
    ∀ x ∈ frameD h ls raw, x < 64 := by
  intro x hx
  rcases List.mem_append.mp hx with hx | hx
  · exact hd x hx
  · exact sextets_lt _ x (List.mem_of_mem_drop hx)

/-- The binary form is the Base64 decoding of the text form. -/
theorem sextets_pack {h : List Nat} (hd : ∀ x ∈ h, x < 64) {ls : Nat} {raw : List UInt8}
    (h3 : (raw.length + h.length % 4 + ls) % 3 = 0) (hne : h.length % 4 = 0 ∨ 0 < raw.length + ls) :
    sextets (packD h ++ List.replicate ls 0 ++ raw) = frameD h ls raw ∧
      (packD h ++ List.replicate ls 0 ++ raw).length % 3 = 0 := by
  have hl : (packD h ++ List.replicate ls 0 ++ raw).length = (h.length + 1) * 3 / 4 + ls + raw.length := by simp; omega
  have hl3 : (packD h ++ List.replicate ls 0 ++ raw).length % 3 = 0 := by rw [hl]; omega
  refine ⟨?_, hl3⟩
  have hp : h.length % 4 ≤ 3 ∧ (h.length % 4 = 0 ∨ 0 < raw.length + ls) := ⟨by omega, hne⟩
  have hfl := frameD_length h ls raw h3
  apply sextets_eq_of_val hl3 (frameD_lt hd ls raw)
  · rw [hl]; omega
  · have hz := sextets_zeros_split h3 hp
    have hzl : (List.replicate (h.length % 4 + ls) (0 : UInt8) ++ raw).length % 3 = 0 := by
      rw [lead_len]; omega
    have hv := congrArg (valB 64) hz
    rw [valB_append, valB_replicate_zero, valB_sextets hzl, beNat_append, beNat_replicate] at hv
    unfold frameD
    rw [valB_append, beNat_append, beNat_append, beNat_replicate, beNat_packD hd]
    simp only [Nat.zero_mul, Nat.zero_add, Nat.add_zero] at hv ⊢
    rw [hv]
    congr 1
    rw [List.length_drop, sextets_length, lead_len, Nat.mul_assoc, Nat.mul_assoc]
    congr 1
    rw [show (256:Nat) = 2 ^ 8 by decide, show (64:Nat) = 2 ^ 6 by decide,
      show (4:Nat) ^ (h.length % 4) = (2 ^ 2) ^ (h.length % 4) by rfl, ← Nat.pow_mul, ← Nat.pow_mul, ← Nat.pow_mul,
      ← Nat.pow_mul, ← Nat.pow_add, ← Nat.pow_add]
    congr 1
    simp
    omega

/-- Bytes with low bits zero are the packing of their leading sextets. -/
theorem packD_sext {b : List UInt8} {len : Nat} (hb : (len + 1) * 3 / 4 ≤ b.length)
    (hz : beNat (b.take ((len + 1) * 3 / 4)) % 4 ^ (len % 4) = 0) :
    packD ((sext b).take len) = b.take ((len + 1) * 3 / 4) := by
  have hlen : ((sext b).take len).length = len := by
    rw [List.length_take, sext_length]; omega
  have hlt : ∀ d ∈ (sext b).take len, d < 64 := fun d hd => sext_lt b d (List.mem_of_mem_take hd)
  apply beNat_inj
  · rw [packD_length, hlen, List.length_take]; omega
  · rw [beNat_packD hlt, hlen, valB_sext_take b hb]
    have := Nat.div_add_mod (beNat (b.take ((len + 1) * 3 / 4))) (4 ^ (len % 4))
    rw [hz] at this
    rw [Nat.mul_comm]; omega

end Cesride
