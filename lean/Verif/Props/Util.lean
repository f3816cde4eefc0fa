import Verif.Props.Matter

/-! # Properties C15, C16 of `src/core/util.rs`, and C57 about the code table -/

namespace Cesride

theorem textNum_encD {d : List Nat} (hd : ∀ x ∈ d, x < 64) : Spec.textNum (encD d) = valB 64 d := by
  unfold Spec.textNum valB encD
  rw [List.foldl_map]
  have : ∀ a, d.foldl (fun a c => a * 64 + Spec.alphabet.idxOf (sextetChar c)) a = d.foldl (fun a d => a * 64 + d) a := by
    induction d with
    | nil => intro a; rfl
    | cons x xs ih =>
      intro a
      simp only [List.foldl_cons, idxOf_sextetChar x (hd x (by simp))]
      exact ih (fun y hy => hd y (by simp [hy])) _
  exact this 0

/-- C15. `n` written in `len` characters: exactly `len` alphabet characters that spell `n` big-endian, and both
readers return `n` (`u32_to_b64`/`b64_to_u32` for 32-bit values, `u64_to_b64`/`b64_to_u64` for 64-bit values). -/
theorem C15_int_roundtrip (E : Env) {n len : Nat} (h : n < 64 ^ len) (h64 : n < 2 ^ 64) :
    ∃ t, uintToB64 E n len = .ok t ∧ t.length = len ∧ Spec.IsB64Text t ∧ Spec.textNum t = n ∧
      b64ToU64 t = .ok n ∧ (n < 2 ^ 32 → b64ToU32 t = .ok n) := by
  have hlt := digitsB_lt (show 0 < 64 by decide) len n
  have hv : valB 64 (digitsB 64 len n) = n := by rw [valB_digitsB, Nat.mod_eq_of_lt h]
  refine ⟨_, uintToB64_eq E h h64, by simp, (isB64Text_iff _).mpr (encD_isB64 hlt), ?_, ?_, ?_⟩
  · rw [textNum_encD hlt, hv]
  · have := b64ToUint_encD hlt (2 ^ 64) 0 (by rw [hv]; omega)
    rw [hv] at this
    simpa [b64ToU64] using this
  · intro h32
    have := b64ToUint_encD hlt (2 ^ 32) 0 (by rw [hv]; omega)
    rw [hv] at this
    simpa [b64ToU32] using this

/-- C15. Distinct values of the same width give distinct texts. -/
theorem C15_int_injective (E : Env) {a b len : Nat} (ha : a < 64 ^ len) (hb : b < 64 ^ len) (ha' : a < 2 ^ 64) (hb' : b < 2 ^ 64)
    (h : uintToB64 E a len = uintToB64 E b len) : a = b := by
  obtain ⟨t, h1, _, _, h2, _⟩ := C15_int_roundtrip E ha ha'
  obtain ⟨u, h3, _, _, h4, _⟩ := C15_int_roundtrip E hb hb'
  rw [h1, h3] at h
  injection h with h
  rw [← h2, ← h4, h]

/-- C15. The reader refuses exactly the texts with a foreign character. -/
theorem C15_reader_total (s : Str) : (∃ n, b64ToU32 s = .ok n) ↔ Spec.IsB64Text s := by
  rw [isB64Text_iff]
  constructor
  · rintro ⟨n, h⟩; exact b64ToUint_ok_isB64 h
  · intro h
    have : ∀ out, ∃ n, b64ToUint (2 ^ 32) out s = .ok n := by
      induction s with
      | nil => intro out; exact ⟨out, rfl⟩
      | cons c s ih =>
        intro out
        rcases charIndex_spec c with ⟨_, i, _, hi, _⟩ | ⟨hc, _⟩
        · obtain ⟨n, hn⟩ := ih (fun c hc => h c (by simp [hc])) (out * 64 % 2 ^ 32 + i)
          exact ⟨n, by simp only [b64ToUint, hi, Res.ok_bind]; exact hn⟩
        · rw [h c (by simp)] at hc; cases hc
    exact this 0

example : uintToB64 Env.debug 4095 4 = .ok (lit "AA__") := by decide +kernel
example : b64ToU32 (lit "AA__") = .ok 4095 := by decide +kernel

theorem bits_packD {d : List Nat} (hd : ∀ x ∈ d, x < 64) :
    Spec.bytesBits (packD d) = d.flatMap digitBits ++ List.replicate (2 * (d.length % 4)) 0 := by
  have hlen : (packD d).length = (d.length + 1) * 3 / 4 := packD_length d
  generalize hk : 3 - (packD d).length % 3 = k
  have hs : sextets (packD d ++ List.replicate k 0) = d ++ List.replicate ((((packD d).length + k) / 3) * 4 - d.length) 0 := by
    apply sextets_eq_of_val
    · simp only [List.length_append, List.length_replicate]; omega
    · intro x hx
      rcases List.mem_append.mp hx with hx | hx
      · exact hd x hx
      · have := List.eq_of_mem_replicate hx; omega
    · simp only [List.length_append, List.length_replicate]; omega
    · rw [valB_append, valB_replicate_zero, beNat_append, beNat_replicate, beNat_packD hd]
      simp only [List.length_replicate, Nat.add_zero]
      rw [Nat.mul_assoc]
      congr 1
      rw [show (64 : Nat) = 2 ^ 6 by rfl, show (4 : Nat) ^ (d.length % 4) = 2 ^ (2 * (d.length % 4)) by rw [show (4:Nat) = 2 ^ 2 by rfl, ← Nat.pow_mul],
        show (256 : Nat) = 2 ^ 8 by rfl, ← Nat.pow_mul, ← Nat.pow_mul, ← Nat.pow_add]
      congr 1
      omega
  have hb := sextets_bits (l := packD d ++ List.replicate k 0) (by simp only [List.length_append, List.length_replicate]; omega)
  rw [hs] at hb
  have zb : ∀ n, (List.replicate n 0).flatMap digitBits = List.replicate (6 * n) 0 := by
    intro n
    induction n with
    | zero => rfl
    | succ n ih => rw [List.replicate_succ, List.flatMap_cons, ih, show digitBits 0 = List.replicate 6 0 by rfl, List.replicate_append_replicate]; congr 1; omega
  have bl : ∀ l : List UInt8, (Spec.bytesBits l).length = 8 * l.length := by
    intro l
    induction l with
    | nil => rfl
    | cons x xs ih => rw [Spec.bytesBits, List.flatMap_cons, List.length_append]; rw [Spec.bytesBits] at ih; rw [ih]; simp [Spec.byteBits]; omega
  have dl : (d.flatMap digitBits).length = 6 * d.length := by
    clear hb hs hd hlen hk
    induction d with
    | nil => rfl
    | cons x xs ih => rw [List.flatMap_cons, List.length_append, ih]; simp [digitBits]; omega
  have ht := congrArg (List.take (8 * (packD d).length)) hb
  rw [List.flatMap_append, zb, Spec.bytesBits, List.flatMap_append] at ht
  have hl2 := bl (packD d)
  rw [Spec.bytesBits] at hl2
  have e1 : ∀ y : List Nat, (List.flatMap Spec.byteBits (packD d) ++ y).take (8 * (packD d).length) = List.flatMap Spec.byteBits (packD d) := by
    intro y
    rw [List.take_append_of_le_length (by omega), List.take_of_length_le (by omega)]
  rw [e1, List.take_append, dl, List.take_of_length_le (by omega), List.take_replicate] at ht
  rw [Spec.bytesBits, ← ht]
  congr 2
  omega

/-- C16. A Base64URL code of at most 8 characters converts to its bits followed by zero bits, and back. -/
theorem C16_code_roundtrip (E : Env) {code : Str} (hc : Spec.IsB64Text code) (hl : code.length ≤ 8) (rest : List UInt8) :
    ∃ b, codeB64ToB2 code = .ok b ∧ Spec.bytesBits b = Spec.textBits code ++ List.replicate (2 * (code.length % 4)) 0 ∧
      codeB2ToB64 E (b ++ rest) code.length = .ok code := by
  obtain ⟨d, hd, rfl⟩ := exists_encD ((isB64Text_iff _).mp hc)
  simp only [encD_length] at hl ⊢
  refine ⟨packD d, codeB64ToB2_encD hd (by omega), ?_, ?_⟩
  · rw [bits_packD hd, textBits_encD hd]
  · rw [codeB2ToB64_eq E _ hl (by simp), sext_packD hd]

/-- C16. `nab_sextets` returns the leading sextets of the data, and refuses exactly when there are too few bytes. -/
theorem C16_nab_sextets (b : List UInt8) (count : Nat) :
    ((count + 1) * 3 / 4 ≤ b.length → ∃ d, nabSextets b count = .ok d ∧ d.length = count ∧ (∀ x ∈ d, x < 64) ∧
      d.flatMap digitBits = (Spec.bytesBits b).take (6 * count)) ∧
    (b.length < (count + 1) * 3 / 4 → nabSextets b count = .err .tooSmall) := by
  constructor
  · intro h
    refine ⟨_, nabSextets_eq b h, ?_, fun x hx => sext_lt b x (List.mem_of_mem_take hx), ?_⟩
    · rw [List.length_take, sext_length]; omega
    · have hb := sextets_bits (l := b ++ List.replicate (3 - b.length % 3) 0) (padded_length b)
      have tk : ∀ (l : List Nat) k, (l.take k).flatMap digitBits = (l.flatMap digitBits).take (6 * k) := by
        intro l
        induction l with
        | nil => intro k; simp
        | cons x xs ih =>
          intro k
          cases k with
          | zero => simp
          | succ k =>
            rw [List.take_succ_cons, List.flatMap_cons, List.flatMap_cons, ih, List.take_append]
            have e : (digitBits x).length = 6 := rfl
            have e2 : (digitBits x).take (6 * (k + 1)) = digitBits x := List.take_of_length_le (by omega)
            rw [e2, e]
            congr 2
      have bl : ∀ l : List UInt8, (Spec.bytesBits l).length = 8 * l.length := by
        intro l
        induction l with
        | nil => rfl
        | cons x xs ih => rw [Spec.bytesBits, List.flatMap_cons, List.length_append]; rw [Spec.bytesBits] at ih; rw [ih]; simp [Spec.byteBits]; omega
      rw [tk, sext, hb]
      have hl := bl b
      rw [Spec.bytesBits] at hl
      rw [Spec.bytesBits, List.flatMap_append, List.take_append_of_le_length (by omega)]
      rfl
  · intro h
    unfold nabSextets
    simp [h]

example : codeB64ToB2 (lit "0A") = .ok [0xd0, 0x00] := by decide +kernel
example : nabSextets [0xd0, 0x0f] 2 = .ok [52, 0] := by decide +kernel

/-- C57. Every fixed-size code carries the number of raw bytes of the material it is named after, except
`1AAE` (Ed448 signature), which carries 39 bytes instead of 114. -/
theorem C57_material_sizes : ∀ e ∈ Spec.materialSizes, e.1 ≠ lit "1AAE" → Matter.rawSize e.1 = .ok e.2 := by
  decide +kernel

private theorem lookup_entry {l : List (Str × Sizage)} {s : Str} {z : Sizage} (h : l.lookup s = some z) : (s, z) ∈ l := by
  induction l with
  | nil => cases h
  | cons e es ih =>
    obtain ⟨k, v⟩ := e
    rw [List.lookup_cons] at h
    split at h
    · rename_i hk
      injection h with h
      have := eq_of_beq hk
      subst this; subst h
      exact List.mem_cons_self ..
    · exact List.mem_cons_of_mem _ (ih h)

/-- C57: the list of materials is complete: a code has a raw size exactly when it is a fixed-size code, and every fixed-size code names a
material, but `2AAA` and `3AAA`, which the code table reserves for tests. -/
theorem C57_complete :
    (∀ code, (∃ n, Matter.rawSize code = .ok n) ↔ code ∈ Spec.fixedCodes.map Prod.fst) ∧
    (∀ code, code ∈ Spec.fixedCodes.map Prod.fst ↔ code ∈ Spec.materialSizes.map Prod.fst ∨ code = lit "2AAA" ∨ code = lit "3AAA") := by
  refine ⟨fun code => ⟨?_, ?_⟩, fun code => ?_⟩
  · rintro ⟨n, h⟩
    have hall : ∀ e ∈ Matter.sizes, e.2.fs ≠ u32Max → e.1 ∈ Spec.fixedCodes.map Prod.fst := by decide +kernel
    unfold Matter.rawSize at h
    obtain ⟨z, hz, h⟩ := Res.bind_eq_ok.mp h
    split at h
    · exact absurd h (by simp)
    · rename_i hf
      unfold Matter.sizage at hz
      split at hz
      · rename_i z' hl
        have hz := Res.ok.inj hz
        subst hz
        exact hall (code, z') (lookup_entry hl) hf
      · exact absurd hz (by simp)
  · intro h
    have hall : ∀ c ∈ Spec.fixedCodes.map Prod.fst, (match Matter.rawSize c with | .ok _ => true | _ => false) = true := by decide +kernel
    have := hall code h
    split at this
    · rename_i n hn; exact ⟨n, hn⟩
    · exact absurd this (by simp)
  · have h : ∀ c ∈ Spec.fixedCodes.map Prod.fst, c ∈ Spec.materialSizes.map Prod.fst ++ [lit "2AAA", lit "3AAA"] := by decide +kernel
    have h' : ∀ c ∈ Spec.materialSizes.map Prod.fst ++ [lit "2AAA", lit "3AAA"], c ∈ Spec.fixedCodes.map Prod.fst := by decide +kernel
    constructor
    · intro hc
      have := h code hc
      simpa only [List.mem_append, List.mem_cons, List.not_mem_nil, or_false] using this
    · intro hc
      apply h'
      simpa only [List.mem_append, List.mem_cons, List.not_mem_nil, or_false] using hc

/-- C57, the defect: a complete Ed448 signature is cut to 39 bytes without an error. -/
theorem C57_ed448_signature_truncated (E : Env) (sig : List UInt8) (h : sig.length = 114) :
    ∃ m, Matter.ofRaw E (lit "1AAE") sig = .ok m ∧ m.raw = sig.take 39 ∧ m.raw.length = 39 := by
  refine ⟨{ code := lit "1AAE", size := 0, raw := sig.take 39 }, ?_, rfl, ?_⟩
  · rw [C10_fixed_raw E (n := 39) (by decide +kernel), if_neg (by omega)]
  · simp only [List.length_take]; omega

end Cesride
