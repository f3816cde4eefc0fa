import Verif.Lemmas.Digits

/-! # Alphabet, integer conversion, Base64 engine -/

namespace Cesride

/-- Text of a sextet list. -/
def encD (d : List Nat) : Str := d.map sextetChar

@[simp] theorem encD_length (d : List Nat) : (encD d).length = d.length := by simp [encD]
@[simp] theorem encD_append (a b : List Nat) : encD (a ++ b) = encD a ++ encD b := by simp [encD]
@[simp] theorem encD_nil : encD [] = [] := rfl
theorem encD_take (d : List Nat) (k : Nat) : encD (d.take k) = (encD d).take k := by simp [encD]
theorem encD_drop (d : List Nat) (k : Nat) : encD (d.drop k) = (encD d).drop k := by simp [encD]
theorem encD_replicate (n : Nat) : encD (List.replicate n 0) = List.replicate n (ch 'A') := by
  simp [encD, sextetChar, b64IndexToChar, ch]

/-- Is the byte a Base64URL alphabet character (spec: RFC 4648 section 5, table 2). -/
def isB64 (c : UInt8) : Bool :=
  (ch 'A' ≤ c && c ≤ ch 'Z') || (ch 'a' ≤ c && c ≤ ch 'z') || (ch '0' ≤ c && c ≤ ch '9') || c = ch '-' || c = ch '_'

theorem byte_forall {P : UInt8 → Prop} (h : ∀ n : Fin 256, P (UInt8.ofNat n.val)) (c : UInt8) : P c := by
  have := h ⟨c.toNat, c.toNat_lt⟩
  simpa using this

theorem charIndex_sextetChar : ∀ i : Nat, i < 64 → b64CharToIndex (sextetChar i) = .ok i := by
  decide +kernel

theorem indexChar_eq : ∀ i : Nat, i < 64 → b64IndexToChar i = .ok (sextetChar i) := by
  decide +kernel

theorem sextetChar_isB64 : ∀ i : Nat, i < 64 → isB64 (sextetChar i) = true := by
  decide +kernel

theorem charIndex_spec (c : UInt8) :
    (isB64 c = true ∧ ∃ i, i < 64 ∧ b64CharToIndex c = .ok i ∧ sextetChar i = c) ∨
    (isB64 c = false ∧ b64CharToIndex c = .err .invalidBase64Character) := by
  have key : ∀ n : Fin 256,
      (isB64 (UInt8.ofNat n.val) = true ∧ ∃ i : Fin 64, b64CharToIndex (UInt8.ofNat n.val) = .ok i.val ∧
        sextetChar i.val = UInt8.ofNat n.val) ∨
      (isB64 (UInt8.ofNat n.val) = false ∧ b64CharToIndex (UInt8.ofNat n.val) = .err .invalidBase64Character) := by
    decide +kernel
  have := byte_forall (P := fun c => (isB64 c = true ∧ ∃ i : Fin 64, b64CharToIndex c = .ok i.val ∧
        sextetChar i.val = c) ∨ (isB64 c = false ∧ b64CharToIndex c = .err .invalidBase64Character)) key c
  rcases this with ⟨h, i, h1, h2⟩ | h
  · exact .inl ⟨h, i.val, i.isLt, h1, h2⟩
  · exact .inr h

theorem charIndex_ok {c : UInt8} {i : Nat} (h : b64CharToIndex c = .ok i) : i < 64 ∧ sextetChar i = c := by
  rcases charIndex_spec c with ⟨_, j, hj, h1, h2⟩ | ⟨_, h1⟩
  · rw [h] at h1; cases h1; exact ⟨hj, h2⟩
  · rw [h] at h1; cases h1

theorem isB64_lt128 (c : UInt8) (h : isB64 c = true) : c < 128 := by
  revert h
  revert c
  apply byte_forall (P := fun c => isB64 c = true → c < 128)
  decide +kernel

theorem isB64_ne_pad (c : UInt8) (h : isB64 c = true) : c ≠ ch '=' := by
  revert h
  revert c
  apply byte_forall (P := fun c => isB64 c = true → c ≠ ch '=')
  decide +kernel

theorem sextetVal_char {i : Nat} (h : i < 64) : sextetVal (sextetChar i) = some i := by
  simp [sextetVal, charIndex_sextetChar i h]

theorem sextetVal_some {c : UInt8} {i : Nat} (h : sextetVal c = some i) : i < 64 ∧ sextetChar i = c := by
  unfold sextetVal at h
  split at h
  · rename_i j hj; cases h; exact charIndex_ok hj
  · cases h

theorem encD_isB64 {d : List Nat} (h : ∀ x ∈ d, x < 64) : ∀ c ∈ encD d, isB64 c = true := by
  intro c hc
  simp only [encD, List.mem_map] at hc
  obtain ⟨x, hx, rfl⟩ := hc
  exact sextetChar_isB64 x (h x hx)

theorem encD_inj {a b : List Nat} (ha : ∀ x ∈ a, x < 64) (hb : ∀ x ∈ b, x < 64) (h : encD a = encD b) : a = b := by
  induction a generalizing b with
  | nil => cases b <;> simp_all [encD]
  | cons x xs ih =>
    cases b with
    | nil => simp [encD] at h
    | cons y ys =>
      simp only [encD, List.map_cons, List.cons.injEq] at h
      have hx := charIndex_sextetChar x (ha x (by simp))
      have hy := charIndex_sextetChar y (hb y (by simp))
      rw [h.1, hy] at hx
      cases hx
      rw [ih (fun z hz => ha z (by simp [hz])) (fun z hz => hb z (by simp [hz])) h.2]

/-- Every Base64URL text is the text of a sextet list. -/
theorem exists_encD {s : Str} (h : ∀ c ∈ s, isB64 c = true) :
    ∃ d : List Nat, (∀ x ∈ d, x < 64) ∧ encD d = s := by
  induction s with
  | nil => exact ⟨[], by simp, rfl⟩
  | cons c s ih =>
    obtain ⟨d, hd, he⟩ := ih (fun x hx => h x (by simp [hx]))
    rcases charIndex_spec c with ⟨_, i, hi, _, h2⟩ | ⟨hb, _⟩
    · refine ⟨i :: d, ?_, ?_⟩
      · intro x hx
        rcases List.mem_cons.mp hx with h | h
        · omega
        · exact hd x h
      · simp only [encD, List.map_cons] at he ⊢; rw [h2, he]
    · rw [h c (by simp)] at hb; cases hb

/-! ## Text to integer -/

theorem b64ToUint_encD {d : List Nat} (hd : ∀ x ∈ d, x < 64) (modulus out : Nat)
    (hm : out * 64 ^ d.length + valB 64 d < modulus) :
    b64ToUint modulus out (encD d) = .ok (out * 64 ^ d.length + valB 64 d) := by
  induction d generalizing out with
  | nil => simp [encD, b64ToUint]
  | cons x xs ih =>
    have hx := hd x (by simp)
    simp only [encD, List.map_cons, b64ToUint, charIndex_sextetChar x hx, Res.ok_bind]
    rw [valB_cons] at hm ⊢
    simp only [List.length_cons, Nat.pow_succ] at hm ⊢
    have e : out * (64 ^ xs.length * 64) = out * 64 * 64 ^ xs.length := by
      rw [Nat.mul_comm (64 ^ xs.length) 64, Nat.mul_assoc]
    rw [e] at hm ⊢
    have hp : 1 ≤ 64 ^ xs.length := Nat.one_le_pow _ _ (by decide)
    have h1 : out * 64 ≤ out * 64 * 64 ^ xs.length := Nat.le_mul_of_pos_right _ (by omega)
    have hlt : out * 64 < modulus := by omega
    rw [Nat.mod_eq_of_lt hlt]
    have e2 : (out * 64 + x) * 64 ^ xs.length + valB 64 xs
        = out * 64 * 64 ^ xs.length + (x * 64 ^ xs.length + valB 64 xs) := by
      rw [Nat.add_mul]; omega
    have := ih (fun z hz => hd z (by simp [hz])) (out * 64 + x) (by rw [e2]; exact hm)
    simp only [encD] at this
    rw [this, e2]

theorem b64ToU32_encD {d : List Nat} (hd : ∀ x ∈ d, x < 64) (hl : d.length ≤ 5) :
    b64ToU32 (encD d) = .ok (valB 64 d) := by
  have h := valB_lt hd
  have : 64 ^ d.length ≤ 64 ^ 5 := Nat.pow_le_pow_right (by decide) hl
  have h2 := b64ToUint_encD hd (2 ^ 32) 0 (by simp; omega)
  simpa [b64ToU32] using h2

theorem b64ToU64_encD {d : List Nat} (hd : ∀ x ∈ d, x < 64) (hl : d.length ≤ 10) :
    b64ToU64 (encD d) = .ok (valB 64 d) := by
  have h := valB_lt hd
  have : 64 ^ d.length ≤ 64 ^ 10 := Nat.pow_le_pow_right (by decide) hl
  have h2 := b64ToUint_encD hd (2 ^ 64) 0 (by simp; omega)
  simpa [b64ToU64] using h2

theorem b64ToUint_ok_isB64 {modulus out v : Nat} {s : Str} (h : b64ToUint modulus out s = .ok v) :
    ∀ c ∈ s, isB64 c = true := by
  induction s generalizing out with
  | nil => simp
  | cons c s ih =>
    simp only [b64ToUint] at h
    rw [Res.bind_eq_ok] at h
    obtain ⟨i, hi, h⟩ := h
    intro x hx
    rcases List.mem_cons.mp hx with rfl | hx
    · obtain ⟨h1, h2⟩ := charIndex_ok hi
      rw [← h2]; exact sextetChar_isB64 i h1
    · exact ih h x hx

theorem b64ToUint_ne_panic (modulus out : Nat) (s : Str) : b64ToUint modulus out s ≠ .panic := by
  induction s generalizing out with
  | nil => simp [b64ToUint]
  | cons c s ih =>
    simp only [b64ToUint]
    rcases charIndex_spec c with ⟨_, i, _, h, _⟩ | ⟨_, h⟩
    · rw [h]; exact ih _
    · rw [h]; simp

/-! ## Integer to text -/

theorem digitLoop_spec : ∀ (fuel x : Nat) (out : Str), x < 64 ^ fuel →
    ∃ k, digitLoop fuel 0 x out = .ok (encD (digitsB 64 k x) ++ out) ∧ x < 64 ^ k ∧
      (∀ len, x < 64 ^ len → k ≤ len) := by
  intro fuel
  induction fuel with
  | zero =>
    intro x out h
    exact ⟨0, by simp [digitLoop, digitsB], by simpa using h, by simp⟩
  | succ fuel ih =>
    intro x out h
    by_cases hx : x = 0
    · exact ⟨0, by simp [digitLoop, digitsB, hx], by simp [hx], by simp⟩
    · have hlt : x % 64 < 64 := Nat.mod_lt _ (by decide)
      have h' : x / 64 < 64 ^ fuel := by
        rw [Nat.div_lt_iff_lt_mul (by decide)]; rw [Nat.pow_succ] at h; omega
      obtain ⟨k, h1, h2, h3⟩ := ih (x / 64) (sextetChar (x % 64) :: out) h'
      refine ⟨k + 1, ?_, ?_, ?_⟩
      · simp only [digitLoop, hx, if_false, indexChar_eq _ hlt, Res.ok_bind, h1, digitsB]
        simp [encD]
      · rw [Nat.pow_succ]; omega
      · intro len hlen
        cases len with
        | zero => simp at hlen; omega
        | succ len =>
          have : x / 64 < 64 ^ len := by
            rw [Nat.div_lt_iff_lt_mul (by decide)]; rw [Nat.pow_succ] at hlen; omega
          have := h3 len this
          omega

theorem digitsB_pad {k len x : Nat} (hk : k ≤ len) (hx : x < 64 ^ k) :
    digitsB 64 len x = List.replicate (len - k) 0 ++ digitsB 64 k x := by
  apply valB_inj (b := 64) (digitsB_lt (by decide) _ _)
  · intro d hd
    rcases List.mem_append.mp hd with h | h
    · have := List.eq_of_mem_replicate h; omega
    · exact digitsB_lt (by decide) _ _ d h
  · simp; omega
  · rw [valB_append, valB_replicate_zero, valB_digitsB, valB_digitsB, Nat.mod_eq_of_lt hx,
      Nat.mod_eq_of_lt (Nat.lt_of_lt_of_le hx (Nat.pow_le_pow_right (by decide) hk))]
    simp

theorem uintToB64_eq (E : Env) {n len : Nat} (h : n < 64 ^ len) (h64 : n < 2 ^ 64) :
    uintToB64 E n len = .ok (encD (digitsB 64 len n)) := by
  unfold uintToB64
  split
  · rename_i h0; subst h0; simp [digitsB]
  · rw [E.drop_fits n len h]
    obtain ⟨k, h1, h2, h3⟩ := digitLoop_spec 11 n [] (by omega)
    rw [h1]
    have hk := h3 len h
    simp only [List.append_nil, Res.ok_bind, encD_length, digitsB_length]
    rw [digitsB_pad hk h2, encD_append, encD_replicate]

/-! ## Engine -/

theorem b64Encode_eq {l : List UInt8} (h : l.length % 3 = 0) : b64Encode l = encD (sextets l) := by
  induction l using sextets.induct with
  | case1 x y z rest ih =>
    have hr : rest.length % 3 = 0 := by simp only [List.length_cons] at h; omega
    simp only [b64Encode, sextets, encD, List.map_cons]
    rw [ih hr]; rfl
  | case2 l hl =>
    match l, hl, h with
    | [], _, _ => simp [sextets, b64Encode]
    | [x], _, h => simp at h
    | [x, y], _, h => simp at h
    | x :: y :: z :: r, hl, _ => exact absurd rfl (hl x y z r)

theorem b64Encode_length (l : List UInt8) : (b64Encode l).length = (l.length + 2) / 3 * 4 := by
  induction l using b64Encode.induct with
  | case1 => simp [b64Encode]
  | case2 a => simp [b64Encode]
  | case3 a b => simp [b64Encode]
  | case4 a b c rest ih => simp [b64Encode, ih]; omega

theorem b64EncodeSlice_eq {l : List UInt8} (h : l.length % 3 = 0) :
    b64EncodeSlice l (l.length * 4 / 3) = .ok (encD (sextets l)) := by
  unfold b64EncodeSlice
  rw [b64Encode_eq h]
  have : (encD (sextets l)).length = l.length * 4 / 3 := by
    rw [encD_length, sextets_length]; omega
  simp [this]

theorem groupBytes_eq {n : Nat} :
    groupBytes n = toBe 3 n := by
  simp only [groupBytes, toBe]
  apply nats_inj
  simp [nats]
  omega

theorem group_sextets {x y z : UInt8} : groupBytes (x.toNat * 65536 + y.toNat * 256 + z.toNat) = [x, y, z] := by
  have hx := x.toNat_lt
  have hy := y.toNat_lt
  have hz := z.toNat_lt
  apply nats_inj
  simp [nats, groupBytes]
  omega

theorem decodeQuad_sextets (x y z : UInt8) (n : Nat) (hn : n = x.toNat * 65536 + y.toNat * 256 + z.toNat) :
    decodeQuad (sextetChar (n / 262144 % 64)) (sextetChar (n / 4096 % 64)) (sextetChar (n / 64 % 64))
      (sextetChar (n % 64)) = some [x, y, z] := by
  have hx := x.toNat_lt
  have hy := y.toNat_lt
  have hz := z.toNat_lt
  unfold decodeQuad
  rw [sextetVal_char (Nat.mod_lt _ (by decide)), sextetVal_char (Nat.mod_lt _ (by decide)),
    sextetVal_char (Nat.mod_lt _ (by decide)), sextetVal_char (Nat.mod_lt _ (by decide))]
  simp only
  rw [← group_sextets, ← hn]
  congr 2
  omega

theorem decodeLastQuad_of_ne {a b c d : UInt8} (h : d ≠ ch '=') : decodeLastQuad a b c d = decodeQuad a b c d := by
  simp [decodeLastQuad, h]

theorem decode_last (a b c d : UInt8) : b64DecodeOpt [a, b, c, d] = decodeLastQuad a b c d := by
  simp [b64DecodeOpt]

theorem decode_cons (a b c d u : UInt8) (v : Str) : b64DecodeOpt (a :: b :: c :: d :: u :: v) =
    match decodeQuad a b c d, b64DecodeOpt (u :: v) with
      | some x, some y => some (x ++ y)
      | _, _ => none := by
  conv => lhs; unfold b64DecodeOpt
  rfl

theorem decode_encD_sextets {l : List UInt8} (h : l.length % 3 = 0) :
    b64DecodeOpt (encD (sextets l)) = some l := by
  induction l using sextets.induct with
  | case1 x y z rest ih =>
    have hr : rest.length % 3 = 0 := by simp only [List.length_cons] at h; omega
    have ih := ih hr
    have q := decodeQuad_sextets x y z _ rfl
    simp only [sextets, encD, List.map_cons] at ih ⊢
    cases hrest : List.map sextetChar (sextets rest) with
    | nil =>
      rw [decode_last, decodeLastQuad_of_ne (isB64_ne_pad _ (sextetChar_isB64 _ (Nat.mod_lt _ (by decide)))), q]
      rw [hrest] at ih
      simp only [b64DecodeOpt, Option.some.injEq] at ih
      rw [← ih]
    | cons u v =>
      rw [hrest] at ih
      rw [decode_cons, q, ih]
      rfl
  | case2 l hl =>
    match l, hl, h with
    | [], _, _ => simp [sextets, b64DecodeOpt]
    | [x], _, h => simp at h
    | [x, y], _, h => simp at h
    | x :: y :: z :: r, hl, _ => exact absurd rfl (hl x y z r)

theorem decodeQuad_some {a b c d : UInt8} {l : List UInt8} (h : decodeQuad a b c d = some l) :
    l.length = 3 ∧ encD (sextets l) = [a, b, c, d] := by
  unfold decodeQuad at h
  split at h
  · rename_i a' b' c' d' ha hb hc hd
    obtain ⟨ha1, ha2⟩ := sextetVal_some ha
    obtain ⟨hb1, hb2⟩ := sextetVal_some hb
    obtain ⟨hc1, hc2⟩ := sextetVal_some hc
    obtain ⟨hd1, hd2⟩ := sextetVal_some hd
    cases h
    refine ⟨rfl, ?_⟩
    rw [← ha2, ← hb2, ← hc2, ← hd2]
    have : sextets (groupBytes (a' * 262144 + b' * 4096 + c' * 64 + d')) = [a', b', c', d'] := by
      apply sextets_eq_of_val
      · simp [groupBytes]
      · simp; omega
      · simp [groupBytes]
      · rw [groupBytes_eq, beNat_toBe, Nat.mod_eq_of_lt (by omega)]
        simp [valB]; omega
    rw [this]; rfl
  · cases h

/-- A decodable text without pad characters is the canonical text of the decoded bytes. -/
theorem decode_some_nopad : ∀ {s : Str} {l : List UInt8}, (∀ c ∈ s, c ≠ ch '=') →
    b64DecodeOpt s = some l → l.length % 3 = 0 ∧ encD (sextets l) = s
  | [], l, _, h => by simp only [b64DecodeOpt, Option.some.injEq] at h; subst h; simp [sextets]
  | [_], _, _, h => by simp [b64DecodeOpt] at h
  | [_, _], _, _, h => by simp [b64DecodeOpt] at h
  | [_, _, _], _, _, h => by simp [b64DecodeOpt] at h
  | [a, b, c, d], l, hs, h => by
    rw [decode_last, decodeLastQuad_of_ne (hs d (by simp))] at h
    have := decodeQuad_some h
    exact ⟨by omega, this.2⟩
  | a :: b :: c :: d :: u :: v, l, hs, h => by
    rw [decode_cons] at h
    split at h
    · rename_i x y hx hy
      cases h
      have h1 := decodeQuad_some hx
      have h2 := decode_some_nopad
        (fun z hz => hs z (by simp only [List.mem_cons] at hz ⊢; exact .inr (.inr (.inr (.inr hz))))) hy
      refine ⟨by simp; omega, ?_⟩
      rw [sextets_append _ (by omega), encD_append, h1.2, h2.2]
      rfl
    · cases h

theorem b64Decode_encD_sextets {l : List UInt8} (h : l.length % 3 = 0) :
    b64Decode (encD (sextets l)) = .ok l := by
  simp [b64Decode, decode_encD_sextets h]

theorem b64Decode_ok {s : Str} {l : List UInt8} (h : b64Decode s = .ok l) : b64DecodeOpt s = some l := by
  unfold b64Decode at h
  split at h
  · rename_i v hv; cases h; exact hv
  · cases h

theorem b64Decode_ne_panic (s : Str) : b64Decode s ≠ .panic := by
  unfold b64Decode; split <;> simp

end Cesride
