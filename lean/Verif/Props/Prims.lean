import Verif.Lemmas.Prims
import Verif.Props.Matter

/-! # Properties C28 - C33: numbers, sequence numbers, Base64 texts, date-times -/

namespace Cesride
open Matter

/-- `Number::new_with_num`. -/
abbrev Number.ofNum (E : Env) (n : Nat) : Res Matter := Number.new E (some n) none none none none none none
/-- `Number::new_with_numh`. -/
abbrev Number.ofHex (E : Env) (h : Str) : Res Matter := Number.new E none (some h) none none none none none
/-- `Number::new_with_qb64`. -/
abbrev Number.ofText (E : Env) (t : Str) : Res Matter := Number.new E none none none none none (some t) none
/-- `Number::new_with_qb64b`. -/
abbrev Number.ofTextBytes (E : Env) (t : List UInt8) : Res Matter := Number.new E none none none none (some t) none none
/-- `Number::new_with_qb2`. -/
abbrev Number.ofBinary (E : Env) (b : List UInt8) : Res Matter := Number.new E none none none none none none (some b)

/-- `Seqner::new_with_sn`. -/
abbrev Seqner.ofSn (E : Env) (n : Nat) : Res Matter := Seqner.new E (some n) none none none none none none
/-- `Seqner::new_with_snh`. -/
abbrev Seqner.ofHex (E : Env) (h : Str) : Res Matter := Seqner.new E none (some h) none none none none none
/-- `Seqner::new_with_qb64`. -/
abbrev Seqner.ofText (E : Env) (t : Str) : Res Matter := Seqner.new E none none none none none (some t) none
/-- `Seqner::new_with_qb64b`. -/
abbrev Seqner.ofTextBytes (E : Env) (t : List UInt8) : Res Matter := Seqner.new E none none none none (some t) none none
/-- `Seqner::new_with_qb2`. -/
abbrev Seqner.ofBinary (E : Env) (b : List UInt8) : Res Matter := Seqner.new E none none none none none none (some b)

/-- `Bexter::new` with a text and an explicit code. -/
abbrev Bexter.ofBext (E : Env) (code t : Str) : Res Matter := Bexter.new E (some t) (some code) none none none none
/-- `Bexter::new_with_qb64`. -/
abbrev Bexter.ofText (E : Env) (t : Str) : Res Matter := Bexter.new E none none none none (some t) none
/-- `Bexter::new_with_qb64b`. -/
abbrev Bexter.ofTextBytes (E : Env) (t : List UInt8) : Res Matter := Bexter.new E none none none (some t) none none
/-- `Bexter::new_with_qb2`. -/
abbrev Bexter.ofBinary (E : Env) (b : List UInt8) : Res Matter := Bexter.new E none none none none none (some b)

/-- `Dater::new_with_dts`. -/
abbrev Dater.ofDts (E : Env) (now dts : Str) : Res Matter := Dater.new E now (some dts) none none none none none
/-- `Dater::new_with_qb64`. -/
abbrev Dater.ofText (E : Env) (now t : Str) : Res Matter := Dater.new E now none none none none (some t) none
/-- `Dater::new_with_qb64b`. -/
abbrev Dater.ofTextBytes (E : Env) (now : Str) (t : List UInt8) : Res Matter := Dater.new E now none none none (some t) none none
/-- `Dater::new_with_qb2`. -/
abbrev Dater.ofBinary (E : Env) (now : Str) (b : List UInt8) : Res Matter := Dater.new E now none none none none none (some b)

/-! ## C28 -/

theorem Number.parse_text (E : Env) (t : Str) : Number.ofText E t = newWithQb64 t := rfl
theorem Number.parse_textBytes (E : Env) (t : Str) : Number.ofTextBytes E t = newWithQb64b t := rfl
theorem Number.parse_binary (E : Env) (t : Str) : Number.ofBinary E t = newWithQb2 E t := rfl

/-- Every 128-bit number is built with one of the four codes, in its own width. -/
theorem Number.build (E : Env) {n : Nat} (hn : n < 2 ^ 128) :
    ∃ code size, (code, size) ∈ Spec.numberCodes ∧ (code, size) ∈ Spec.fixedCodes ∧ n < 256 ^ size ∧
      (∀ c s, (c, s) ∈ Spec.numberCodes → n < 256 ^ s → size ≤ s) ∧
      Number.ofNum E n = .ok { code := code, size := 0, raw := toBe size n } := by
  have go : ∀ code size, Number.codeFor n = code → (code, size) ∈ Spec.numberCodes → (code, size) ∈ Spec.fixedCodes →
      Number.rawFor n = toBe size n → Number.ofNum E n = .ok { code := code, size := 0, raw := toBe size n } := by
    intro code size hc _ hf hr
    show newWithCodeAndRaw (Number.codeFor n) (Number.rawFor n) = _
    rw [hc, hr]
    exact fixed_new hf (toBe_length ..)
  have min : ∀ size, (∀ c s, (c, s) ∈ Spec.numberCodes → s < size → ¬ n < 256 ^ s) →
      ∀ c s, (c, s) ∈ Spec.numberCodes → n < 256 ^ s → size ≤ s := by
    intro size h c s hc hs
    rcases Nat.lt_or_ge s size with hl | hl
    · exact absurd hs (h c s hc hl)
    · exact hl
  have e1 : lit "0H" ≠ lit "M" := by decide
  have e2 : lit "N" ≠ lit "M" := by decide
  have e3 : lit "N" ≠ lit "0H" := by decide
  have e4 : lit "0A" ≠ lit "M" := by decide
  have e5 : lit "0A" ≠ lit "0H" := by decide
  have e6 : lit "0A" ≠ lit "N" := by decide
  have hsz : ∀ c s, (c, s) ∈ Spec.numberCodes → s = 2 ∨ s = 4 ∨ s = 8 ∨ s = 16 := by
    intro c s h
    have : ∀ p ∈ Spec.numberCodes, p.2 = 2 ∨ p.2 = 4 ∨ p.2 = 8 ∨ p.2 = 16 := by decide +kernel
    exact this _ h
  by_cases h2 : n < 256 ^ 2
  · have hc : Number.codeFor n = lit "M" := by simp [Number.codeFor, h2]
    refine ⟨lit "M", 2, by decide +kernel, by decide +kernel, h2, min 2 ?_, go _ _ hc (by decide +kernel) (by decide +kernel) ?_⟩
    · intro c s h hl; rcases hsz c s h with rfl | rfl | rfl | rfl <;> omega
    · simp [Number.rawFor, hc]
  · by_cases h4 : n < 256 ^ 4
    · have hc : Number.codeFor n = lit "0H" := by simp [Number.codeFor, h2, h4]
      refine ⟨lit "0H", 4, by decide +kernel, by decide +kernel, h4, min 4 ?_, go _ _ hc (by decide +kernel) (by decide +kernel) ?_⟩
      · intro c s h hl; rcases hsz c s h with rfl | rfl | rfl | rfl <;> first | assumption | omega
      · simp [Number.rawFor, hc, e1]
    · by_cases h8 : n < 256 ^ 8
      · have hc : Number.codeFor n = lit "N" := by simp [Number.codeFor, h2, h4, h8]
        refine ⟨lit "N", 8, by decide +kernel, by decide +kernel, h8, min 8 ?_, go _ _ hc (by decide +kernel) (by decide +kernel) ?_⟩
        · intro c s h hl; rcases hsz c s h with rfl | rfl | rfl | rfl <;> first | assumption | omega
        · simp [Number.rawFor, hc, e2, e3]
      · have hc : Number.codeFor n = lit "0A" := by simp [Number.codeFor, h2, h4, h8]
        refine ⟨lit "0A", 16, by decide +kernel, by decide +kernel, by simpa using hn, min 16 ?_, go _ _ hc (by decide +kernel) (by decide +kernel) ?_⟩
        · intro c s h hl; rcases hsz c s h with rfl | rfl | rfl | rfl <;> first | assumption | omega
        · simp [Number.rawFor, hc, e4, e5, e6]

/-- `num` on an object with a number code reads the raw bytes, and panics when their count is wrong. -/
theorem Number.num_eq {m : Matter} {size : Nat} (h : (m.code, size) ∈ Spec.numberCodes) :
    Number.num m = if m.raw.length = size then .ok (beNat m.raw) else .panic := by
  obtain ⟨code, sz, raw⟩ := m
  simp only [Spec.numberCodes, List.mem_cons, Prod.mk.injEq, List.not_mem_nil, or_false] at h
  have e1 : lit "0H" ≠ lit "M" := by decide
  have e2 : lit "N" ≠ lit "M" := by decide
  have e3 : lit "N" ≠ lit "0H" := by decide
  have e4 : lit "0A" ≠ lit "M" := by decide
  have e5 : lit "0A" ≠ lit "0H" := by decide
  have e6 : lit "0A" ≠ lit "N" := by decide
  rcases h with ⟨rfl, rfl⟩ | ⟨rfl, rfl⟩ | ⟨rfl, rfl⟩ | ⟨rfl, rfl⟩ <;>
    simp [Number.num, Number.fixedBe, e1, e2, e3, e4, e5, e6]

/-- `num` on any other object is an error. -/
theorem Number.num_other {m : Matter} (h : ∀ size, (m.code, size) ∉ Spec.numberCodes) : Number.num m = .err .unexpectedCode := by
  have h1 : m.code ≠ lit "M" := fun e => h 2 (by rw [e]; decide +kernel)
  have h2 : m.code ≠ lit "0H" := fun e => h 4 (by rw [e]; decide +kernel)
  have h3 : m.code ≠ lit "N" := fun e => h 8 (by rw [e]; decide +kernel)
  have h4 : m.code ≠ lit "0A" := fun e => h 16 (by rw [e]; decide +kernel)
  simp [Number.num, h1, h2, h3, h4]

/-- C28. Every `u128` builds a `Number` that reports it as a number and as a canonical hexadecimal numeral, uses
the smallest sufficient code, is also built from that numeral, and is what its qb64 (text or bytes) and qb2 parse
back to. -/
theorem C28_number_roundtrip (E : Env) {n : Nat} (hn : n < 2 ^ 128) :
    ∃ x h t b, Number.ofNum E n = .ok x ∧ Number.num x = .ok n ∧ Number.numh x = .ok h ∧ Spec.CanonicalHex h n ∧
      Number.positive x = .ok (decide (0 < n)) ∧
      (∃ size, (x.code, size) ∈ Spec.numberCodes ∧ x.raw.length = size ∧ n < 256 ^ size ∧
        ∀ c s, (c, s) ∈ Spec.numberCodes → n < 256 ^ s → size ≤ s) ∧
      Number.ofHex E h = .ok x ∧
      x.qb64 E = .ok t ∧ x.qb2 E = .ok b ∧ Number.ofText E t = .ok x ∧ Number.ofTextBytes E t = .ok x ∧
      Number.ofBinary E b = .ok x := by
  obtain ⟨code, size, h1, h2, h3, h4, h5⟩ := Number.build E hn
  obtain ⟨z, w⟩ := fixed_wf h2 (toBe_length size n)
  obtain ⟨t, b, t1, t2, t3, t4, t5⟩ := w.transport E
  have hnum : Number.num { code := code, size := 0, raw := toBe size n } = .ok n := by
    rw [Number.num_eq (size := size) h1, if_pos (toBe_length ..), beNat_toBe, Nat.mod_eq_of_lt h3]
  refine ⟨_, hexStr n, t, b, h5, hnum, ?_, hexStr_canonical n, ?_, ⟨size, h1, toBe_length .., h3, h4⟩, ?_, t1, t2, t3, t4, t5⟩
  · simp [Number.numh, hnum]
  · simp [Number.positive, hnum]
  · show (do let num ← (if hexStr n = [] then .ok 0 else u128FromHex (hexStr n) : Res Nat)
             Matter.new E (some (Number.codeFor num)) (some (Number.rawFor num)) none none none) = _
    rw [if_neg (hexStr_ne_nil n), u128FromHex_ok.mpr ⟨hexNumeral_of_canonical (hexStr_canonical n), hn⟩]
    exact h5

/-- C28. The hexadecimal constructor accepts exactly the hexadecimal numerals (either case, optional plus sign, leading
zeros) of 128-bit numbers, and the empty text as 0; anything else is an error. -/
theorem C28_number_hex (E : Env) (s : Str) :
    (s = [] → Number.ofHex E s = Number.ofNum E 0) ∧
    (∀ n, Spec.HexNumeral s n → n < 2 ^ 128 → Number.ofHex E s = Number.ofNum E n) ∧
    (s ≠ [] → (¬ ∃ n, Spec.HexNumeral s n ∧ n < 2 ^ 128) → Number.ofHex E s = .err .parseInt) := by
  have e : Number.ofHex E s = (do
      let num ← (if s = [] then .ok 0 else u128FromHex s : Res Nat)
      Matter.new E (some (Number.codeFor num)) (some (Number.rawFor num)) none none none) := rfl
  refine ⟨?_, ?_, ?_⟩
  · intro h; subst h; rfl
  · intro n hn hlt
    have hne : s ≠ [] := by
      obtain ⟨sign, digits, ds, h1, _, h3, _⟩ := hn
      rw [h1]; simp [h3]
    rw [e, if_neg hne, u128FromHex_ok.mpr ⟨hn, hlt⟩]; rfl
  · intro hne h
    rw [e, if_neg hne, u128FromHex_err h]; rfl

/-- Distinct numbers have distinct encodings. -/
theorem C28_number_injective (E : Env) {a b : Nat} (ha : a < 2 ^ 128) (hb : b < 2 ^ 128) {x y : Matter} {t : Str}
    (hx : Number.ofNum E a = .ok x) (hy : Number.ofNum E b = .ok y) (h1 : x.qb64 E = .ok t) (h2 : y.qb64 E = .ok t) : a = b := by
  obtain ⟨x', _, t', _, e1, n1, _, _, _, _, _, q1, _, p1, _⟩ := C28_number_roundtrip E ha
  obtain ⟨y', _, u', _, e2, n2, _, _, _, _, _, q2, _, p2, _⟩ := C28_number_roundtrip E hb
  rw [hx] at e1; injection e1 with e1; subst e1
  rw [hy] at e2; injection e2 with e2; subst e2
  rw [h1] at q1; injection q1 with q1; subst q1
  rw [h2] at q2; injection q2 with q2; subst q2
  rw [p1] at p2; injection p2 with p2; subst p2
  rw [n1] at n2; injection n2

example : Number.ofNum Env.debug 65536 = .ok { code := lit "0H", size := 0, raw := [0, 1, 0, 0] } := by decide +kernel
example : Number.ofHex Env.debug (lit "+0fF") = Number.ofNum Env.debug 255 :=
  (C28_number_hex Env.debug (lit "+0fF")).2.1 255
    ⟨lit "+", lit "0fF", [0, 15, 15], by decide, .inr rfl, by decide, ⟨by decide, by decide, by decide, trivial⟩, by decide⟩ (by decide)

/-! ## C29 -/

section
attribute [local irreducible] toBe

theorem Seqner.parse_text (E : Env) (t : Str) : Seqner.ofText E t =
    (do let m ← newWithQb64 t; if m.code = lit "0A" then .ok m else .err .unexpectedCode) := rfl
theorem Seqner.parse_textBytes (E : Env) (t : Str) : Seqner.ofTextBytes E t =
    (do let m ← newWithQb64b t; if m.code = lit "0A" then .ok m else .err .unexpectedCode) := rfl
theorem Seqner.parse_binary (E : Env) (t : Str) : Seqner.ofBinary E t =
    (do let m ← newWithQb2 E t; if m.code = lit "0A" then .ok m else .err .unexpectedCode) := rfl

theorem Seqner.build (E : Env) (n : Nat) : Seqner.ofSn E n = .ok { code := lit "0A", size := 0, raw := toBe 16 n } := by
  show (do let m ← newWithCodeAndRaw (lit "0A") (toBe 16 n); if m.code = lit "0A" then .ok m else .err .unexpectedCode) = _
  rw [fixed_new (n := 16) (by decide +kernel) (toBe_length ..)]
  simp

theorem Seqner.sn_eq {m : Matter} (h : 16 ≤ m.raw.length) : Seqner.sn m = .ok (beNat (m.raw.take 16)) := by
  simp [Seqner.sn, slice, h]

theorem Seqner.sn_short {m : Matter} (h : m.raw.length < 16) : Seqner.sn m = .panic := by
  simp [Seqner.sn, slice, show ¬ 16 ≤ m.raw.length by omega]

/-- C29. Every `u128` sequence number is reported back as number and canonical hexadecimal numeral, the object is also
built from that numeral and parsed back from its encodings. -/
theorem C29_seqner_roundtrip (E : Env) {n : Nat} (hn : n < 2 ^ 128) :
    ∃ x h t b, Seqner.ofSn E n = .ok x ∧ Seqner.sn x = .ok n ∧ Seqner.snh x = .ok h ∧ Spec.CanonicalHex h n ∧
      x.code = lit "0A" ∧ x.raw.length = 16 ∧ Seqner.ofHex E h = .ok x ∧
      x.qb64 E = .ok t ∧ x.qb2 E = .ok b ∧ t.length = 24 ∧ b.length = 18 ∧
      Seqner.ofText E t = .ok x ∧ Seqner.ofTextBytes E t = .ok x ∧ Seqner.ofBinary E b = .ok x := by
  have hb := Seqner.build E n
  have hf : (lit "0A", 16) ∈ Spec.fixedCodes := by decide +kernel
  have ho : Obtained E { code := lit "0A", size := 0, raw := toBe 16 n } :=
    .built (code := lit "0A") (raw := toBe 16 n) (.inl ⟨16, hf⟩) (fixed_new hf (toBe_length ..))
  obtain ⟨z, w⟩ := fixed_wf hf (toBe_length 16 n)
  obtain ⟨t, b, t1, t2, t3, t4, t5⟩ := w.transport E
  obtain ⟨t', b', k, q1, q2, q3, _, _, q4, _, _, q5⟩ := C13_aligned E ho
  rw [t1] at q1; injection q1 with q1; subst q1
  rw [t2] at q2; injection q2 with q2; subst q2
  have hk : k = 24 := by
    have : Matter.fullSize { code := lit "0A", size := 0, raw := toBe 16 n } = .ok 24 := rfl
    rw [this] at q3; injection q3 with q3; exact q3.symm
  subst hk
  have hsn : Seqner.sn { code := lit "0A", size := 0, raw := toBe 16 n } = .ok n := by
    rw [Seqner.sn_eq (by simp [toBe_length])]
    simp only
    rw [List.take_of_length_le (by simp [toBe_length]), beNat_toBe, Nat.mod_eq_of_lt (by simpa using hn)]
  refine ⟨_, hexStr n, t, b, hb, hsn, ?_, hexStr_canonical n, rfl, toBe_length .., ?_, t1, t2, q4, q5, ?_, ?_, ?_⟩
  · simp [Seqner.snh, hsn]
  · have e : ∀ s, Seqner.ofHex E s = (do let n ← u128FromHex s; Seqner.ofSn E n) := by
      intro s
      show (do let raw ← (do let sn ← u128FromHex s; .ok (some (toBe 16 sn)) : Res (Option (List UInt8)))
               let m ← Matter.new E (some (lit "0A")) raw none none none
               if m.code = lit "0A" then .ok m else .err .unexpectedCode) = _
      cases u128FromHex s <;> rfl
    rw [e, u128FromHex_ok.mpr ⟨hexNumeral_of_canonical (hexStr_canonical n), hn⟩]
    exact hb
  · rw [Seqner.parse_text, t3]; simp
  · rw [Seqner.parse_textBytes, t4]; simp
  · rw [Seqner.parse_binary, t5]; simp

/-- C29. Lexicographic order of raw bytes, and of the binary encodings, is the order of the sequence numbers. -/
theorem C29_seqner_order (E : Env) {a b : Nat} (ha : a < 2 ^ 128) (hb : b < 2 ^ 128) {x y : Matter} {p q : List UInt8}
    (hx : Seqner.ofSn E a = .ok x) (hy : Seqner.ofSn E b = .ok y) (hp : x.qb2 E = .ok p) (hq : y.qb2 E = .ok q) :
    (x.raw < y.raw ↔ a < b) ∧ (p < q ↔ a < b) ∧ (x.raw = y.raw ↔ a = b) := by
  rw [Seqner.build] at hx hy
  injection hx with hx; injection hy with hy
  subst hx; subst hy
  have hf : (lit "0A", 16) ∈ Spec.fixedCodes := by decide +kernel
  obtain ⟨z, w⟩ := fixed_wf hf (toBe_length 16 a)
  obtain ⟨z', w'⟩ := fixed_wf hf (toBe_length 16 b)
  have hzz : z' = z := by
    have h1 := w.szg; have h2 := w'.szg
    simp only at h1 h2
    rw [h1] at h2; injection h2 with h2; exact h2.symm
  subst hzz
  have e1 := w.binfil E
  have e2 := w'.binfil E
  rw [Matter.qb2, e1] at hp; rw [Matter.qb2, e2] at hq
  injection hp with hp; injection hq with hq
  have hv : ∀ n < 2 ^ 128, beNat (toBe 16 n) = n := fun n hn => by
    rw [beNat_toBe, Nat.mod_eq_of_lt (by simpa using hn)]
  have hlt : toBe 16 a < toBe 16 b ↔ a < b := by
    rw [lt_iff_beNat (by simp [toBe_length]), hv a ha, hv b hb]
  refine ⟨hlt, ?_, ?_⟩
  · rw [← hp, ← hq]
    show _ ++ toBe 16 a < _ ++ toBe 16 b ↔ _
    rw [show headD { code := lit "0A", size := 0, raw := toBe 16 b } z' = headD { code := lit "0A", size := 0, raw := toBe 16 a } z' from rfl,
      append_lt_append]
    exact hlt
  · constructor
    · intro h
      have : beNat (toBe 16 a) = beNat (toBe 16 b) := congrArg beNat h
      rwa [hv a ha, hv b hb] at this
    · intro h; rw [h]

end

example : Seqner.ofSn Env.debug 258 = .ok { code := lit "0A", size := 0, raw := [0, 0, 0, 0, 0, 0, 0, 0, 0, 0, 0, 0, 0, 0, 1, 2] } := by decide +kernel
example : Matter.qb64 Env.debug { code := lit "0A", size := 0, raw := [0, 0, 0, 0, 0, 0, 0, 0, 0, 0, 0, 0, 0, 0, 1, 2] } = .ok (lit "0AAAAAAAAAAAAAAAAAAAAAEC") := by decide +kernel

/-! ## C30 -/

theorem numberCode_fixed {code : Str} {n : Nat} (h : (code, n) ∈ Spec.numberCodes) : (code, n) ∈ Spec.fixedCodes := by
  have : ∀ p ∈ Spec.numberCodes, p ∈ Spec.fixedCodes := by decide +kernel
  exact this _ h

/-- Raw length of an object parsed from text with a fixed-size code: complete without pad characters in the consumed
part, too short with one. -/
theorem parsed_raw_length {s : Str} {m : Matter} {size n : Nat} (h : newWithQb64 s = .ok m) (hm : (m.code, size) ∈ Spec.fixedCodes)
    (hn : m.fullSize = .ok n) : (m.raw.length = size ↔ ch '=' ∉ s.take n) ∧ m.raw.length ≤ size := by
  obtain ⟨z, hz, hf, hsz⟩ := fixed_sizage hm
  obtain ⟨z', hz', hT, hw⟩ := exfil_canonical h
  have : z' = z := by rw [hz] at hz'; injection hz' with hz'; exact hz'.symm
  subst this
  have htot := Wf.of_fullSize hz hn
  subst htot
  by_cases hp : ch '=' ∈ s.take (total m z')
  · have := exfil_pad_short h hz hf hp
    constructor
    · constructor
      · intro h; omega
      · intro h; exact absurd hp h
    · omega
  · have := (hw (by intro c hc he; subst he; exact hp hc)).1.fix hf
    constructor
    · constructor
      · intro _; exact hp
      · intro _; omega
    · omega

/-- C30. `num` of a `Number` parsed from text panics exactly when its code is a number code and the consumed part of the
text has a pad character; otherwise it returns the number, or an error for any other code. -/
theorem C30_number_text (E : Env) {s : Str} {x : Matter} (h : Number.ofText E s = .ok x) :
    ∃ n, x.fullSize = .ok n ∧
      (Number.num x = .panic ↔ (∃ size, (x.code, size) ∈ Spec.numberCodes) ∧ ch '=' ∈ s.take n) ∧
      ((∀ size, (x.code, size) ∉ Spec.numberCodes) → Number.num x = .err .unexpectedCode) ∧
      ((∃ size, (x.code, size) ∈ Spec.numberCodes) → ch '=' ∉ s.take n → Number.num x = .ok (beNat x.raw)) := by
  rw [Number.parse_text] at h
  obtain ⟨n, hn, _⟩ := C04_text_canonical E (s := s) (m := x) h
  refine ⟨n, hn, ?_, fun h => Number.num_other h, ?_⟩
  · constructor
    · intro hp
      by_cases hc : ∃ size, (x.code, size) ∈ Spec.numberCodes
      · obtain ⟨size, hc⟩ := hc
        refine ⟨⟨size, hc⟩, ?_⟩
        have hr := (parsed_raw_length h (numberCode_fixed hc) hn).1
        rw [Number.num_eq hc] at hp
        split at hp
        · cases hp
        · rename_i hne
          exact Classical.byContradiction fun hnp => hne (hr.mpr hnp)
      · rw [Number.num_other (fun size hs => hc ⟨size, hs⟩)] at hp; cases hp
    · rintro ⟨⟨size, hc⟩, hp⟩
      have hr := (parsed_raw_length h (numberCode_fixed hc) hn).1
      rw [Number.num_eq hc, if_neg (fun he => hr.mp he hp)]
  · rintro ⟨size, hc⟩ hp
    have hr := (parsed_raw_length h (numberCode_fixed hc) hn).1
    rw [Number.num_eq hc, if_pos (hr.mpr hp)]

/-- C30. `num` of a `Number` parsed from binary never panics. -/
theorem C30_number_binary (E : Env) {b : List UInt8} {x : Matter} (h : Number.ofBinary E b = .ok x) :
    Number.num x ≠ .panic := by
  rw [Number.parse_binary] at h
  have ho : Obtained E x := .binary h
  by_cases hc : ∃ size, (x.code, size) ∈ Spec.numberCodes
  · obtain ⟨size, hc⟩ := hc
    rw [Number.num_eq hc]
    obtain ⟨z, w⟩ := ho.wf
    obtain ⟨z', hz', hf, hs⟩ := fixed_sizage (numberCode_fixed hc)
    have : z' = z := by have := w.szg; rw [hz'] at this; injection this
    subst this
    have := (w.fix hf).2
    rw [if_pos (by omega)]
    simp
  · rw [Number.num_other (fun size hs => hc ⟨size, hs⟩)]; simp

/-- C30. `sn` of a `Seqner` parsed from text panics exactly when one of the 24 consumed characters is a pad character. -/
theorem C30_seqner_text (E : Env) {s : Str} {x : Matter} (h : Seqner.ofText E s = .ok x) :
    (Seqner.sn x = .panic ↔ ch '=' ∈ s.take 24) ∧ (ch '=' ∉ s.take 24 → Seqner.sn x = .ok (beNat x.raw)) := by
  rw [Seqner.parse_text] at h
  obtain ⟨m, h', h2⟩ := Res.bind_eq_ok.mp h
  clear h
  have hc : m.code = lit "0A" ∧ m = x := by
    split at h2
    · rename_i hc; injection h2 with h2; exact ⟨hc, h2⟩
    · cases h2
  obtain ⟨hc, rfl⟩ := hc
  have hf : (m.code, 16) ∈ Spec.fixedCodes := by rw [hc]; decide +kernel
  have hn : m.fullSize = .ok 24 := by simp [Matter.fullSize, hc, show sizage (lit "0A") = .ok { hs := 2, ss := 0, fs := 24, ls := 0 } from rfl, u32Max]
  obtain ⟨hr, hle⟩ := parsed_raw_length h' hf hn
  by_cases hp : ch '=' ∈ s.take 24
  · have hlt : m.raw.length < 16 := by
      have : m.raw.length ≠ 16 := fun he => hr.mp he hp
      omega
    rw [Seqner.sn_short hlt]
    simp [hp]
  · have he := hr.mpr hp
    have : Seqner.sn m = .ok (beNat m.raw) := by
      rw [Seqner.sn_eq (by omega), List.take_of_length_le (by omega)]
    rw [this]; simp [hp]

/-- C30. `sn` of a `Seqner` parsed from binary never panics. -/
theorem C30_seqner_binary (E : Env) {b : List UInt8} {x : Matter} (h : Seqner.ofBinary E b = .ok x) :
    Seqner.sn x = .ok (beNat x.raw) := by
  rw [Seqner.parse_binary] at h
  obtain ⟨m, h', h2⟩ := Res.bind_eq_ok.mp h
  clear h
  have hc : m.code = lit "0A" ∧ m = x := by
    split at h2
    · rename_i hc; injection h2 with h2; exact ⟨hc, h2⟩
    · cases h2
  obtain ⟨hc, rfl⟩ := hc
  have ho : Obtained E m := .binary h'
  have hf : (m.code, 16) ∈ Spec.fixedCodes := by rw [hc]; decide +kernel
  obtain ⟨z, w⟩ := ho.wf
  obtain ⟨z', hz', hf, hs⟩ := fixed_sizage hf
  have : z' = z := by have := w.szg; rw [hz'] at this; injection this
  subst this
  have := (w.fix hf).2
  rw [Seqner.sn_eq (by omega), List.take_of_length_le (by omega)]

/-- The byte constructors agree with the text constructors on valid UTF-8 and refuse anything else. -/
theorem C30_bytes (E : Env) (b : List UInt8) :
    Number.ofTextBytes E b = (if utf8Valid b then Number.ofText E b else .err .utf8) ∧
    Seqner.ofTextBytes E b = (if utf8Valid b then Seqner.ofText E b else .err .utf8) := by
  rw [Number.parse_textBytes, Seqner.parse_textBytes, Number.parse_text, Seqner.parse_text]
  simp only [newWithQb64b, fromUtf8, newWithQb64]
  split <;> simp

/-- C30, the defect on concrete texts. -/
theorem C30_pad_panics : ∃ s x t y, (∀ E, Number.ofText E s = .ok x) ∧ Number.num x = .panic ∧
    (∀ E, Seqner.ofText E t = .ok y) ∧ Seqner.sn y = .panic := by
  refine ⟨lit "MAA=", { code := lit "M", size := 0, raw := [0] }, lit "0AAAAAAAAAAAAAAAAAAAAA==",
    { code := lit "0A", size := 0, raw := List.replicate 14 0 }, ?_, by decide +kernel, ?_, by decide +kernel⟩
  · intro E
    rw [Number.parse_text]
    exact (by decide +kernel : Matter.exfil (lit "MAA=") = .ok { code := lit "M", size := 0, raw := [0] })
  · intro E
    rw [Seqner.parse_text, newWithQb64,
      (by decide +kernel : Matter.exfil (lit "0AAAAAAAAAAAAAAAAAAAAA==") = .ok { code := lit "0A", size := 0, raw := List.replicate 14 0 })]
    rfl

/-- Non-vacuity: texts with a tail are parsed; a digest is accepted as a `Number` but has no number. -/
example : Number.ofText Env.debug (lit "MAAEzz=") = .ok { code := lit "M", size := 0, raw := [0, 4] } := by decide +kernel
example : Number.ofText Env.debug (lit "1AAFAAAB") = .ok { code := lit "1AAF", size := 0, raw := [0, 0, 1] } := by decide +kernel

end Cesride
