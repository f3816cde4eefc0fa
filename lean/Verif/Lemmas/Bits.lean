import Verif.Lemmas.Frame
import Verif.Spec.Cesr

/-! # The bit-string specification of Base64URL agrees with the sextet lists used in the proofs -/

namespace Cesride

theorem mem_alphabet (c : UInt8) : c ∈ Spec.alphabet ↔ isB64 c = true := by
  revert c
  apply byte_forall (P := fun c => c ∈ Spec.alphabet ↔ isB64 c = true)
  decide +kernel

theorem isB64Text_iff (s : Str) : Spec.IsB64Text s ↔ ∀ c ∈ s, isB64 c = true := by
  unfold Spec.IsB64Text
  constructor <;> intro h c hc
  · exact (mem_alphabet c).mp (h c hc)
  · exact (mem_alphabet c).mpr (h c hc)

theorem idxOf_sextetChar : ∀ i : Nat, i < 64 → Spec.alphabet.idxOf (sextetChar i) = i := by
  decide +kernel

/-- Six bits of a digit. -/
def digitBits (v : Nat) : List Nat := [v / 32 % 2, v / 16 % 2, v / 8 % 2, v / 4 % 2, v / 2 % 2, v % 2]

theorem textBits_encD {d : List Nat} (hd : ∀ x ∈ d, x < 64) : Spec.textBits (encD d) = d.flatMap digitBits := by
  induction d with
  | nil => rfl
  | cons x xs ih =>
    have hx := hd x (by simp)
    have := ih (fun y hy => hd y (by simp [hy]))
    simp only [Spec.textBits, encD] at this
    simp only [Spec.textBits, encD, List.map_cons, List.flatMap_cons, this, Spec.charBits, idxOf_sextetChar x hx, digitBits]

theorem sextets_bits {l : List UInt8} (h : l.length % 3 = 0) : (sextets l).flatMap digitBits = Spec.bytesBits l := by
  induction l using sextets.induct with
  | case1 a b c rest ih =>
    have hr : rest.length % 3 = 0 := by simp only [List.length_cons] at h; omega
    have ha := a.toNat_lt
    have hb := b.toNat_lt
    have hc := c.toNat_lt
    have := ih hr
    simp only [Spec.bytesBits] at this
    simp only [sextets, List.flatMap_cons, this, Spec.bytesBits, digitBits, Spec.byteBits, List.cons_append, List.nil_append,
      List.cons.injEq, and_true]
    omega
  | case2 l hl =>
    match l, hl with
    | [], _ => rfl
    | [_], _ => simp at h
    | [_, _], _ => simp at h
    | a :: b :: c :: r, hl => exact absurd rfl (hl a b c r)

theorem isDecoding_sextets {l : List UInt8} (h : l.length % 3 = 0) : Spec.IsDecoding (encD (sextets l)) l := by
  refine ⟨(isB64Text_iff _).mpr (encD_isB64 (sextets_lt l)), ?_⟩
  rw [textBits_encD (sextets_lt l), sextets_bits h]

theorem digitBits_inj {x y : Nat} (hx : x < 64) (hy : y < 64) (h : digitBits x = digitBits y) : x = y := by
  simp only [digitBits, List.cons.injEq] at h
  omega

theorem byteBits_inj {x y : UInt8} (h : Spec.byteBits x = Spec.byteBits y) : x = y := by
  have hx := x.toNat_lt
  have hy := y.toNat_lt
  simp only [Spec.byteBits, List.cons.injEq] at h
  apply UInt8.toNat_inj.mp
  omega

/-- The decoding is unique: sanity of the specification. -/
theorem isDecoding_unique {t : Str} {a b : List UInt8} (ha : Spec.IsDecoding t a) (hb : Spec.IsDecoding t b) : a = b := by
  have h : Spec.bytesBits a = Spec.bytesBits b := by rw [← ha.2, ← hb.2]
  clear ha hb
  induction a generalizing b with
  | nil => cases b with
    | nil => rfl
    | cons y ys => simp [Spec.bytesBits, Spec.byteBits] at h
  | cons x xs ih => cases b with
    | nil => simp [Spec.bytesBits, Spec.byteBits] at h
    | cons y ys =>
      simp only [Spec.bytesBits, List.flatMap_cons] at h
      have h1 := List.append_inj h (by simp [Spec.byteBits])
      rw [byteBits_inj h1.1, ih h1.2]

end Cesride
