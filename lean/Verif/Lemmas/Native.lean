import Verif.Spec.Native
import Mathlib.Tactic.FieldSimp
import Mathlib.Tactic.Linarith
import Mathlib.Tactic.Positivity
import Mathlib.Tactic.Ring

/-! # Lemmas about floats: truncation, rounding and widening -/

namespace Cesride.Native
open Spec

theorem f64Value_units {f : F64} (h : f.exp.toNat ≠ 2047) :
    f64Value f = some ((if f.sign then -1 else 1) * ((f.units : ℚ) / 2 ^ 1074)) := by
  have h1 : ¬ f.exp = 2047#11 := fun e => h (by rw [e]; rfl)
  unfold f64Value F64.units
  rw [if_neg h1]
  have z : (2:ℚ) ≠ 0 := by norm_num
  have hz : (2:ℚ)^1074 = 2^52 * 2^1022 := by rw [← pow_add]
  generalize (if f.sign = true then (-1:ℚ) else 1) = s
  by_cases h0 : f.exp = 0#11
  · rw [if_pos h0, if_pos (by rw [h0]; rfl)]
    congr 1
    rw [zpow_neg, show (1022:ℤ) = ((1022:ℕ):ℤ) by rfl, zpow_natCast, hz]
    field_simp
  · have hn : f.exp.toNat ≠ 0 := fun e => h0 (BitVec.eq_of_toNat_eq e)
    rw [if_neg h0, if_neg hn]
    congr 1
    obtain ⟨e, he⟩ : ∃ e, f.exp.toNat = e + 1 := ⟨f.exp.toNat - 1, by omega⟩
    rw [he, show ((e+1:ℕ):ℤ) - 1023 = (e:ℤ) - ((1022:ℕ):ℤ) by push_cast; ring, zpow_sub₀ z, zpow_natCast, zpow_natCast, hz, Nat.add_sub_cancel]
    push_cast
    field_simp
    ring

theorem f64Value_none {f : F64} : f64Value f = none ↔ f.finite = false := by
  unfold F64.finite
  constructor
  · intro h
    by_contra hn
    rw [f64Value_units (by simpa using hn)] at h
    cases h
  · intro h
    have : f.exp = 2047#11 := BitVec.eq_of_toNat_eq (by simpa using h)
    unfold f64Value
    rw [if_pos this]

theorem f64Value_finite {f : F64} {q : ℚ} (h : f64Value f = some q) : f.finite = true ∧ f.nan = false ∧
    q = (if f.sign then -1 else 1) * ((f.units : ℚ) / 2 ^ 1074) := by
  have hf : f.finite = true := by
    by_contra hn
    rw [f64Value_none.mpr (by simpa using hn)] at h
    cases h
  have h2 : f.exp.toNat ≠ 2047 := by simpa [F64.finite] using hf
  refine ⟨hf, by simp [F64.nan, h2], ?_⟩
  rw [f64Value_units h2] at h
  exact (Option.some.inj h).symm

theorem div_bounds (u d : Nat) (hd : 0 < d) : ((u / d : Nat) : ℚ) ≤ (u : ℚ) / d ∧ (u : ℚ) / d < (u / d : Nat) + 1 := by
  have hd' : (0:ℚ) < d := by exact_mod_cast hd
  constructor
  · rw [le_div_iff₀ hd']
    exact_mod_cast Nat.div_mul_le_self u d
  · rw [div_lt_iff₀ hd']
    have := Nat.lt_div_mul_add (a := u) hd
    have h2 : u < (u / d + 1) * d := by rw [Nat.add_mul]; omega
    exact_mod_cast h2

set_option exponentiation.threshold 2000 in
/-- A float becomes the integer it is without its fraction. -/
theorem toI64_spec {f : F64} {q : ℚ} (h : f64Value f = some q) :
    (q ≥ 2 ^ 63 → f.toI64 = 2 ^ 63 - 1) ∧ (q < -2 ^ 63 → f.toI64 = -2 ^ 63) ∧ (-2 ^ 63 ≤ q → q < 2 ^ 63 → Truncates q f.toI64) := by
  obtain ⟨hf, hn, hq⟩ := f64Value_finite h
  obtain ⟨b1, b2⟩ := div_bounds f.units (2 ^ 1074) (Nat.two_pow_pos _)
  unfold F64.toI64
  rw [if_neg (by simp [hn]), if_neg (by simp [hf])]
  rw [show (((2 ^ 1074 : ℕ)) : ℚ) = (2:ℚ) ^ 1074 by rw [Nat.cast_pow]; rfl] at b1 b2
  dsimp only
  generalize f.units / 2 ^ 1074 = n at *
  generalize (f.units : ℚ) / 2 ^ 1074 = u at *
  have hn0 : (0:ℚ) ≤ n := by exact_mod_cast Nat.zero_le n
  cases hs : f.sign with
  | true =>
    rw [hs, if_pos rfl] at hq
    rw [if_pos rfl]
    refine ⟨fun h => by linarith, ?_, ?_⟩
    · intro h
      have : (2:ℚ)^63 < n + 1 := by linarith
      have : 2 ^ 63 < n + 1 := by exact_mod_cast this
      omega
    · intro h1 h2
      have : (n:ℚ) ≤ 2 ^ 63 := by linarith
      have : n ≤ 2 ^ 63 := by exact_mod_cast this
      rw [show max (-2 ^ 63 : ℤ) (-(n:ℤ)) = -(n:ℤ) by omega]
      constructor
      · rw [hq]; push_cast
        rw [abs_neg, abs_of_nonneg hn0, neg_one_mul, abs_neg, abs_of_nonneg (by linarith)]; linarith
      · rw [hq, abs_lt]; push_cast
        constructor <;> linarith
  | false =>
    rw [hs, if_neg (by simp)] at hq
    rw [if_neg (by simp)]
    refine ⟨?_, fun h => by linarith, ?_⟩
    · intro h
      have : (2:ℚ)^63 < n + 1 := by linarith
      have : 2 ^ 63 < n + 1 := by exact_mod_cast this
      omega
    · intro h1 h2
      have : (n:ℚ) < 2 ^ 63 := by linarith
      have : n < 2 ^ 63 := by exact_mod_cast this
      rw [show min (2 ^ 63 - 1 : ℤ) (n:ℤ) = (n:ℤ) by omega]
      constructor
      · rw [hq]; push_cast
        rw [abs_of_nonneg hn0, one_mul, abs_of_nonneg (by linarith)]; linarith
      · rw [hq, abs_lt]; push_cast
        constructor <;> linarith

theorem pow_congr {a b : Nat} (h : a = b) : 2 ^ a = 2 ^ b := by rw [h]

/-- The magnitude that an integer of magnitude `n` is rounded to. -/
def rounded (n : Nat) : Nat :=
  if n.log2 ≤ 52 then n
  else
    let q := n / 2 ^ (n.log2 - 52)
    let r := n % 2 ^ (n.log2 - 52)
    (if r > 2 ^ (n.log2 - 53) ∨ (r = 2 ^ (n.log2 - 53) ∧ q % 2 = 1) then q + 1 else q) * 2 ^ (n.log2 - 52)

theorem log2_le_63 {n : Nat} (h0 : n ≠ 0) (h : n ≤ 2 ^ 63) : n.log2 ≤ 63 := by
  have := Nat.log2_self_le h0
  by_contra hc
  have : 2 ^ 64 ≤ 2 ^ n.log2 := Nat.pow_le_pow_right (by omega) (by omega)
  omega

set_option exponentiation.threshold 2000 in
theorem ofI64_units {i : Int} (h : i.natAbs ≤ 2 ^ 63) : (F64.ofI64 i).exp.toNat ≠ 2047 ∧ (i.natAbs ≠ 0 → (F64.ofI64 i).sign = decide (i < 0)) ∧
    (F64.ofI64 i).units = rounded i.natAbs * 2 ^ 1074 ∧
    (52 < i.natAbs.log2 → i.natAbs % 2 ^ (i.natAbs.log2 - 52) = 2 ^ (i.natAbs.log2 - 53) → (F64.ofI64 i).man.toNat % 2 = 0) := by
  unfold F64.ofI64 rounded
  dsimp only
  generalize hn : i.natAbs = n at *
  by_cases h0 : n = 0
  · rw [if_pos h0]
    subst h0
    refine ⟨by decide, by simp, ?_, by simp⟩
    rw [if_pos (by decide), Nat.zero_mul]; rfl
  rw [if_neg h0]
  have l1 := Nat.log2_self_le h0
  have l2 := Nat.lt_log2_self (n := n)
  have l3 := log2_le_63 h0 h
  generalize n.log2 = l at *
  by_cases hl : l ≤ 52
  · rw [if_pos hl, if_pos hl]
    have e1 : (BitVec.ofNat 11 (l + 1023)).toNat = l + 1023 := by rw [BitVec.toNat_ofNat, Nat.mod_eq_of_lt (by omega)]
    have hp : 2 ^ 52 = 2 ^ l * 2 ^ (52 - l) := by rw [← Nat.pow_add]; exact pow_congr (by omega)
    have g1 : 2 ^ 52 ≤ n * 2 ^ (52 - l) := by rw [hp]; exact Nat.mul_le_mul_right _ l1
    have g2 : n * 2 ^ (52 - l) < 2 ^ 53 := by
      rw [show 2 ^ 53 = 2 ^ (l + 1) * 2 ^ (52 - l) by rw [← Nat.pow_add]; exact pow_congr (by omega)]
      exact Nat.mul_lt_mul_of_pos_right l2 (Nat.two_pow_pos _)
    have e2 : (BitVec.ofNat 52 (n * 2 ^ (52 - l))).toNat = n * 2 ^ (52 - l) - 2 ^ 52 := by rw [BitVec.toNat_ofNat]; omega
    refine ⟨by rw [e1]; omega, fun _ => rfl, ?_, by omega⟩
    unfold F64.units
    dsimp only
    rw [e1, e2, if_neg (by omega), Nat.add_sub_of_le g1, Nat.mul_assoc, ← Nat.pow_add]
    exact congrArg (_ * ·) (pow_congr (by omega))
  · rw [if_neg hl, if_neg hl]
    have hp : 2 ^ l = 2 ^ 52 * 2 ^ (l - 52) := by rw [← Nat.pow_add]; exact pow_congr (by omega)
    have hp2 : 2 ^ (l + 1) = 2 ^ 53 * 2 ^ (l - 52) := by rw [← Nat.pow_add]; exact pow_congr (by omega)
    have q1 : 2 ^ 52 ≤ n / 2 ^ (l - 52) := by rw [Nat.le_div_iff_mul_le (Nat.two_pow_pos _)]; omega
    have q2 : n / 2 ^ (l - 52) < 2 ^ 53 := by rw [Nat.div_lt_iff_lt_mul (Nat.two_pow_pos _)]; omega
    generalize hq : n / 2 ^ (l - 52) = q at *
    generalize hr : n % 2 ^ (l - 52) = r at *
    have hev : r = 2 ^ (l - 53) → (if r > 2 ^ (l - 53) ∨ (r = 2 ^ (l - 53) ∧ q % 2 = 1) then q + 1 else q) % 2 = 0 := by
      intro e
      rw [e]
      split <;> omega
    have hb : 2 ^ 52 ≤ (if r > 2 ^ (l - 53) ∨ (r = 2 ^ (l - 53) ∧ q % 2 = 1) then q + 1 else q) ∧
      (if r > 2 ^ (l - 53) ∨ (r = 2 ^ (l - 53) ∧ q % 2 = 1) then q + 1 else q) ≤ 2 ^ 53 := by split <;> omega
    generalize (if r > 2 ^ (l - 53) ∨ (r = 2 ^ (l - 53) ∧ q % 2 = 1) then q + 1 else q) = q' at *
    by_cases hc : q' = 2 ^ 53
    · rw [if_pos hc]
      have e1 : (BitVec.ofNat 11 (l + 1024)).toNat = l + 1024 := by rw [BitVec.toNat_ofNat, Nat.mod_eq_of_lt (by omega)]
      refine ⟨by rw [e1]; omega, fun _ => rfl, ?_, fun _ _ => rfl⟩
      unfold F64.units
      dsimp only
      rw [e1, if_neg (by omega), hc, Nat.mul_assoc, ← Nat.pow_add, show (0 : BitVec 52).toNat = 0 from rfl, Nat.add_zero, ← Nat.pow_add, ← Nat.pow_add]
      exact pow_congr (by omega)
    · rw [if_neg hc]
      have e1 : (BitVec.ofNat 11 (l + 1023)).toNat = l + 1023 := by rw [BitVec.toNat_ofNat, Nat.mod_eq_of_lt (by omega)]
      have e2 : (BitVec.ofNat 52 q').toNat = q' - 2 ^ 52 := by rw [BitVec.toNat_ofNat]; omega
      refine ⟨by rw [e1]; omega, fun _ => rfl, ?_, fun _ e => by have := hev e; rw [e2]; omega⟩
      unfold F64.units
      dsimp only
      rw [e1, e2, if_neg (by omega), Nat.add_sub_of_le hb.1, Nat.mul_assoc, ← Nat.pow_add]
      exact congrArg (_ * ·) (pow_congr (by omega))

/-- Floats from `2 ^ l` on are multiples of `2 ^ (l - 52)`. -/
theorem units_multiple {f : F64} {l : Nat} (h : 2 ^ (l + 1074) ≤ f.units) : ∃ k, f.units = k * 2 ^ (l + 1022) := by
  unfold F64.units at *
  have := f.man.isLt
  split at h
  · have : 2 ^ 52 ≤ 2 ^ (l + 1074) := Nat.pow_le_pow_right (by omega) (by omega)
    omega
  · rename_i hne
    rw [if_neg hne]
    have h2 : (2 ^ 52 + f.man.toNat) * 2 ^ (f.exp.toNat - 1) < 2 ^ 53 * 2 ^ (f.exp.toNat - 1) :=
      Nat.mul_lt_mul_of_pos_right (by omega) (Nat.two_pow_pos _)
    rw [← Nat.pow_add] at h2
    have h3 : l + 1074 < 53 + (f.exp.toNat - 1) := (Nat.pow_lt_pow_iff_right (by omega)).mp (by omega : 2 ^ (l + 1074) < 2 ^ (53 + (f.exp.toNat - 1)))
    refine ⟨(2 ^ 52 + f.man.toNat) * 2 ^ (f.exp.toNat - 1 - (l + 1022)), ?_⟩
    rw [Nat.mul_assoc, ← Nat.pow_add]
    exact congrArg (_ * ·) (pow_congr (by omega))

/-- The rounding is to the nearest multiple; with two nearest ones the remainder is a half. -/
theorem rounded_nearest {n : Nat} (hl : 52 < n.log2) (k : Nat) :
    |((rounded n : Int)) - n| ≤ |(k * 2 ^ (n.log2 - 52) : Int) - n| ∧
    (|((rounded n : Int)) - n| = |(k * 2 ^ (n.log2 - 52) : Int) - n| → (rounded n : Int) = k * 2 ^ (n.log2 - 52) ∨ n % 2 ^ (n.log2 - 52) = 2 ^ (n.log2 - 53)) := by
  unfold rounded
  rw [if_neg (by omega)]
  dsimp only
  have hp : 2 ^ (n.log2 - 52) = 2 * 2 ^ (n.log2 - 53) := by rw [← Nat.pow_succ']; exact pow_congr (by omega)
  have hn := Nat.div_add_mod n (2 ^ (n.log2 - 52))
  have hr := Nat.mod_lt n (Nat.two_pow_pos (n.log2 - 52))
  rw [show ((2:Int) ^ (n.log2 - 52)) = ((2 ^ (n.log2 - 52) : Nat) : Int) by push_cast; rfl]
  generalize n / 2 ^ (n.log2 - 52) = q at *
  generalize n % 2 ^ (n.log2 - 52) = r at *
  have hpos := Nat.two_pow_pos (n.log2 - 53)
  generalize 2 ^ (n.log2 - 52) = p at *
  generalize 2 ^ (n.log2 - 53) = half at *
  rcases Nat.lt_or_ge q k with hk | hk
  · obtain ⟨d, rfl⟩ : ∃ d, k = q + 1 + d := ⟨k - (q + 1), by omega⟩
    have hd : 0 ≤ (d : Int) * p := by exact_mod_cast Nat.zero_le _
    have hd2 : d = 0 ∨ (p : Int) ≤ d * p := by
      rcases Nat.eq_zero_or_pos d with h | h
      · exact .inl h
      · right; exact_mod_cast Nat.le_mul_of_pos_left p h
    have hn' : (n : Int) = p * q + r := by exact_mod_cast hn.symm
    have e1 : (((q + 1 + d : Nat) : Int) * (p : Int)) - n = p - r + d * p := by rw [hn']; push_cast; ring
    have e2 : ((((q + 1) * p : Nat)) : Int) - n = p - r := by rw [hn']; push_cast; ring
    have e3 : (((q * p : Nat)) : Int) - n = - r := by rw [hn']; push_cast; ring
    have e4 : ((q + 1 + d : Nat) : Int) * (p : Int) = (((q + 1) * p : Nat) : Int) + d * p := by push_cast; ring
    rw [e1, e4]
    rw [e4] at e1
    split
    · rw [e2]
      generalize (d : Int) * p = dp at *
      simp only [abs_eq_max_neg]
      constructor
      · omega
      · intro h
        rcases hd2 with h0 | h0
        · subst h0; left; simp at *; omega
        · omega
    · rw [e3]
      generalize (d : Int) * p = dp at *
      simp only [abs_eq_max_neg]
      constructor <;> omega
  · obtain ⟨d, rfl⟩ : ∃ d, q = k + d := ⟨q - k, by omega⟩
    have hd : 0 ≤ (d : Int) * p := by exact_mod_cast Nat.zero_le _
    have hd2 : (d : Int) * p = 0 ∨ (p : Int) ≤ d * p := by
      rcases Nat.eq_zero_or_pos d with h | h
      · left; rw [h]; simp
      · right; exact_mod_cast Nat.le_mul_of_pos_left p h
    have hn' : (n : Int) = p * (k + d) + r := by exact_mod_cast hn.symm
    have e1 : ((k : Int) * (p : Int)) - n = - r - d * p := by rw [hn']; ring
    have e2 : ((((k + d + 1) * p : Nat)) : Int) - n = p - r := by rw [hn']; push_cast; ring
    have e3 : ((((k + d) * p : Nat)) : Int) - n = - r := by rw [hn']; push_cast; ring
    have e4 : ((((k + d) * p : Nat)) : Int) = k * p + d * p := by push_cast; ring
    rw [e1]
    split
    · rw [e2]
      generalize (d : Int) * p = dp at *
      simp only [abs_eq_max_neg]
      constructor <;> omega
    · rw [e3, e4]
      generalize (d : Int) * p = dp at *
      simp only [abs_eq_max_neg]
      constructor
      · omega
      · intro h; left; omega

theorem units_cast {a : Nat} : ((a * 2 ^ 1074 : Nat) : ℚ) / 2 ^ 1074 = a := by
  rw [Nat.cast_mul, Nat.cast_pow, show ((2:ℕ):ℚ) = 2 from rfl]
  exact mul_div_cancel_right₀ _ (pow_ne_zero _ (by norm_num))

set_option exponentiation.threshold 2000 in
/-- No float is nearer to a magnitude than the rounded one. -/
theorem magnitude_nearest (n : Nat) (g : F64) :
    |(rounded n : ℚ) - n| ≤ |(g.units : ℚ) / 2 ^ 1074 - n| ∧
    (|(rounded n : ℚ) - n| = |(g.units : ℚ) / 2 ^ 1074 - n| → (g.units : ℚ) / 2 ^ 1074 = rounded n ∨ (52 < n.log2 ∧ n % 2 ^ (n.log2 - 52) = 2 ^ (n.log2 - 53))) := by
  by_cases hl : n.log2 ≤ 52
  · have : rounded n = n := by unfold rounded; rw [if_pos hl]
    rw [this, sub_self, abs_zero]
    refine ⟨abs_nonneg _, fun h => .inl ?_⟩
    have := abs_eq_zero.mp h.symm
    linarith
  · have hl' : 52 < n.log2 := by omega
    have h0 : n ≠ 0 := by rintro rfl; simp at hl'
    have hz : (2:ℚ)^(n.log2 - 52) = ((2 ^ (n.log2 - 52) : ℕ) : ℚ) := by push_cast; rfl
    by_cases hg : 2 ^ (n.log2 + 1074) ≤ g.units
    · obtain ⟨k, hk⟩ := units_multiple hg
      have hx : (g.units : ℚ) / 2 ^ 1074 = k * 2 ^ (n.log2 - 52) := by
        rw [hk, show k * 2 ^ (n.log2 + 1022) = k * 2 ^ (n.log2 - 52) * 2 ^ 1074 by
          rw [Nat.mul_assoc, ← Nat.pow_add]; exact congrArg (_ * ·) (pow_congr (by omega)), units_cast]
        push_cast; rfl
      obtain ⟨a, b⟩ := rounded_nearest hl' k
      rw [hx]
      refine ⟨by exact_mod_cast a, fun h => ?_⟩
      have h' : |((rounded n : Int)) - n| = |(k * 2 ^ (n.log2 - 52) : Int) - n| := by exact_mod_cast h
      rcases b h' with e | e
      · left; rw [eq_comm]; exact_mod_cast e
      · exact .inr ⟨hl', e⟩
    · have hlt : (g.units : ℚ) / 2 ^ 1074 < 2 ^ n.log2 := by
        rw [div_lt_iff₀ (by positivity), ← pow_add]
        have : g.units < 2 ^ (n.log2 + 1074) := by omega
        exact_mod_cast this
      have hge : (2:ℚ) ^ n.log2 ≤ n := by exact_mod_cast Nat.log2_self_le h0
      obtain ⟨a, -⟩ := rounded_nearest hl' (2 ^ 52)
      have hpow : ((2 ^ 52 : ℕ) : Int) * 2 ^ (n.log2 - 52) = 2 ^ n.log2 := by
        have : 2 ^ 52 * 2 ^ (n.log2 - 52) = 2 ^ n.log2 := by rw [← Nat.pow_add]; exact pow_congr (by omega)
        exact_mod_cast this
      rw [hpow] at a
      have a' : |(rounded n : ℚ) - n| ≤ |(2:ℚ) ^ n.log2 - n| := by exact_mod_cast a
      have b : |(2:ℚ) ^ n.log2 - n| < |(g.units : ℚ) / 2 ^ 1074 - n| := by
        rw [abs_of_nonpos (by linarith), abs_of_nonpos (by linarith)]; linarith
      exact ⟨by linarith, fun h => by linarith⟩

set_option exponentiation.threshold 2000 in
theorem ofI64_nearest {i : Int} (h : i.natAbs ≤ 2 ^ 63) : NearestEven i (F64.ofI64 i) ∧ (i.natAbs ≤ 2 ^ 53 → f64Value (F64.ofI64 i) = some (i : ℚ)) := by
  obtain ⟨h1, h2, h3, h4⟩ := ofI64_units h
  have hv := f64Value_units h1
  rw [h3, units_cast] at hv
  -- the sign of the result is the sign of the integer
  have hi : (i : ℚ) = (if (F64.ofI64 i).sign then -1 else 1) * (i.natAbs : ℚ) := by
    by_cases h0 : i.natAbs = 0
    · have : i = 0 := by omega
      subst this; simp
    · rw [h2 h0]
      by_cases hneg : i < 0
      · have : i = -(i.natAbs : Int) := by omega
        rw [decide_eq_true hneg, if_pos rfl, neg_one_mul]
        rw [← Int.cast_natCast, ← Int.cast_neg, ← this]
      · have : i = (i.natAbs : Int) := by omega
        rw [decide_eq_false hneg, if_neg (by simp), one_mul]
        rw [← Int.cast_natCast, ← this]
  generalize hs : (if (F64.ofI64 i).sign = true then (-1:ℚ) else 1) = s at *
  have hss : s = -1 ∨ s = 1 := by rw [← hs]; split <;> simp
  have habs : ∀ x y : ℚ, |s * x - s * y| = |x - y| := by
    intro x y
    rw [← mul_sub, abs_mul]
    rcases hss with rfl | rfl <;> simp
  constructor
  · refine ⟨_, hv, ?_⟩
    intro g p hp
    obtain ⟨-, -, hp⟩ := f64Value_finite hp
    obtain ⟨a, b⟩ := magnitude_nearest i.natAbs g
    have hx : (0:ℚ) ≤ (g.units : ℚ) / 2 ^ 1074 := div_nonneg (Nat.cast_nonneg _) (pow_nonneg (by norm_num) _)
    generalize (g.units : ℚ) / 2 ^ 1074 = x at *
    have hn0 : (0:ℚ) ≤ (i.natAbs : ℚ) := Nat.cast_nonneg _
    have hr0 : (0:ℚ) ≤ (rounded i.natAbs : ℚ) := Nat.cast_nonneg _
    have hfar : |x - i.natAbs| ≤ |x + i.natAbs| := by rw [abs_of_nonneg (by linarith : 0 ≤ x + (i.natAbs:ℚ)), abs_le]; constructor <;> linarith
    have hpc : p = s * x ∨ p = - (s * x) := by
      rw [hp]; rcases hss with rfl | rfl <;> split <;> simp
    rw [hi, habs]
    rcases hpc with rfl | rfl
    · rw [habs]
      refine ⟨a, fun e => ?_⟩
      rcases b e with e | ⟨e1, e2⟩
      · left; rw [e]
      · right; exact h4 e1 e2
    · have hopp : |-(s * x) - s * (i.natAbs:ℚ)| = |x + i.natAbs| := by
        rw [show -(s * x) - s * (i.natAbs:ℚ) = -s * (x + i.natAbs) by ring, abs_mul]
        rcases hss with rfl | rfl <;> simp
      rw [hopp]
      refine ⟨le_trans a hfar, fun e => ?_⟩
      have e' : |(rounded i.natAbs : ℚ) - i.natAbs| = |x - i.natAbs| := le_antisymm a (by rw [e]; exact hfar)
      rcases b e' with e1 | ⟨e1, e2⟩
      · rw [← e1] at e
        rw [abs_of_nonneg (by linarith : 0 ≤ x + (i.natAbs:ℚ))] at e
        have : x = 0 ∨ (i.natAbs : ℚ) = 0 := by
          rcases abs_cases (x - (i.natAbs : ℚ)) with ⟨h, _⟩ | ⟨h, _⟩
          · right; linarith
          · left; linarith
        rcases this with h | h
        · left; rw [← e1, h]; simp
        · have : i.natAbs = 0 := by exact_mod_cast h
          have hr : rounded i.natAbs = 0 := by rw [this]; decide
          left; rw [e1, hr]; simp
      · right; exact h4 e1 e2
  · intro hle
    rw [hv, hi]
    congr 2
    norm_cast
    unfold rounded
    split
    · rfl
    · rename_i hl
      -- the only magnitude left is 2 ^ 53
      have h0 : i.natAbs ≠ 0 := by intro e; rw [e] at hl; simp at hl
      have l1 := Nat.log2_self_le h0
      have : 2 ^ 53 ≤ 2 ^ i.natAbs.log2 := Nat.pow_le_pow_right (by omega) (by omega)
      have : i.natAbs = 2 ^ 53 := by omega
      rw [this]; decide +kernel

set_option exponentiation.threshold 2000 in
/-- Widening keeps the number. -/
theorem ofF32_value (x : F32) : f64Value (F64.ofF32 x) = f32Value x ∧ (F64.ofF32 x).sign = x.sign ∧
    ((F64.ofF32 x).nan = true ↔ x.exp = 255#8 ∧ x.man ≠ 0#23) := by
  have hm := x.man.isLt
  have he := x.exp.isLt
  have z : (2:ℚ) ≠ 0 := by norm_num
  have hm0 : x.man ≠ 0#23 ↔ x.man.toNat ≠ 0 := by
    constructor
    · intro h e; exact h (BitVec.eq_of_toNat_eq e)
    · intro h e; exact h (by rw [e]; rfl)
  have hm2 : (BitVec.ofNat 52 (x.man.toNat * 2 ^ 29)).toNat = x.man.toNat * 2 ^ 29 := by rw [BitVec.toNat_ofNat, Nat.mod_eq_of_lt (by omega)]
  unfold F64.ofF32 f32Value
  by_cases h1 : x.exp.toNat = 255
  · have : x.exp = 255#8 := BitVec.eq_of_toNat_eq h1
    rw [if_pos h1, if_pos this]
    refine ⟨by unfold f64Value; exact if_pos rfl, rfl, ?_⟩
    unfold F64.nan
    rw [hm2, hm0]
    simp
    intro _; omega
  have h1' : ¬ x.exp = 255#8 := fun e => h1 (by rw [e]; rfl)
  rw [if_neg h1, if_neg h1']
  by_cases h0 : x.exp.toNat ≠ 0
  · have h0' : ¬ x.exp = 0#8 := fun e => h0 (by rw [e]; rfl)
    have e1 : (BitVec.ofNat 11 (x.exp.toNat + 896)).toNat = x.exp.toNat + 896 := by rw [BitVec.toNat_ofNat, Nat.mod_eq_of_lt (by omega)]
    rw [if_pos h0, if_neg h0']
    refine ⟨?_, rfl, ?_⟩
    · unfold f64Value
      dsimp only
      have n1 : ¬ BitVec.ofNat 11 (x.exp.toNat + 896) = 2047#11 := by
        intro e; have := congrArg BitVec.toNat e; rw [e1] at this; simp at this; omega
      have n2 : ¬ BitVec.ofNat 11 (x.exp.toNat + 896) = 0#11 := by
        intro e; have := congrArg BitVec.toNat e; rw [e1] at this; simp at this
      rw [if_neg n1, if_neg n2, e1, hm2]
      refine congrArg some ?_
      rw [show (((x.exp.toNat + 896 : ℕ)) : ℤ) - 1023 = (x.exp.toNat : ℤ) - 127 by push_cast; ring]
      rw [Nat.cast_mul, show ((x.man.toNat : ℚ) * ((2 ^ 29 : ℕ) : ℚ)) / 2 ^ 52 = x.man.toNat / 2 ^ 23 by push_cast; ring]
    · unfold F64.nan
      rw [e1]
      simp [h1']
      omega
  · have h0' : x.exp = 0#8 := BitVec.eq_of_toNat_eq (by simpa using h0)
    rw [if_neg h0, if_pos h0']
    by_cases hz : x.man.toNat = 0
    · rw [if_pos hz]
      refine ⟨?_, rfl, ?_⟩
      · unfold f64Value
        rw [if_neg (by simp), if_pos (by rfl), hz]
        simp
      · simp [F64.nan, h1']
    · rw [if_neg hz]
      have l1 := Nat.log2_self_le hz
      have l2 := Nat.lt_log2_self (n := x.man.toNat)
      have l3 : x.man.toNat.log2 ≤ 22 := by
        by_contra hc
        have : 2 ^ 23 ≤ 2 ^ x.man.toNat.log2 := Nat.pow_le_pow_right (by omega) (by omega)
        omega
      dsimp only
      generalize x.man.toNat.log2 = l at *
      generalize x.man.toNat = m at *
      have e1 : (BitVec.ofNat 11 (l + 874)).toNat = l + 874 := by rw [BitVec.toNat_ofNat, Nat.mod_eq_of_lt (by omega)]
      have hp : 2 ^ 52 = 2 ^ l * 2 ^ (52 - l) := by rw [← Nat.pow_add]; exact pow_congr (by omega)
      have g1 : 2 ^ 52 ≤ m * 2 ^ (52 - l) := by rw [hp]; exact Nat.mul_le_mul_right _ l1
      have g2 : m * 2 ^ (52 - l) < 2 ^ 53 := by
        rw [show 2 ^ 53 = 2 ^ (l + 1) * 2 ^ (52 - l) by rw [← Nat.pow_add]; exact pow_congr (by omega)]
        exact Nat.mul_lt_mul_of_pos_right l2 (Nat.two_pow_pos _)
      have e2 : (BitVec.ofNat 52 (m * 2 ^ (52 - l))).toNat = m * 2 ^ (52 - l) - 2 ^ 52 := by rw [BitVec.toNat_ofNat]; omega
      refine ⟨?_, rfl, ?_⟩
      · unfold f64Value
        dsimp only
        have n1 : ¬ BitVec.ofNat 11 (l + 874) = 2047#11 := by
          intro e; have := congrArg BitVec.toNat e; rw [e1] at this; simp at this; omega
        have n2 : ¬ BitVec.ofNat 11 (l + 874) = 0#11 := by
          intro e; have := congrArg BitVec.toNat e; rw [e1] at this; simp at this
        rw [if_neg n1, if_neg n2, e1, e2]
        refine congrArg some ?_
        rw [Nat.cast_sub g1, mul_assoc, mul_assoc]
        refine congrArg (fun w : ℚ => (if x.sign = true then (-1:ℚ) else 1) * w) ?_
        rw [show (((l + 874 : ℕ)) : ℤ) - 1023 = (l : ℤ) - ((149 : ℕ) : ℤ) by push_cast; ring, zpow_sub₀ z, zpow_natCast, zpow_natCast,
          zpow_neg, show (126:ℤ) = ((126:ℕ):ℤ) by rfl, zpow_natCast]
        have hp' : (2:ℚ) ^ 52 = 2 ^ l * 2 ^ (52 - l) := by exact_mod_cast hp
        have h149 : (2:ℚ) ^ 149 = 2 ^ 23 * 2 ^ 126 := by rw [← pow_add]
        rw [h149]
        push_cast
        rw [show (4503599627370496 : ℚ) = 2 ^ 52 by norm_num, hp']
        have : (2:ℚ) ^ l ≠ 0 := pow_ne_zero _ z
        have : (2:ℚ) ^ (52 - l) ≠ 0 := pow_ne_zero _ z
        field_simp
        ring
      · unfold F64.nan
        rw [e1]
        simp [h1']
        omega

end Cesride.Native
