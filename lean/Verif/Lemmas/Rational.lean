import Mathlib.Data.Rat.Lemmas
import Mathlib.Algebra.Order.Ring.Unbundled.Rat
import Mathlib.Tactic.FieldSimp
import Mathlib.Tactic.Ring
import Mathlib.Tactic.Positivity
import Mathlib.Tactic.Linarith
import Verif.Model.Tholder

/-! # 32-bit rationals compute exactly until an overflow -/

namespace Cesride

theorem i32_fits {oc : Bool} {x : Int} (h1 : -2 ^ 31 ≤ x) (h2 : x < 2 ^ 31) : i32 oc x = .ok x := by
  simp only [i32]; rw [if_pos ⟨h1, h2⟩]

theorem i32_overflow {x : Int} (h : 2 ^ 31 ≤ x) : i32 true x = .panic := by
  simp only [i32]; rw [if_neg (by omega)]; rfl

theorem natCast_tdiv (a b : Nat) : ((a / b : Nat) : Int) = (a : Int).tdiv b := by
  rw [Int.tdiv_eq_ediv_of_nonneg (by omega)]; simp

namespace R32

/-- The reduced representation of a rational number. -/
def rep (q : Rat) : R32 := ⟨q.num, q.den⟩

/-- Numerator and denominator fit `i32`, the number is not negative. -/
def Small (q : Rat) : Prop := 0 ≤ q ∧ q.num < 2 ^ 31 ∧ (q.den : Int) < 2 ^ 31

theorem rep_inj {p q : Rat} (h : rep p = rep q) : p = q := by
  simp only [rep, R32.mk.injEq, Int.natCast_inj] at h
  exact Rat.ext h.1 h.2

/-- `Ratio::new` of a proper denominator and a non-negative numerator. -/
theorem new_rep (oc : Bool) {n d : Nat} (hn : n < 2 ^ 31) (hd : d < 2 ^ 31) (hd0 : d ≠ 0) :
    new oc n d = .ok (rep (mkRat n d)) := by
  have hnum : (mkRat (n : Int) d).num = n / (d.gcd n : Nat) := by rw [Rat.num_mkRat, if_neg hd0]; simp
  have hden : (mkRat (n : Int) d).den = d / d.gcd n := by rw [Rat.den_mkRat, if_neg hd0]; simp
  unfold new
  rw [if_neg (by omega)]
  by_cases h0 : n = 0
  · subst h0
    rw [if_pos (by simp)]
    simp [rep]
  rw [if_neg (by omega)]
  by_cases he : n = d
  · subst he
    rw [if_pos rfl]
    simp only [rep, hnum, hden, Nat.gcd_self]
    rw [Int.ediv_self (by omega), Nat.div_self (by omega)]
    rfl
  rw [if_neg (by omega)]
  have hg : 0 < Nat.gcd n d := Nat.gcd_pos_of_pos_left d (by omega)
  have hgl : Nat.gcd n d ≤ n := Nat.gcd_le_left d (by omega)
  have hgcd : gcd32 oc n d = .ok ((Nat.gcd n d : Nat) : Int) := by
    unfold gcd32
    rw [show ((Int.gcd (n : Int) (d : Int) : Nat) : Int) = ((Nat.gcd n d : Nat) : Int) by simp [Int.gcd]]
    exact i32_fits (by omega) (by omega)
  rw [hgcd]
  simp only [Res.ok_bind]
  rw [← natCast_tdiv, ← natCast_tdiv, if_neg (Int.not_lt.mpr (Int.natCast_nonneg _))]
  simp only [rep, hnum, hden, Nat.gcd_comm d n]
  rfl

/-- Least common multiple of the denominators. -/
def lcd (a b : Rat) : Nat := Nat.lcm a.den b.den

/-- Numerator of the sum over the least common denominator. -/
def sumNum (a b : Rat) : Nat := a.num.toNat * (lcd a b / a.den) + b.num.toNat * (lcd a b / b.den)

theorem num_nonneg {a : Rat} (h : 0 ≤ a) : 0 ≤ a.num := Rat.num_nonneg.mpr h

theorem sumNum_eq {a b : Rat} (ha : 0 ≤ a) (hb : 0 ≤ b) : mkRat (sumNum a b) (lcd a b) = a + b := by
  have h1 : (a.den : Rat) ≠ 0 := by exact_mod_cast a.den_nz
  have h2 : (b.den : Rat) ≠ 0 := by exact_mod_cast b.den_nz
  obtain ⟨x, hx⟩ : a.den ∣ lcd a b := Nat.dvd_lcm_left _ _
  obtain ⟨y, hy⟩ : b.den ∣ lcd a b := Nat.dvd_lcm_right _ _
  have hl : 0 < lcd a b := Nat.lcm_pos a.den_pos b.den_pos
  have hl' : (lcd a b : Rat) ≠ 0 := by exact_mod_cast (by omega : lcd a b ≠ 0)
  have hdx : lcd a b / a.den = x := by rw [hx]; exact Nat.mul_div_cancel_left x a.den_pos
  have hdy : lcd a b / b.den = y := by rw [hy]; exact Nat.mul_div_cancel_left y b.den_pos
  rw [Rat.mkRat_eq_div]
  have hcast : ((sumNum a b : Nat) : Rat) = (a.num : Rat) * x + (b.num : Rat) * y := by
    unfold sumNum
    rw [hdx, hdy]
    push_cast
    have e1 : ((a.num.toNat : Nat) : Rat) = (a.num : Rat) := by
      have : ((a.num.toNat : Nat) : Int) = a.num := Int.toNat_of_nonneg (num_nonneg ha)
      exact_mod_cast this
    have e2 : ((b.num.toNat : Nat) : Rat) = (b.num : Rat) := by
      have : ((b.num.toNat : Nat) : Int) = b.num := Int.toNat_of_nonneg (num_nonneg hb)
      exact_mod_cast this
    rw [e1, e2]
  have hx' : (lcd a b : Rat) = a.den * x := by exact_mod_cast hx
  have hy' : (lcd a b : Rat) = b.den * y := by exact_mod_cast hy
  rw [show (((sumNum a b : Nat) : Int) : Rat) = ((sumNum a b : Nat) : Rat) by push_cast; rfl, hcast, div_eq_iff hl', add_mul]
  congr 1
  · rw [hx', ← mul_assoc, Rat.mul_den_eq_num]
  · rw [hy', ← mul_assoc, Rat.mul_den_eq_num]

theorem lcm32_eq {a b : Nat} (ha : 0 < a) (hb : 0 < b) (hb' : b < 2 ^ 31) :
    (Nat.lcm a b < 2 ^ 31 → ∀ oc, lcm32 oc a b = .ok (Nat.lcm a b : Nat)) ∧ (2 ^ 31 ≤ Nat.lcm a b → lcm32 true a b = .panic) := by
  have hg : 0 < Nat.gcd a b := Nat.gcd_pos_of_pos_left b ha
  have hgl : Nat.gcd a b ≤ b := Nat.gcd_le_right a hb
  have hgcd : ∀ oc, gcd32 oc a b = .ok ((Nat.gcd a b : Nat) : Int) := by
    intro oc
    unfold gcd32
    rw [show ((Int.gcd (a : Int) (b : Int) : Nat) : Int) = ((Nat.gcd a b : Nat) : Int) by simp [Int.gcd]]
    exact i32_fits (by omega) (by omega)
  have hp : ((a : Int) * (b : Int).tdiv (Nat.gcd a b : Nat)) = (Nat.lcm a b : Nat) := by
    rw [← natCast_tdiv, ← Int.natCast_mul, Nat.lcm, Nat.mul_div_assoc a (Nat.gcd_dvd_right a b)]
  constructor
  · intro h oc
    unfold lcm32
    rw [if_neg (by omega), hgcd, Res.ok_bind, hp, i32_fits (by omega) (by omega), Res.ok_bind, Int.natAbs_natCast,
      i32_fits (by omega) (by omega)]
  · intro h
    unfold lcm32
    rw [if_neg (by omega), hgcd, Res.ok_bind, hp, i32_overflow (by omega)]
    rfl

/-- Addition is exact when the common denominator and the sum's numerator over it fit, and panics under overflow checks
when they do not. -/
theorem add_rep {a b : Rat} (ha : Small a) (hb : Small b) :
    (lcd a b < 2 ^ 31 ∧ sumNum a b < 2 ^ 31 → ∀ oc, add oc (rep a) (rep b) = .ok (rep (a + b))) ∧
    (¬ (lcd a b < 2 ^ 31 ∧ sumNum a b < 2 ^ 31) → add true (rep a) (rep b) = .panic) := by
  obtain ⟨ha0, ha1, ha2⟩ := ha
  obtain ⟨hb0, hb1, hb2⟩ := hb
  obtain ⟨n, hn⟩ : ∃ n : Nat, a.num = n := ⟨a.num.toNat, (Int.toNat_of_nonneg (num_nonneg ha0)).symm⟩
  obtain ⟨m, hm⟩ : ∃ m : Nat, b.num = m := ⟨b.num.toNat, (Int.toNat_of_nonneg (num_nonneg hb0)).symm⟩
  have hsum := sumNum_eq ha0 hb0
  have hl : 0 < lcd a b := Nat.lcm_pos a.den_pos b.den_pos
  have hS : sumNum a b = n * (lcd a b / a.den) + m * (lcd a b / b.den) := by simp [sumNum, hn, hm]
  by_cases he : a.den = b.den
  · have hL : lcd a b = a.den := by simp [lcd, ← he]
    have hS' : sumNum a b = n + m := by
      rw [hS, hL, ← he, Nat.div_self a.den_pos]; omega
    have hadd : ∀ oc, add oc (rep a) (rep b) = (do let k ← i32 oc ((n + m : Nat) : Int); new oc k a.den) := by
      intro oc
      simp only [add, rep, he, hn, hm, if_pos, Int.natCast_add]
    constructor
    · rintro ⟨_, h2⟩ oc
      rw [hadd, i32_fits (by omega) (by omega), Res.ok_bind, new_rep oc (by omega) (by omega) a.den_nz, ← hsum, hL, hS']
    · intro h
      have : 2 ^ 31 ≤ n + m := by
        rw [hL, hS'] at h; omega
      rw [hadd, i32_overflow (by omega)]
      rfl
  · have hne : ¬ ((a.den : Int) = (b.den : Int)) := by omega
    have hlc := lcm32_eq a.den_pos b.den_pos (by omega : b.den < 2 ^ 31)
    have hadd : ∀ oc, add oc (rep a) (rep b) = (do
        let l ← lcm32 oc a.den b.den
        let x ← i32 oc ((n : Int) * l.tdiv a.den)
        let y ← i32 oc ((m : Int) * l.tdiv b.den)
        let k ← i32 oc (x + y)
        new oc k l) := by
      intro oc
      simp only [add, rep, hn, hm, if_neg hne]
    by_cases hL : lcd a b < 2 ^ 31
    · have hx : ((n : Int) * (lcd a b : Int).tdiv a.den) = ((n * (lcd a b / a.den) : Nat) : Int) := by
        rw [← natCast_tdiv, ← Int.natCast_mul]
      have hy : ((m : Int) * (lcd a b : Int).tdiv b.den) = ((m * (lcd a b / b.den) : Nat) : Int) := by
        rw [← natCast_tdiv, ← Int.natCast_mul]
      have h3 : ∀ oc, add oc (rep a) (rep b) = (do
        let x ← i32 oc ((n * (lcd a b / a.den) : Nat) : Int)
        let y ← i32 oc ((m * (lcd a b / b.den) : Nat) : Int)
        let k ← i32 oc (x + y)
        new oc k (lcd a b : Nat)) := by
        intro oc
        rw [hadd, hlc.1 hL oc, Res.ok_bind]
        simp only [lcd] at hx hy ⊢
        rw [hx, hy]
      constructor
      · rintro ⟨_, h2⟩ oc
        rw [hS] at h2
        rw [h3, i32_fits (by omega) (by omega), Res.ok_bind, i32_fits (by omega) (by omega), Res.ok_bind, ← Int.natCast_add,
          i32_fits (by omega) (by omega), Res.ok_bind, new_rep oc (by omega) (by omega) (by omega), ← hS, hsum]
      · intro h
        have h2 : 2 ^ 31 ≤ sumNum a b := by omega
        rw [hS] at h2
        rw [h3]
        by_cases hx1 : n * (lcd a b / a.den) < 2 ^ 31
        · rw [i32_fits (by omega) (by omega), Res.ok_bind]
          by_cases hy1 : m * (lcd a b / b.den) < 2 ^ 31
          · rw [i32_fits (by omega) (by omega), Res.ok_bind, ← Int.natCast_add, i32_overflow (by omega)]
            rfl
          · rw [i32_overflow (by omega)]
            rfl
        · rw [i32_overflow (by omega)]
          rfl
    · refine ⟨fun h => absurd h.1 hL, fun _ => ?_⟩
      rw [hadd, hlc.2 (by have : lcd a b = Nat.lcm a.den b.den := rfl; omega)]
      rfl

theorem add_small {a b : Rat} (ha : Small a) (hb : Small b) (h : lcd a b < 2 ^ 31 ∧ sumNum a b < 2 ^ 31) : Small (a + b) := by
  have hsum := sumNum_eq ha.1 hb.1
  have hl : 0 < lcd a b := Nat.lcm_pos a.den_pos b.den_pos
  have hnum : (mkRat (sumNum a b : Int) (lcd a b)).num = sumNum a b / ((lcd a b).gcd (sumNum a b) : Nat) := by rw [Rat.num_mkRat, if_neg (by omega)]; simp
  have hden : (mkRat (sumNum a b : Int) (lcd a b)).den = lcd a b / (lcd a b).gcd (sumNum a b) := by rw [Rat.den_mkRat, if_neg (by omega)]; simp
  rw [hsum] at hnum hden
  refine ⟨add_nonneg ha.1 hb.1, ?_, ?_⟩
  · rw [hnum, ← Int.natCast_ediv]
    have := Nat.div_le_self (sumNum a b) ((lcd a b).gcd (sumNum a b))
    omega
  · rw [hden]
    have := Nat.div_le_self (lcd a b) ((lcd a b).gcd (sumNum a b))
    omega

/-- The comparison with one is exact. -/
theorem ltOne_rep (q : Rat) : (rep q).ltOne = true ↔ q < 1 := by
  have h : q < 1 ↔ q.num < q.den := by
    have := Rat.lt_iff q 1
    simpa using this
  rw [h]
  have hp := q.den_pos
  show (if (q.den : Int) = 1 then decide (q.num < 1) else if q.num = 1 then decide (1 < (q.den : Int)) else decide (q.num.fdiv q.den < 1)) = true ↔ _
  by_cases h1 : (q.den : Int) = 1
  · rw [if_pos h1, h1]; simp
  rw [if_neg h1]
  by_cases h2 : q.num = 1
  · rw [if_pos h2, h2]; simp
  rw [if_neg h2, decide_eq_true_eq, Int.fdiv_eq_ediv_of_nonneg _ (by omega), Int.ediv_lt_iff_lt_mul (by omega)]
  omega

end R32
end Cesride
