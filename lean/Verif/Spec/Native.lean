import Verif.Model.Native
import Mathlib.Algebra.Order.Ring.Unbundled.Rat
import Mathlib.Data.Rat.Lemmas

/-! # Specification of floats: the real number that a bit pattern stands for (IEEE 754), and rounding -/

namespace Cesride.Spec
open Native

/-- IEEE 754 binary64: `(-1)^sign · 1.man · 2^(exp - 1023)`, subnormal `(-1)^sign · 0.man · 2^(-1022)`; none for infinities and NaN. -/
def f64Value (f : F64) : Option ℚ :=
  if f.exp = 2047#11 then none
  else if f.exp = 0#11 then some ((if f.sign then -1 else 1) * (f.man.toNat / 2 ^ 52) * (2 : ℚ) ^ (-1022 : ℤ))
  else some ((if f.sign then -1 else 1) * (1 + f.man.toNat / 2 ^ 52) * (2 : ℚ) ^ ((f.exp.toNat : ℤ) - 1023))

/-- IEEE 754 binary32: `(-1)^sign · 1.man · 2^(exp - 127)`, subnormal `(-1)^sign · 0.man · 2^(-126)`; none for infinities and NaN. -/
def f32Value (x : F32) : Option ℚ :=
  if x.exp = 255#8 then none
  else if x.exp = 0#8 then some ((if x.sign then -1 else 1) * (x.man.toNat / 2 ^ 23) * (2 : ℚ) ^ (-126 : ℤ))
  else some ((if x.sign then -1 else 1) * (1 + x.man.toNat / 2 ^ 23) * (2 : ℚ) ^ ((x.exp.toNat : ℤ) - 127))

/-- `r` is `q` without its fraction. -/
def Truncates (q : ℚ) (r : Int) : Prop := |(r : ℚ)| ≤ |q| ∧ |q - r| < 1

/-- `r` is the float nearest to the integer `i`; of two nearest ones it is the one with the even fraction. -/
def NearestEven (i : Int) (r : F64) : Prop :=
  ∃ q, f64Value r = some q ∧ ∀ g p, f64Value g = some p → |q - i| ≤ |p - i| ∧ (|q - i| = |p - i| → p = q ∨ r.man.toNat % 2 = 0)

end Cesride.Spec
