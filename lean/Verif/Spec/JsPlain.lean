import Verif.Model.Base

/-! # Specification of JavaScript texts and numbers, independent of the code model -/

namespace Cesride.Spec

/-- The code units (UTF-16) of a character. -/
def utf16 (c : Char) : List UInt16 :=
  if c.toNat < 0x10000 then [UInt16.ofNat c.toNat]
  else [UInt16.ofNat (0xD800 + (c.toNat - 0x10000) / 1024), UInt16.ofNat (0xDC00 + (c.toNat - 0x10000) % 1024)]

/-- The JavaScript text with these characters. -/
def jsText (cs : List Char) : List UInt16 := cs.flatMap utf16

/-- The Rust text with these characters. -/
def rustText (cs : List Char) : Str := cs.flatMap String.utf8EncodeChar

/-- The code unit at a position is half of a pair, without the other half beside it. -/
def Lone (u : List UInt16) (i : Nat) : Prop :=
  ∃ a, u[i]? = some a ∧
    ((0xD800 ≤ a.toNat ∧ a.toNat < 0xDC00 ∧ ¬ ∃ b, u[i + 1]? = some b ∧ 0xDC00 ≤ b.toNat ∧ b.toNat < 0xE000) ∨
     (0xDC00 ≤ a.toNat ∧ a.toNat < 0xE000 ∧ ¬ ∃ b, 0 < i ∧ u[i - 1]? = some b ∧ 0xD800 ≤ b.toNat ∧ b.toNat < 0xDC00))

/-- The integer part of a number, towards zero. -/
def IntegerPart (q : Rat) (z : Int) : Prop := (0 ≤ q → (z : Rat) ≤ q ∧ q < (z + 1 : Int)) ∧ (q < 0 → q ≤ z ∧ ((z - 1 : Int) : Rat) < q)

end Cesride.Spec
