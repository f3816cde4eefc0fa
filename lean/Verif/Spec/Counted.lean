import Verif.Spec.Cesr

/-! # Specification of counter codes and semantic versions, independent of the code model -/

namespace Cesride.Spec

/-- The counter codes with the number of Base64 digits of their count. -/
def counterCodes : List (Str × Nat) := [
  (lit "-A", 2), (lit "-B", 2), (lit "-C", 2), (lit "-D", 2), (lit "-E", 2), (lit "-F", 2), (lit "-G", 2),
  (lit "-H", 2), (lit "-I", 2), (lit "-J", 2), (lit "-K", 2), (lit "-L", 2), (lit "-V", 2),
  (lit "-0V", 5), (lit "--AAA", 3)]

/-- Decimal digits of an ASCII numeral. -/
def IsDigits (s : Str) : Prop := ∀ c ∈ s, ch '0' ≤ c ∧ c ≤ ch '9'

/-- The number written by an ASCII decimal numeral. -/
def decNum (s : Str) : Nat := s.foldl (fun a c => a * 10 + (c.toNat - 48)) 0

/-- A component of a version text stands for the number `n`: an empty component for 0, a decimal numeral for its
value; a numeral may carry a plus sign, or a minus sign when it is zero. -/
def IsComponent (s : Str) (n : Nat) : Prop :=
  (s = [] ∧ n = 0) ∨
  ∃ sign digits, s = sign ++ digits ∧ digits ≠ [] ∧ IsDigits digits ∧ decNum digits = n ∧
    (sign = [] ∨ sign = lit "+" ∨ (sign = lit "-" ∧ n = 0))

/-- Pieces joined with a separator character. -/
def joinWith (c : UInt8) : List Str → Str
  | [] => []
  | [s] => s
  | s :: rest => s ++ c :: joinWith c rest

/-- Component lists and numbers of the same length, related position by position. -/
def Components : List Str → List Nat → Prop
  | [], [] => True
  | s :: ss, n :: ns => IsComponent s n ∧ Components ss ns
  | _, _ => False

end Cesride.Spec
