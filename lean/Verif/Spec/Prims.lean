import Verif.Spec.Cesr

/-! # Specification of numbers, hexadecimal numerals and date-times, independent of the code model -/

namespace Cesride.Spec

/-- The number codes with the number of bytes they carry. -/
def numberCodes : List (Str × Nat) := [(lit "M", 2), (lit "0H", 4), (lit "N", 8), (lit "0A", 16)]

/-- Lower-case hexadecimal digits in order. -/
def lowerHex : Str := lit "0123456789abcdef"

/-- `s` is the usual lower-case hexadecimal numeral of `n`: no sign, no leading zero (except "0" itself). -/
def CanonicalHex (s : Str) (n : Nat) : Prop :=
  s ≠ [] ∧ (∀ c ∈ s, c ∈ lowerHex) ∧ s.foldl (fun a c => a * 16 + lowerHex.idxOf c) 0 = n ∧
  (s.head? = some (ch '0') → s = lit "0")

/-- Hexadecimal digits of either case, with their values. -/
def hexValues : List (UInt8 × Nat) :=
  [(ch '0', 0), (ch '1', 1), (ch '2', 2), (ch '3', 3), (ch '4', 4), (ch '5', 5), (ch '6', 6), (ch '7', 7), (ch '8', 8),
   (ch '9', 9), (ch 'a', 10), (ch 'b', 11), (ch 'c', 12), (ch 'd', 13), (ch 'e', 14), (ch 'f', 15),
   (ch 'A', 10), (ch 'B', 11), (ch 'C', 12), (ch 'D', 13), (ch 'E', 14), (ch 'F', 15)]

/-- `s` is a non-empty string of hexadecimal digits with values `ds`. -/
def HexDigits : Str → List Nat → Prop
  | [], [] => True
  | c :: s, d :: ds => (c, d) ∈ hexValues ∧ HexDigits s ds
  | _, _ => False

/-- `s` is a hexadecimal numeral of `n`: an optional plus sign and at least one digit, in either case, leading zeros
allowed. -/
def HexNumeral (s : Str) (n : Nat) : Prop :=
  ∃ sign digits ds, s = sign ++ digits ∧ (sign = [] ∨ sign = lit "+") ∧ digits ≠ [] ∧ HexDigits digits ds ∧
    ds.foldl (fun a d => a * 16 + d) 0 = n

/-- The codes of Base64 text primitives. -/
def bextCodes : List Str := [lit "4A", lit "5A", lit "6A", lit "7AAA", lit "8AAA", lit "9AAA"]

/-- A date-time text: digits, `T`, `Z`, `-` and the three characters `:`, `.`, `+` that are not Base64URL. More
generally every Base64URL character except the three stand-ins `c`, `d`, `p`. -/
def IsDateTimeText (s : Str) : Prop :=
  ∀ c ∈ s, c ∈ lit ":.+" ∨ (c ∈ alphabet ∧ c ∉ lit "cdp")

end Cesride.Spec
