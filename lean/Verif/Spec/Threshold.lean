import Verif.Spec.Counted
import Verif.Model.Value

/-! # Specification of signing thresholds, in exact rational arithmetic -/

namespace Cesride.Spec

/-- `s` is a decimal numeral of `n`. -/
def DecNumeral (s : Str) (n : Nat) : Prop := s ≠ [] ∧ IsDigits s ∧ decNum s = n

/-- The weight a text stands for: `0`, `1`, or a proper fraction `n/d` of decimal numerals. -/
inductive WeightText : Str → Rat → Prop where
  | zero : WeightText (lit "0") 0
  | one : WeightText (lit "1") 1
  | frac {p q : Str} {n d : Nat} : DecNumeral p n → DecNumeral q d → 0 < d → n ≤ d →
      WeightText (p ++ ch '/' :: q) ((n : Rat) / (d : Rat))

/-- A list of weight texts. -/
def ClauseTexts : List Value → List Rat → Prop
  | [], [] => True
  | .str s :: vs, w :: ws => WeightText s w ∧ ClauseTexts vs ws
  | _, _ => False

/-- A list of clauses. -/
def ClausesTexts : List Value → List (List Rat) → Prop
  | [], [] => True
  | .arr a :: vs, c :: cs => ClauseTexts a c ∧ ClausesTexts vs cs
  | _, _ => False

/-- A threshold value: an array of clauses, each an array of weight texts. -/
def ThresholdValue (v : Value) (cs : List (List Rat)) : Prop := ∃ a, v = .arr a ∧ ClausesTexts a cs

/-- The weight held by the positions in `is`, of the positions `o`, `o + 1`, … with the given weights. -/
def heldWeight (is : List Nat) : Nat → List Rat → Rat
  | _, [] => 0
  | o, w :: ws => (if o ∈ is then w else 0) + heldWeight is (o + 1) ws

/-- In every clause (the first starts at position `o`, each next one where the previous ends) the positions in `is` hold
a total weight of at least one. -/
def SatisfiedFrom (is : List Nat) : Nat → List (List Rat) → Prop
  | _, [] => True
  | o, c :: cs => 1 ≤ heldWeight is o c ∧ SatisfiedFrom is (o + c.length) cs

/-- A weighted threshold is satisfied by the signatures at the positions `is`. -/
def Satisfied (cs : List (List Rat)) (is : List Nat) : Prop := SatisfiedFrom is 0 cs

/-- Number of positions. -/
def positions (cs : List (List Rat)) : Nat := (cs.map List.length).sum

/-- Least common denominator of a clause. -/
def commonDenominator : List Rat → Nat
  | [] => 1
  | w :: ws => Nat.lcm w.den (commonDenominator ws)

/-- A decimal zero: an optional sign and one or more `0`. -/
def ZeroText (s : Str) : Prop := ∃ sign digits, s = sign ++ digits ∧ (sign = [] ∨ sign = lit "+" ∨ sign = lit "-") ∧ digits ≠ [] ∧ ∀ c ∈ digits, c = ch '0'

/-- The texts of the weights of a threshold value. -/
def HasWeightText (v : Value) (s : Str) : Prop := ∃ a clause, v = .arr a ∧ .arr clause ∈ a ∧ .str s ∈ clause

end Cesride.Spec
