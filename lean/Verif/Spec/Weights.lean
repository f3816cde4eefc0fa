import Verif.Spec.Threshold

/-! # Specification of the weight texts the library reads, and of the sums that fit 32 bits -/

namespace Cesride.Spec

/-- A decimal numeral with an optional sign. -/
inductive SignedDec : Str → Int → Prop where
  | plain {s : Str} {n : Nat} : DecNumeral s n → SignedDec s n
  | plus {s : Str} {n : Nat} : DecNumeral s n → SignedDec (ch '+' :: s) n
  | minus {s : Str} {n : Nat} : DecNumeral s n → SignedDec (ch '-' :: s) (-n)

/-- The weight texts that are read, and the weight each stands for: two signed numerals of 32 bits around the only slash, or
a text without slash or with several of them whose first part is `0` or `1`. -/
inductive ReadWeight : Str → Rat → Prop where
  | frac {p q : Str} {n d : Int} : SignedDec p n → SignedDec q d → 0 ≤ n → n ≤ d → 0 < d → d < 2 ^ 31 →
      ReadWeight (p ++ ch '/' :: q) ((n : Rat) / (d : Rat))
  | zero {rest : Str} : (rest = [] ∨ ∃ x y, rest = ch '/' :: (x ++ ch '/' :: y)) → ReadWeight (lit "0" ++ rest) 0
  | one {rest : Str} : (rest = [] ∨ ∃ x y, rest = ch '/' :: (x ++ ch '/' :: y)) → ReadWeight (lit "1" ++ rest) 1

/-- A clause of such texts. -/
def ReadClause : List Value → List Rat → Prop
  | [], [] => True
  | .str s :: vs, w :: ws => ReadWeight s w ∧ ReadClause vs ws
  | _, _ => False

/-- A list of such clauses. -/
def ReadClauses : List Value → List (List Rat) → Prop
  | [], [] => True
  | .arr a :: vs, c :: cs => ReadClause a c ∧ ReadClauses vs cs
  | _, _ => False

/-- Zero over zero: two zeros around a slash. -/
def ZeroOverZero (s : Str) : Prop := ∃ p q, s = p ++ ch '/' :: q ∧ ZeroText p ∧ ZeroText q

/-- Zero over zero is the first of the weights, clause by clause, that is not read. -/
def FirstZeroOverZero (a : List Value) : Prop :=
  ∃ before clause after cs first s last ws, a = before ++ .arr clause :: after ∧ ReadClauses before cs ∧
    clause = first ++ .str s :: last ∧ ReadClause first ws ∧ ZeroOverZero s

/-- The sum of two fractions fits 32 bits when it is computed over the least common denominator. -/
def SumFits (a b : Rat) : Prop := Nat.lcm a.den b.den < 2 ^ 31 ∧ (a + b) * (Nat.lcm a.den b.den : Nat) < 2 ^ 31

/-- Adding the weights one after the other, some sum does not fit. -/
def SumOverflows (ws : List Rat) : Prop := ∃ before w after, ws = before ++ w :: after ∧ ¬ SumFits before.sum w

/-- Adding up the clauses one after the other until one does not reach one, some sum does not fit. -/
def SumsOverflow (cs : List (List Rat)) : Prop :=
  ∃ before c after, cs = before ++ c :: after ∧ (∀ c' ∈ before, 1 ≤ c'.sum) ∧ SumOverflows c

/-- The weights at the positions `is`, of the positions `o`, `o + 1`, … with the given weights. -/
def heldWeights (is : List Nat) : Nat → List Rat → List Rat
  | _, [] => []
  | o, w :: ws => if o ∈ is then w :: heldWeights is (o + 1) ws else heldWeights is (o + 1) ws

/-- The weights at the positions `is`, clause by clause. -/
def heldClauses (is : List Nat) : Nat → List (List Rat) → List (List Rat)
  | _, [] => []
  | o, c :: cs => heldWeights is o c :: heldClauses is (o + c.length) cs

end Cesride.Spec
