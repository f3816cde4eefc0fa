import Verif.Spec.Cesr

/-! # Specification of indexed signature codes (CESR indexed code table), independent of the code model -/

namespace Cesride.Spec

/-- An indexed signature code: its text, whether it is for the current key list only, the number of Base64
digits of an index, whether it has a second field for the other index, the signature size in bytes. -/
structure IdxCode where
  code : Str
  current : Bool
  digits : Nat
  separate : Bool
  raw : Nat
  deriving DecidableEq

/-- The sixteen indexed signature codes. -/
def idxCodes : List IdxCode := [
  ⟨lit "A", false, 1, false, 64⟩, ⟨lit "B", true, 1, false, 64⟩,
  ⟨lit "C", false, 1, false, 64⟩, ⟨lit "D", true, 1, false, 64⟩,
  ⟨lit "E", false, 1, false, 64⟩, ⟨lit "F", true, 1, false, 64⟩,
  ⟨lit "0A", false, 1, true, 114⟩, ⟨lit "0B", true, 1, true, 114⟩,
  ⟨lit "2A", false, 2, true, 64⟩, ⟨lit "2B", true, 2, true, 64⟩,
  ⟨lit "2C", false, 2, true, 64⟩, ⟨lit "2D", true, 2, true, 64⟩,
  ⟨lit "2E", false, 2, true, 64⟩, ⟨lit "2F", true, 2, true, 64⟩,
  ⟨lit "3A", false, 3, true, 114⟩, ⟨lit "3B", true, 3, true, 114⟩]

/-- The indices that a code can express: the index fits; no ondex for a current-only code; a separate ondex
fits; without a separate field the ondex is the index. -/
def Permitted (c : IdxCode) (index : Nat) (ondex : Option Nat) : Prop :=
  index < 64 ^ c.digits ∧
  match ondex with
  | none => True
  | some o => c.current = false ∧ (if c.separate then o < 64 ^ c.digits else o = index)

/-- The other index of a permitted pair: none (reported as 0) for a current-only code, by default the index. -/
def otherIndex (c : IdxCode) (index : Nat) (ondex : Option Nat) : Nat :=
  if c.current then 0 else ondex.getD index

end Cesride.Spec
