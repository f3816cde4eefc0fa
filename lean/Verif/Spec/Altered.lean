import Verif.Spec.Indexed

/-! # Specification: when the fields of an object belong together -/

namespace Cesride.Spec

/-- Code, size and number of raw bytes belong together: a fixed-size code has exactly its number of raw bytes; under a variable-size code the
size counts the groups of three bytes that lead and raw fill, and has two (small) or four (large) digits. -/
def RawFits (code : Str) (size rawLen : Nat) : Prop :=
  (code, rawLen) ∈ fixedCodes ∨
  ∃ large lead family, lead ≤ 2 ∧ (family = ch 'A' ∨ family = ch 'B') ∧ code = varCode large lead family ∧
    size < 64 ^ (if large then 4 else 2) ∧ rawLen + lead = 3 * size

/-- The same up to whole groups of three bytes. -/
def RawAligned (code : Str) (size rawLen : Nat) : Prop :=
  (∃ n, (code, n) ∈ fixedCodes ∧ rawLen % 3 = n % 3) ∨
  ∃ large lead family, lead ≤ 2 ∧ (family = ch 'A' ∨ family = ch 'B') ∧ code = varCode large lead family ∧
    size < 64 ^ (if large then 4 else 2) ∧ (rawLen + lead) % 3 = 0

/-- Index, other index and number of raw bytes fit the fields of an indexed signature code. -/
def IdxFits (c : IdxCode) (index ondex rawLen : Nat) : Prop :=
  rawLen = c.raw ∧ index < 64 ^ c.digits ∧ (c.separate = true → ondex < 64 ^ c.digits)

/-- The other index that is read back from what was written: none (0) for a current-only code, the one in its own field, or the index. -/
def ondexBack (c : IdxCode) (index ondex : Nat) : Nat :=
  if c.current then 0 else if c.separate then ondex else index

end Cesride.Spec
