import Verif.Spec.Wire

/-! # Specification: what a build from a code and raw bytes takes of them -/

namespace Cesride.Spec

/-- Lead bytes before `n` raw bytes, to fill groups of three. -/
def leadFor (n : Nat) : Nat := (3 - n % 3) % 3

/-- Number of groups of three bytes that `n` bytes need. -/
def groupsFor (n : Nat) : Nat := (n + 2) / 3

/-- The first `w` bytes of a text are whole characters of it. -/
def WholeChars (s : Str) (w : Nat) : Prop := w ≤ s.length ∧ ¬ MidChar s w

end Cesride.Spec
