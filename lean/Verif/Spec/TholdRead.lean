import Verif.Model.Tholder
import Verif.Spec.Prims
import Verif.Spec.Text
import Verif.Spec.Counted

/-! # Specification of how the forms of a threshold are read -/

namespace Cesride.Spec

/-- `s` is a threshold number in an event: a hexadecimal numeral of `n` (either case, optional plus sign, leading zeros), or a minus sign and
zeros. -/
def SithNumeral (s : Str) (n : Nat) : Prop :=
  HexNumeral s n ∨ (n = 0 ∧ ∃ digits, s = ch '-' :: digits ∧ digits ≠ [] ∧ ∀ c ∈ digits, c = ch '0')

/-- The weights `cl`, clause by clause, that a Base64 text `t` stands for: clauses are separated by `a`, weights by `c`, and `s` stands for the slash. -/
def LimenClauses (t : Str) (cl : List (List Str)) : Prop :=
  cl ≠ [] ∧ (∀ ws ∈ cl, ws ≠ [] ∧ ∀ w ∈ ws, ∀ c ∈ w, c ∉ lit "acs") ∧
    t = joinWith (ch 'a') (cl.map fun ws => joinWith (ch 'c') (ws.map fun w => w.map fun c => if c = ch '/' then ch 's' else c))

/-- The value that lists these weights. -/
def clauseValue (cl : List (List Str)) : Value := .arr (cl.map fun ws => .arr (ws.map .str))

/-- Reading the forms in turn: every one has to be accepted, the last one counts. -/
def inTurn : List (Res Tholder) → Res Tholder
  | [] => .err .emptyMaterial
  | [r] => r
  | r :: rest => do let _ ← r; inTurn rest

end Cesride.Spec
