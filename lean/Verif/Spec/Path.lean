import Verif.Spec.Counted
import Verif.Spec.Prefix
import Verif.Spec.Message
import Verif.Spec.Threshold

/-! # Specification of paths into documents, independent of the code model -/

namespace Cesride.Spec

/-- The text `c` denotes the position `i`: a decimal numeral, possibly with a plus sign, of a number that fits a machine word of
`bits` bits. -/
def Position (bits : Nat) (c : Str) (i : Nat) : Prop :=
  ∃ sign digits, c = sign ++ digits ∧ (sign = [] ∨ sign = lit "+") ∧ digits ≠ [] ∧ IsDigits digits ∧ decNum digits = i ∧ i < 2 ^ bits

/-- Following the path `cs` from the value `v` leads to `w` (on a machine with words of `bits` bits). In a map a position selects the entry at that position, another text the
entry with that key, and an empty text stops at the map; in a list a position selects an element. -/
inductive Leads (bits : Nat) : Value → List Str → Value → Prop
  | here (v) : Leads bits v [] v
  | elem {a c cs i x w} : Position bits c i → a[i]? = some x → Leads bits x cs w → Leads bits (.arr a) (c :: cs) w
  | entry {o c cs i k x w} : Position bits c i → o[i]? = some (k, x) → Leads bits x cs w → Leads bits (.obj o) (c :: cs) w
  | key {o c cs x w} : (∀ i, ¬ Position bits c i) → c ≠ [] → o.lookup c = some x → Leads bits x cs w → Leads bits (.obj o) (c :: cs) w
  | stop {o cs} : Leads bits (.obj o) ([] :: cs) (.obj o)

/-- A component list that a path text can carry: no component has a hyphen, and the first is not empty. -/
def Clean (cs : List Str) : Prop := (∀ c ∈ cs, ch '-' ∉ c) ∧ cs.head? ≠ some []

/-- The usual decimal text of an integer: no leading zeros, a hyphen before a negative number. -/
def IntText (i : Int) (s : Str) : Prop :=
  ∃ n digits, DecNumeral digits n ∧ (digits.head? = some (ch '0') → digits = lit "0") ∧
    ((i = n ∧ s = digits) ∨ (0 < n ∧ i = -(n : Int) ∧ s = ch '-' :: digits))

/-- The text of a path component given as a value: a text, or the decimal text of an integer. -/
def PathText (v : Value) (s : Str) : Prop := v = .str s ∨ ∃ i, v = .int i ∧ IntText i s

/-- The text of the path with these components. -/
def pathText (cs : List Str) : Str := ch '-' :: joinWith (ch '-') cs

/-- The text `t` is read as the path with components `cs`: it is the text of that path; a text with two hyphens in front is read as the
empty path. -/
def Reads (t : Str) (cs : List Str) : Prop := (Clean cs ∧ t = pathText cs) ∨ (cs = [] ∧ ∃ u, t = lit "--" ++ u)

end Cesride.Spec
