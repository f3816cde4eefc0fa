import Verif.Model.Value

/-! # Model of the rest of `src/data.rs`: conversions, writing by key and by position, equality -/

namespace Cesride
namespace Value

/-- `src/data.rs` 46-51 `to_bool`, and 323-332 `TryFrom<&Value> for bool`. -/
def toBool : Value → Res Bool
  | .bool b => .ok b
  | _ => .err .conversion

/-- `src/data.rs` 76-89 `to_f64`; the float is represented by its printed text. -/
def toF64 : Value → Res Str
  | .float t => .ok t
  | _ => .err .conversion

/-- `src/data.rs` 167-175 `IndexMut<usize>` followed by an assignment: writes at a position of an array or of an object, panics out of range or
on a scalar. -/
def setNat (v : Value) (i : Nat) (x : Value) : Res Value :=
  match v with
  | .arr a => if i < a.length then .ok (.arr (a.set i x)) else .panic
  | .obj o =>
    match o[i]? with
    | some e => .ok (.obj (o.set i (e.1, x)))
    | none => .panic
  | _ => .panic

/-- The texts of the two zeros of `f64`. -/
def isZero (t : Str) : Bool := t == lit "0.0" || t == lit "-0.0"

mutual
/-- `src/data.rs` 35 `#[derive(PartialEq)]` on `Value`: `Vec` compares by position, `IndexMap` by key whatever the order. `f64`
compares by value: finite floats print differently when they differ (shortest text that is read as the float), and the only different floats that
compare equal are the two zeros. Infinities and NaN, which all print as `null`, are not represented faithfully. -/
def eq : Value → Value → Bool
  | .null, .null => true
  | .bool a, .bool b => a == b
  | .int a, .int b => a == b
  | .float a, .float b => a == b || (isZero a && isZero b)
  | .str a, .str b => a == b
  | .arr a, .arr b => eqElems a b
  | .obj o, .obj p => o.length == p.length && eqFields o p
  | _, _ => false
/-- `Vec` equality. -/
def eqElems : List Value → List Value → Bool
  | [], [] => true
  | v :: a, w :: b => eq v w && eqElems a b
  | _, _ => false
/-- `IndexMap` equality: every entry of the first is in the second. -/
def eqFields : List (Str × Value) → List (Str × Value) → Bool
  | [], _ => true
  | (k, v) :: o, p => (match p.lookup k with | some w => eq v w | none => false) && eqFields o p
end

end Value
end Cesride
