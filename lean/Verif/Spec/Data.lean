import Verif.Model.Value
import Verif.Spec.JsonText

/-! # Specification vocabulary for values -/

namespace Cesride.Spec

/-- The text of a finite float, as it is printed: a number token of JSON with a fraction or an exponent. -/
def FloatText (t : Str) : Prop :=
  ∃ sign whole frac exp, t = sign ++ whole ++ frac ++ exp ∧ JsonText.Token sign whole frac exp ∧ (frac ≠ [] ∨ exp ≠ [])

mutual
/-- A value with 64-bit integers and without repeated keys (what `i64` and `IndexMap` guarantee) whose floats are finite (those which are not
are printed as `null`). -/
def Plain : Value → Prop
  | .null => True
  | .bool _ => True
  | .int i => -2 ^ 63 ≤ i ∧ i < 2 ^ 63
  | .float t => FloatText t
  | .str _ => True
  | .arr a => PlainElems a
  | .obj o => PlainFields o ∧ (o.map Prod.fst).Nodup
/-- All elements are plain. -/
def PlainElems : List Value → Prop
  | [] => True
  | v :: rest => Plain v ∧ PlainElems rest
/-- All entries are plain. -/
def PlainFields : List (Str × Value) → Prop
  | [] => True
  | (_, v) :: rest => Plain v ∧ PlainFields rest
end

/-- Every float in the value has a point in its text, and its text is read as this float again. (The reader of `serde_json` is not exact in
the last digit unless its feature `float_roundtrip` is on; `F` is the reader followed by the printer. A float without a point makes the reader
panic.) A value without floats is such a value. -/
def FloatsRead (F : Str → Option Str) (v : Value) : Prop := ∀ t, JsonText.Inside (.float t) v → F t = some t ∧ ch '.' ∈ t

mutual
/-- Nesting depth of arrays and objects. -/
def depth : Value → Nat
  | .arr a => depthElems a + 1
  | .obj o => depthFields o + 1
  | _ => 0
/-- Maximum over the elements. -/
def depthElems : List Value → Nat
  | [] => 0
  | v :: rest => max (depth v) (depthElems rest)
/-- Maximum over the entries. -/
def depthFields : List (Str × Value) → Nat
  | [] => 0
  | (_, v) :: rest => max (depth v) (depthFields rest)
end

mutual
/-- All texts in the value are valid UTF-8 (as Rust strings are). -/
def Utf8Value : Value → Prop
  | .str s => utf8Valid s = true
  | .float t => utf8Valid t = true
  | .arr a => Utf8Elems a
  | .obj o => Utf8Fields o
  | _ => True
/-- All elements. -/
def Utf8Elems : List Value → Prop
  | [] => True
  | v :: rest => Utf8Value v ∧ Utf8Elems rest
/-- All entries. -/
def Utf8Fields : List (Str × Value) → Prop
  | [] => True
  | (k, v) :: rest => utf8Valid k = true ∧ Utf8Value v ∧ Utf8Fields rest
end

end Cesride.Spec
