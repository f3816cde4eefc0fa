import Verif.Model.Data

/-! # Model of the conversions between native values and `Value` (`src/data.rs` 13-33, 45-103, 193-279, 312-388) and of the macro `dat!` (391-581)

Here a number keeps its two machine words, as `Number` does. `Value.float` of the other models keeps only the text that is printed for a float;
`Number.shown` says which `Value` of the other models a number is. -/

namespace Cesride.Native

/-- `f64`: sign, exponent and fraction of the IEEE 754 binary64 format. -/
structure F64 where
  sign : Bool
  exp : BitVec 11
  man : BitVec 52
  deriving Repr, DecidableEq

/-- `f32`: sign, exponent and fraction of the IEEE 754 binary32 format. -/
structure F32 where
  sign : Bool
  exp : BitVec 8
  man : BitVec 23
  deriving Repr, DecidableEq

namespace F64

/-- Neither an infinity nor NaN. -/
def finite (f : F64) : Bool := f.exp.toNat != 2047

/-- NaN. -/
def nan (f : F64) : Bool := f.exp.toNat == 2047 && f.man.toNat != 0

/-- The magnitude of a finite float in units of `2 ^ (-1074)`. -/
def units (f : F64) : Nat := if f.exp.toNat = 0 then f.man.toNat else (2 ^ 52 + f.man.toNat) * 2 ^ (f.exp.toNat - 1)

/-- Rust `f as i64`: towards zero, saturating, NaN to zero. -/
def toI64 (f : F64) : Int :=
  if f.nan then 0
  else if !f.finite then (if f.sign then -2 ^ 63 else 2 ^ 63 - 1)
  else
    let n : Nat := f.units / 2 ^ 1074
    if f.sign then max (-2 ^ 63) (-n) else min (2 ^ 63 - 1) n

/-- Rust `i as f64`: to nearest, ties to even. -/
def ofI64 (i : Int) : F64 :=
  let n := i.natAbs
  let s := decide (i < 0)
  if n = 0 then ⟨false, 0, 0⟩
  else
    let l := n.log2
    if l ≤ 52 then ⟨s, BitVec.ofNat 11 (l + 1023), BitVec.ofNat 52 (n * 2 ^ (52 - l))⟩
    else
      let q := n / 2 ^ (l - 52)
      let r := n % 2 ^ (l - 52)
      let half := 2 ^ (l - 53)
      let q := if r > half ∨ (r = half ∧ q % 2 = 1) then q + 1 else q
      if q = 2 ^ 53 then ⟨s, BitVec.ofNat 11 (l + 1024), 0⟩ else ⟨s, BitVec.ofNat 11 (l + 1023), BitVec.ofNat 52 q⟩

/-- Rust `x as f64` for an `f32`: exact. -/
def ofF32 (x : F32) : F64 :=
  if x.exp.toNat = 255 then ⟨x.sign, 2047, BitVec.ofNat 52 (x.man.toNat * 2 ^ 29)⟩
  else if x.exp.toNat ≠ 0 then ⟨x.sign, BitVec.ofNat 11 (x.exp.toNat + 896), BitVec.ofNat 52 (x.man.toNat * 2 ^ 29)⟩
  else if x.man.toNat = 0 then ⟨x.sign, 0, 0⟩
  else
    let l := x.man.toNat.log2
    ⟨x.sign, BitVec.ofNat 11 (l + 874), BitVec.ofNat 52 (x.man.toNat * 2 ^ (52 - l))⟩

/-- `==` of `f64`: NaN differs from everything, the two zeros are equal. -/
def eq (f g : F64) : Bool := !f.nan && !g.nan && (f == g || (f.finite && g.finite && f.units == 0 && g.units == 0))

end F64

/-- `src/data.rs` 16-21 `Number`. -/
structure Number where
  f : F64
  i : BitVec 64
  float : Bool
  deriving Repr, DecidableEq

namespace Number

/-- `src/data.rs` 23-27 `From<f64>`, 199-203 `From<f64> for Value`. -/
def ofF64 (f : F64) : Number := ⟨f, 0, true⟩

/-- `src/data.rs` 29-33 `From<i64>`, 223-227 `From<i64> for Value`. -/
def ofI64 (i : BitVec 64) : Number := ⟨⟨false, 0, 0⟩, i, false⟩

/-- `src/data.rs` 193-197 `From<f32> for Value`. -/
def ofF32 (x : F32) : Number := ofF64 (F64.ofF32 x)

/-- `src/data.rs` 205-221 `From<i8>`, `From<i16>`, `From<i32>` (`w` is the width): `i as i64`, with sign extension. -/
def ofSigned {w : Nat} (x : BitVec w) : Number := ofI64 (x.signExtend 64)

/-- `src/data.rs` 229-245 `From<u8>`, `From<u16>`, `From<u32>` (`w` is the width): `i as i64`, with zero extension. -/
def ofUnsigned {w : Nat} (x : BitVec w) : Number := ofI64 (x.zeroExtend 64)

/-- `src/data.rs` 16 `#[derive(PartialEq)]`. -/
def eq (m n : Number) : Bool := F64.eq m.f n.f && m.i == n.i && m.float == n.float

/-- `src/data.rs` 108-115: the number as the other models see it; `print` is the text `serde_json` prints for a finite float. A float that
is not finite is printed as `null` (`json!` makes it the JSON null). -/
def shown (print : F64 → Str) (n : Number) : Value :=
  if n.float then .float (if n.f.finite then print n.f else lit "null") else .int n.i.toInt

end Number

/-- `src/data.rs` 35-43 `Value`, with the words of a number: a number, or something else. -/
inductive Arg where
  | number (n : Number)
  | other (v : Value)

namespace Arg

/-- `src/data.rs` 61-74 `to_i64`. -/
def toI64 : Arg → Res Int
  | .number n => if n.float then .err .conversion else .ok n.i.toInt
  | .other _ => .err .conversion

/-- `src/data.rs` 76-89 `to_f64`. -/
def toF64 : Arg → Res F64
  | .number n => if !n.float then .err .conversion else .ok n.f
  | .other _ => .err .conversion

/-- `src/data.rs` 334-349 `TryFrom<&Value> for i64`. -/
def tryI64 : Arg → Res Int
  | .number n => if !n.float then .ok n.i.toInt else .ok n.f.toI64
  | .other _ => .err .conversion

/-- `src/data.rs` 351-366 `TryFrom<&Value> for f64`. -/
def tryF64 : Arg → Res F64
  | .number n => if n.float then .ok n.f else .ok (F64.ofI64 n.i.toInt)
  | .other _ => .err .conversion

end Arg

/-- `src/data.rs` 265-273 `From<&HashMap<String, Value>>`: `entries` are the entries of the map in the order of its iterator, which Rust leaves
open (it differs from map to map and from run to run). -/
def ofHash (entries : List (Str × Value)) : Value := .obj (entries.foldl (fun map e => Value.insert map e.1 e.2) [])

/-- `src/data.rs` 449-544 and 568-576, `dat!({ key: value, .. })`: the entries are inserted in the order they are written. -/
def datObject (entries : List (Str × Value)) : Value := .obj (entries.foldl (fun map e => Value.insert map e.1 e.2) [])

/-- `src/data.rs` 392-447 and 560-566, `dat!([ value, .. ])`. -/
def datArray (elements : List Value) : Value := .arr elements

end Cesride.Native
