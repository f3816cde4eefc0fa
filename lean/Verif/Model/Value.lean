import Verif.Model.Prims

/-! # Model of `src/data.rs`: the JSON-like `Value` and its compact JSON text -/

namespace Cesride

/-- `src/data.rs` 13-42 `Value`, `Array`, `Object`, `Number`. An object is the list of its entries in insertion order
(`IndexMap`); an integer is a `Number` with `float = false`; a float is represented by the text that `serde_json` prints
for it (31-32, 108-110), since no theorem needs its arithmetic. -/
inductive Value where
  | null
  | bool (b : Bool)
  | int (i : Int)
  | float (text : Str)
  | str (s : Str)
  | arr (a : List Value)
  | obj (o : List (Str × Value))
  deriving Repr

namespace Value

/-- `src/data.rs` 54-59 `to_string`. -/
def toStr : Value → Res Str
  | .str s => .ok s
  | _ => .err .conversion

/-- `src/data.rs` 61-74 `to_i64`. -/
def toI64 : Value → Res Int
  | .int i => .ok i
  | _ => .err .conversion

/-- `src/data.rs` 91-96 `to_vec`. -/
def toVec : Value → Res (List Value)
  | .arr a => .ok a
  | _ => .err .conversion

/-- `src/data.rs` 98-103 `to_map`. -/
def toMap : Value → Res (List (Str × Value))
  | .obj o => .ok o
  | _ => .err .conversion

/-- `IndexMap::contains_key`. -/
def hasKey (o : List (Str × Value)) (k : Str) : Bool := (o.lookup k).isSome

/-- `IndexMap::insert`: replaces in place, or appends. -/
def insert : List (Str × Value) → Str → Value → List (Str × Value)
  | [], k, v => [(k, v)]
  | (k', v') :: rest, k, v => if k' = k then (k, v) :: rest else (k', v') :: insert rest k v

/-- `IndexMap::shift_remove`: removes and keeps the order of the others. -/
def shiftRemove (o : List (Str × Value)) (k : Str) : List (Str × Value) := o.filter (fun e => e.1 ≠ k)

/-- `src/data.rs` 157-165 `Index<&str>`: panics on a missing key or a non-object. -/
def index (v : Value) (k : Str) : Res Value :=
  match v with
  | .obj o =>
    match o.lookup k with
    | some x => .ok x
    | none => .panic
  | _ => .panic

/-- `src/data.rs` 146-155 `Index<usize>`: panics out of range or on a scalar. -/
def indexNat (v : Value) (i : Nat) : Res Value :=
  match v with
  | .arr a =>
    match a[i]? with
    | some x => .ok x
    | none => .panic
  | .obj o =>
    match o[i]? with
    | some x => .ok x.2
    | none => .panic
  | _ => .panic

/-- `src/data.rs` 177-191 `IndexMut<&str>` followed by an assignment: panics on a non-object. -/
def set (v : Value) (k : Str) (x : Value) : Res Value :=
  match v with
  | .obj o => .ok (.obj (insert o k x))
  | _ => .panic

end Value

/-- Decimal digits of a natural number (`itoa`). -/
def natDec (n : Nat) : Str :=
  if _h : n < 10 then [UInt8.ofNat (48 + n)] else natDec (n / 10) ++ [UInt8.ofNat (48 + n % 10)]
termination_by n
decreasing_by omega

/-- `serde_json` text of an `i64`. -/
def intDec (i : Int) : Str :=
  match i with
  | .ofNat n => natDec n
  | .negSucc n => ch '-' :: natDec (n + 1)

/-- `serde_json` string escapes for one byte. -/
def escapeByte (c : UInt8) : Str :=
  if c = ch '"' then lit "\\\""
  else if c = ch '\\' then lit "\\\\"
  else if c = 8 then lit "\\b"
  else if c = 9 then lit "\\t"
  else if c = 10 then lit "\\n"
  else if c = 12 then lit "\\f"
  else if c = 13 then lit "\\r"
  else if c < 32 then lit "\\u00" ++ [hexChar (c.toNat / 16), hexChar (c.toNat % 16)]
  else [c]

/-- `serde_json` text of a string: `json!(s).to_string()`. -/
def jsonStr (s : Str) : Str := ch '"' :: (s.flatMap escapeByte ++ [ch '"'])

mutual
/-- `src/data.rs` 105-132 `to_json`; it never returns an error. -/
def Value.toJson : Value → Str
  | .null => lit "null"
  | .bool b => if b then lit "true" else lit "false"
  | .int i => intDec i
  | .float t => t
  | .str s => jsonStr s
  | .arr a => ch '[' :: (elemsJson a ++ [ch ']'])
  | .obj o => ch '{' :: (fieldsJson o ++ [ch '}'])
/-- The elements of an array, joined with commas (`src/data.rs` 117-123). -/
def elemsJson : List Value → Str
  | [] => []
  | v :: rest => v.toJson ++ (match rest with | [] => [] | _ :: _ => ch ',' :: elemsJson rest)
/-- The entries of an object, joined with commas (`src/data.rs` 124-130). -/
def fieldsJson : List (Str × Value) → Str
  | [] => []
  | (k, v) :: rest => jsonStr k ++ ch ':' :: (v.toJson ++ (match rest with | [] => [] | _ :: _ => ch ',' :: fieldsJson rest))
end

end Cesride
