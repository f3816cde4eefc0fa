import Verif.Model.Prefixer

/-! # Model of `src/core/pather.rs` -/

namespace Cesride
namespace Pather

/-- Rust `s.parse::<usize>()` with a `usize` of `bits` bits: optional plus sign, at least one digit, range checked
(`src/core/pather.rs` 209, 226). -/
def parseUsize (bits : Nat) (s : Str) : Res Nat :=
  let digits := match s with | c :: rest => if c = ch '+' then rest else s | [] => s
  if digits = [] then .err .parseInt
  else match decLoop (2 ^ bits - 1) 0 digits with
    | some n => .ok n
    | none => .err .parseInt

/-- `src/core/pather.rs` 183-194: the texts of the path components. -/
def texts : List Value → Res (List Str)
  | [] => .ok []
  | e :: rest => do
    let p ←
      (match e.toStr with
      | .ok p => .ok p
      | .panic => .panic
      | .err _ => do
        let i ← e.toI64
        .ok (intDec i) : Res Str)
    if Bexter.reB64 p = false then .err .value
    else do
      let ps ← texts rest
      .ok (p :: ps)

/-- `src/core/pather.rs` 178-197 `bextify`. -/
def bextify (path : Value) : Res Str := do
  let path ← path.toVec
  let vath ← texts path
  .ok (ch '-' :: Tholder.join (ch '-') vath)

/-- `src/core/pather.rs` 38-50 `pather_from_bext`. -/
def ofBext (E : Env) (bext code : Str) : Res Matter :=
  if Bexter.reB64 bext = false then .err .value
  else do
    let raw ← Bexter.rawify bext
    Matter.new E (some code) (some raw) none none none

/-- `src/core/pather.rs` 53-84 `new`. -/
def new (E : Env) (path : Option Value) (bext : Option Str) (code : Option Str) (raw : Option (List UInt8))
    (qb64b : Option (List UInt8)) (qb64 : Option Str) (qb2 : Option (List UInt8)) : Res Matter := do
  let code := code.getD (lit "4A")
  let pather ←
    (if bext.isNone ∧ raw.isNone ∧ qb64b.isNone ∧ qb64.isNone ∧ qb2.isNone then
      match path with
      | some path => do
        let bext ← bextify path
        ofBext E bext code
      | none => .err .emptyMaterial
    else match bext with
      | some bext => ofBext E bext code
      | none => Matter.new E (some code) raw qb64b qb64 qb2 : Res Matter)
  if Bexter.hasCode pather.code then .ok pather else .err .unexpectedCode

/-- `src/core/pather.rs` 86-88 `new_with_path`. -/
def newWithPath (E : Env) (path : Value) : Res Matter := new E (some path) none none none none none none

/-- `src/core/pather.rs` 90-92 `new_with_bext`. -/
def newWithBext (E : Env) (bext : Str) : Res Matter := new E none (some bext) none none none none none

/-- `src/core/pather.rs` 94-96 `new_with_raw`. -/
def newWithRaw (E : Env) (raw : List UInt8) (code : Option Str) : Res Matter := new E none none code (some raw) none none none

/-- `src/core/pather.rs` 98-100 `new_with_qb64b`. -/
def newWithQb64b (E : Env) (qb64b : List UInt8) : Res Matter := new E none none none none (some qb64b) none none

/-- `src/core/pather.rs` 102-104 `new_with_qb64`. -/
def newWithQb64 (E : Env) (qb64 : Str) : Res Matter := new E none none none none none (some qb64) none

/-- `src/core/pather.rs` 106-108 `new_with_qb2`. -/
def newWithQb2 (E : Env) (qb2 : List UInt8) : Res Matter := new E none none none none none none (some qb2)

/-- `src/core/pather.rs` 110-124 `path`, as a list of texts. -/
def comps (p : Matter) : Res (List Str) := do
  let bext ← Bexter.bext p
  if bext.head? ≠ some (ch '-') then .err .value
  else
    let result := splitOn (ch '-') (bext.drop 1)
    if result.head? = some [] then .ok [] else .ok result

/-- `src/core/pather.rs` 110-124 `path`. -/
def path (p : Matter) : Res Value := do
  let cs ← comps p
  .ok (.arr (cs.map .str))

/-- `src/core/pather.rs` 126-134 `root`. -/
def root (E : Env) (self root : Matter) : Res Matter := do
  let path ← comps root
  let toAppend ← comps self
  newWithPath E (.arr ((path ++ toAppend).map .str))

/-- `src/core/pather.rs` 140-141: the map from a component to its last position. -/
def lastPos (path : List Str) (p : Str) : Option Nat :=
  match path with
  | [] => none
  | x :: rest =>
    match lastPos rest p with
    | some i => some (i + 1)
    | none => if x = p then some 0 else none

/-- `src/core/pather.rs` 147-150: remove a position of `path` for each component; `hashmap[..]` and `remove` panic. -/
def removeAll (orig : List Str) : List Str → List Str → Res (List Str)
  | [], path => .ok path
  | p :: ps, path =>
    match lastPos orig p with
    | none => .panic
    | some i => if i < path.length then removeAll orig ps (path.eraseIdx i) else .panic

/-- `src/core/pather.rs` 136-153 `strip`. -/
def strip (E : Env) (self root : Matter) : Res Matter := do
  let rootPath ← comps root
  let path ← comps self
  if path.length < rootPath.length then .ok self
  else do
    let path ← removeAll path rootPath.reverse path
    newWithPath E (.arr (path.map .str))

/-- `src/core/pather.rs` 155-157 `starts_with`. -/
def startsWith (self path : Matter) : Res Bool := do
  let a ← Bexter.bext self
  let b ← Bexter.bext path
  .ok (b.isPrefixOf a)

/-- `src/core/pather.rs` 199-236 `_resolve`, on a list of texts. -/
def walk (bits : Nat) (val : Value) : List Str → Res Value
  | [] => .ok val
  | idx :: ptr =>
    match val with
    | .obj o =>
      match parseUsize bits idx with
      | .ok i =>
        match o[i]? with
        | none => .err .value
        | some e => walk bits e.2 ptr
      | _ =>
        if idx = [] then .ok (.obj o)
        else match o.lookup idx with
          | none => .err .value
          | some x => walk bits x ptr
    | .arr a => do
      let i ← parseUsize bits idx
      match a[i]? with
      | none => .err .value
      | some x => walk bits x ptr
    | _ => .err .value

/-- `src/core/pather.rs` 159-161 `resolve`. -/
def resolve (E : Env) (self : Matter) (sad : Value) : Res Value := do
  let cs ← comps self
  walk E.usizeBits sad cs

/-- `src/core/pather.rs` 163-176 `tail`, on the map of the message. -/
def tail (E : Env) (H : Hash) (self : Matter) (ked : Value) : Res Str := do
  let val ← resolve E self ked
  match val with
  | .str s => do
    let _ ← Saider.new E H none none none none none none none (some s) none
    .ok s
  | .obj o => .ok (Value.obj o).toJson
  | .arr a => .ok (Value.arr a).toJson
  | _ => .err .value

end Pather
end Cesride
