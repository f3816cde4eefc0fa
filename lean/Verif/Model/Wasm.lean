import Verif.Model.Prefixer
import Verif.Model.Signer

/-! # Model of the conversions of the JavaScript bindings (`wasm/src`)

The bindings forward every call to the library; what they add is the conversion of 128-bit numbers, of documents and of lists. On wasm32 `usize` has 32 bits
(`Env.wasm`). The errors become JavaScript errors with the text of the error (`wasm/src/error.rs` 13-17): still `err` here. -/

namespace Cesride.Wasm

/-- `wasm/src/util.rs` 4-8 `U128Wrapper`. JavaScript can only get such an object from the library and hand it back. -/
structure U128 where
  low : Nat
  high : Nat
  deriving DecidableEq, Repr

/-- `wasm/src/util.rs` 10-14 `From<u128> for U128Wrapper` (`as u64` keeps the low 64 bits). -/
def toU128 (value : Nat) : U128 := { low := value % 2 ^ 64, high := value / 2 ^ 64 % 2 ^ 64 }

/-- `wasm/src/util.rs` 16-20 `From<U128Wrapper> for u128`. -/
def fromU128 (val : U128) : Nat := val.high ||| val.low

/-- `wasm/src/primitives/number.rs` 36-39 `new_with_num` (`src/core/number.rs` 96-98). -/
def numberOfNum (E : Env) (num : U128) : Res Matter := Number.new E (some (fromU128 num)) none none none none none none

/-- `wasm/src/primitives/number.rs` 66-69 `num`. -/
def numberNum (m : Matter) : Res U128 := do
  let n ← Number.num m
  .ok (toU128 n)

/-- `wasm/src/primitives/seqner.rs` 36-39 `new_with_sn` (`src/core/seqner.rs` 57-59). -/
def seqnerOfSn (E : Env) (sn : U128) : Res Matter := Seqner.new E (some (fromU128 sn)) none none none none none none

/-- `wasm/src/primitives/seqner.rs` 66-69 `sn`. -/
def seqnerSn (m : Matter) : Res U128 := do
  let n ← Seqner.sn m
  .ok (toU128 n)

/-- `wasm/src/primitives/serder.rs` 90-93 `sn`. -/
def serderSn (E : Env) (s : Sadder) : Res U128 := do
  let n ← Serder.sn E s
  .ok (toU128 n)

/-- Rust `unwrap`/`expect` on a `Result`. -/
def unwrap {α : Type} : Res α → Res α
  | .ok a => .ok a
  | _ => .panic

/-- `wasm/src/util.rs` 37-42 `From<ValueWrapper> for Value`: `serde_json::from_str(..).unwrap()`, then `Value::from`. The wrapper is its text
(22-35). -/
def toValue (F : Str → Option Str) (text : Str) : Res Value := unwrap (Json.fromStr F text)

/-- An optional document argument, `sad.map(Value::from)`. -/
def toValueOpt (F : Str → Option Str) : Option Str → Res (Option Value)
  | none => .ok none
  | some t => do
    let v ← toValue F t
    .ok (some v)

/-- An entry of a JavaScript array as far as the bindings look at it: a text, or anything else (number, null, object, …). -/
inductive JsVal
  | text (s : Str)
  | other
  deriving DecidableEq, Repr

/-- `wasm/src/primitives/saider.rs` 43-46, 69-72, 96-99, 121-124, `prefixer.rs` 23-26, 45-48: `v.as_string().unwrap_or_default()` for each entry. -/
def names : Option (List JsVal) → Option (List Str)
  | none => none
  | some l => some (l.map fun v => match v with
    | .text s => s
    | .other => [])

/-- `wasm/src/primitives/saider.rs` 32-60 `new`. -/
def saiderNew (E : Env) (F : Str → Option Str) (H : Hash) (sad label kind : Option Str) (ignore : Option (List JsVal)) (code : Option Str)
    (raw qb64b : Option (List UInt8)) (qb64 : Option Str) (qb2 : Option (List UInt8)) : Res Matter := do
  let sad ← toValueOpt F sad
  Saider.new E H sad label kind (names ignore) code raw qb64b qb64 qb2

/-- `wasm/src/primitives/saider.rs` 114-134 `new_with_sad` (`src/core/saider.rs` 243-251). -/
def saiderNewWithSad (E : Env) (F : Str → Option Str) (H : Hash) (sad : Str) (label kind : Option Str) (ignore : Option (List JsVal)) (code : Option Str) :
    Res Matter := do
  let v ← toValue F sad
  Saider.new E H (some v) label kind (names ignore) code none none none none

/-- `wasm/src/primitives/saider.rs` 62-85 `saidify`: line 83 `ret.1.to_string()` is the library's `Value::to_string` (`src/data.rs` 54-59), which
takes text values only. -/
def saidify (E : Env) (F : Str → Option Str) (H : Hash) (sad : Str) (code kind label : Option Str) (ignore : Option (List JsVal)) :
    Res (Matter × Str) := do
  let v ← toValue F sad
  let (saider, sad) ← Saider.saidify E H v code kind label (names ignore)
  let value ← unwrap sad.toStr
  .ok (saider, value)

/-- `wasm/src/primitives/saider.rs` 87-112 `verify`. -/
def saiderVerify (E : Env) (F : Str → Option Str) (H : Hash) (self : Matter) (sad : Str) (prefixed versioned : Option Bool) (kind label : Option Str)
    (ignore : Option (List JsVal)) : Res Bool := do
  let v ← toValue F sad
  Saider.verify E H self v prefixed versioned kind label (names ignore)

/-- `wasm/src/primitives/prefixer.rs` 14-38 `new`. -/
def prefixerNew (E : Env) (F : Str → Option Str) (H : Hash) (ked : Option Str) (allows : Option (List JsVal)) (code : Option Str)
    (raw qb64b : Option (List UInt8)) (qb64 : Option Str) (qb2 : Option (List UInt8)) : Res Matter := do
  let ked ← toValueOpt F ked
  Prefixer.new E H ked (names allows) code raw qb64b qb64 qb2

/-- `wasm/src/primitives/prefixer.rs` 40-52 `new_with_ked` (`src/core/prefixer.rs` 308-310). -/
def prefixerNewWithKed (E : Env) (F : Str → Option Str) (H : Hash) (ked : Str) (allows : Option (List JsVal)) (code : Option Str) : Res Matter := do
  let v ← toValue F ked
  Prefixer.new E H (some v) (names allows) code none none none none

/-- `wasm/src/primitives/prefixer.rs` 74-76 `verify`. -/
def prefixerVerify (E : Env) (F : Str → Option Str) (H : Hash) (self : Matter) (ked : Str) (prefixed : Option Bool) : Res Bool := do
  let v ← toValue F ked
  Prefixer.verify E H self v prefixed

/-- `wasm/src/primitives/serder.rs` 17-33 `new`. -/
def serderNew (E : Env) (F : Str → Option Str) (H : Hash) (code : Option Str) (raw : Option (List UInt8)) (kind : Option Str) (ked : Option Str)
    (sad : Option Sadder) : Res Sadder := do
  let ked ← toValueOpt F ked
  Serder.new E F H code raw kind ked sad

/-- `wasm/src/primitives/serder.rs` 113-116 `ked`: again the library's `Value::to_string`. -/
def serderKed (s : Sadder) : Res Str := unwrap s.ked.toStr

/-- `wasm/src/primitives/serder.rs` 35-43 `new_with_ked`. -/
def serderNewWithKed (E : Env) (F : Str → Option Str) (H : Hash) (ked : Str) (code kind : Option Str) : Res Sadder := do
  let v ← toValue F ked
  Serder.newWithKed E F H v code kind

/-- The JavaScript array filled in the loops of `wasm/src/primitives/serder.rs` 47-51, 57-61, 67-71: `Array::new_with_length(n)`, then entry `i` set for
every `i` below `n`; `none` is an empty slot. -/
def toArray {α : Type} (l : List α) : List (Option α) :=
  (List.range l.length).foldl (fun arr i => arr.set i l[i]?) (List.replicate l.length none)

/-- `wasm/src/primitives/serder.rs` 45-53 `verfers`. -/
def serderVerfers (E : Env) (s : Sadder) : Res (List (Option Matter)) := do
  let l ← Serder.verfers E s
  .ok (toArray l)

/-- `wasm/src/primitives/serder.rs` 55-63 `digers`. -/
def serderDigers (E : Env) (H : Hash) (s : Sadder) : Res (List (Option Matter)) := do
  let l ← Serder.digers E H s
  .ok (toArray l)

/-- `wasm/src/primitives/serder.rs` 65-73 `werfers`. -/
def serderWerfers (E : Env) (s : Sadder) : Res (List (Option Matter)) := do
  let l ← Serder.werfers E s
  .ok (toArray l)

/-- `wasm/src/primitives/signer.rs` 103-104 `Signers`; made by `salter.rs` 92-117 `signers`. -/
structure Signers where
  list : List Signer

/-- `wasm/src/primitives/salter.rs` 93-117 `signers`. -/
def salterSigners (E : Env) (C : Crypto) (s : Salter) (count start : Option Nat) (path code : Option Str) (transferable : Option Bool) (tier : Option Str)
    (temp : Option Bool) : Res Signers := do
  let l ← Salter.signers E C s count start path code transferable tier temp
  .ok ⟨l⟩

/-- `wasm/src/primitives/signer.rs` 109-111 `len`. -/
def Signers.len (x : Signers) : Nat := x.list.length
/-- `wasm/src/primitives/signer.rs` 113-115 `is_empty`. -/
def Signers.isEmpty (x : Signers) : Bool := x.list.isEmpty
/-- `wasm/src/primitives/signer.rs` 117-123 `get`. -/
def Signers.get (x : Signers) (index : Nat) : Option Signer := if index < x.list.length then x.list[index]? else none

/-- `wasm/src/primitives/diger.rs` 63-65 `compare_dig`. -/
def digerCompareDig (E : Env) (H : Hash) (d : Matter) (ser dig : List UInt8) : Res Bool := Diger.compare E H d ser (some dig) none
/-- `wasm/src/primitives/diger.rs` 67-69 `compare_diger`. -/
def digerCompareDiger (E : Env) (H : Hash) (d : Matter) (ser : List UInt8) (diger : Matter) : Res Bool := Diger.compare E H d ser none (some diger)

/-- `wasm/src/primitives/tholder.rs` 17-29 `new`. -/
def tholderNew (E : Env) (F : Str → Option Str) (thold : Option Str) (limen : Option (List UInt8)) (sith : Option Str) : Res Tholder := do
  let thold ← toValueOpt F thold
  let sith ← toValueOpt F sith
  Tholder.new E F thold limen sith

/-- `wasm/src/primitives/tholder.rs` 46-49 `thold`. -/
def tholderThold (t : Tholder) : Str := t.thold.toJson

/-- `wasm/src/primitives/tholder.rs` 75-79 `sith`. -/
def tholderSith (t : Tholder) : Res Str := do
  let s ← t.sith
  .ok s.toJson

end Cesride.Wasm
