import Verif.Model.Js

/-!
# Model of the plain JavaScript values handed to the bindings (`wasm/src/primitives/*.rs`)

For numbers, texts and lists of numbers the code that `wasm-bindgen` 0.2.84 generates converts: an argument of type `u32` or `usize` (32 bits) is passed to WebAssembly
as it is, which takes the integer part modulo 2^32 (`ToInt32` of ECMAScript, 0 for NaN and the infinities); for `Option<u32>` and `Option<usize>` the same, with `null` and
`undefined` as `None`; the entries of a `&[u32]` are stored in a `Uint32Array`, with the same conversion. A text is written with `TextEncoder` into UTF-8 (`passStringToWasm0`) and
a text given back is read with a fatal `TextDecoder` (`getStringFromWasm0`), with `ignoreBOM`. Arguments of other JavaScript types (a text for a number, an object for a text) are
not modelled.
-/

namespace Cesride.Js

/-- A JavaScript number: finite, or NaN or an infinity. (Every rational is allowed, not only the doubles.) -/
inductive Num
  | finite (q : Rat)
  | notFinite

/-- The integer part, rounded towards zero. -/
def truncate (q : Rat) : Int := if 0 ≤ q then q.floor else -(-q).floor

/-- `ToInt32` of ECMAScript, read as a `u32` on the Rust side. -/
def toUint32 : Num → Nat
  | .finite q => (truncate q % 2 ^ 32).toNat
  | .notFinite => 0

/-- `wasm/src/primitives/signer.rs` 63-72 `sign_indexed`. -/
def signIndexed (E : Env) (C : Crypto) (s : Signer) (ser : List UInt8) (only : Bool) (index : Num) (ondex : Option Num) (r : Nat) : Res Siger :=
  Signer.signIndexed E C s ser only (toUint32 index) (ondex.map toUint32) r

/-- `wasm/src/primitives/siger.rs` 38-48 `new_with_raw`, with the Verfer that came through (C106). -/
def sigerOfRaw (E : Env) (raw : List UInt8) (verfer : Option Matter) (index ondex : Option Num) (code : Option Str) : Res Siger :=
  Siger.newWithRaw E raw verfer (index.map toUint32) (ondex.map toUint32) code

/-- `wasm/src/primitives/siger.rs` 14-36 `new`, with the Verfer that came through. -/
def sigerOf (E : Env) (verfer : Option Matter) (index ondex : Option Num) (code : Option Str) (raw qb64b : Option (List UInt8)) (qb64 : Option Str)
    (qb2 : Option (List UInt8)) : Res Siger :=
  Siger.new E verfer (index.map toUint32) (ondex.map toUint32) code raw qb64b qb64 qb2

/-- `wasm/src/primitives/tholder.rs` 85-87 `satisfy`. -/
def satisfy (E : Env) (t : Tholder) (indices : List Num) : Res Bool := Tholder.satisfy E t (indices.map toUint32)

/-- `wasm/src/primitives/salter.rs` 62-71 `stretch`. -/
def stretch (C : Crypto) (s : Salter) (size : Option Num) (path tier : Option Str) (temp : Option Bool) : Res (List UInt8) :=
  Salter.stretch C s (size.map toUint32) path tier temp

/-- `wasm/src/primitives/salter.rs` 93-117 `signers`. -/
def signers (E : Env) (C : Crypto) (s : Salter) (count start : Option Num) (path code : Option Str) (transferable : Option Bool) (tier : Option Str)
    (temp : Option Bool) : Res Wasm.Signers :=
  Wasm.salterSigners E C s (count.map toUint32) (start.map toUint32) path code transferable tier temp

/-- `wasm/src/primitives/signer.rs` 117-123 `get`. -/
def signersGet (x : Wasm.Signers) (index : Num) : Option Signer := x.get (toUint32 index)

/-- A high (leading) surrogate. -/
def isHigh (a : UInt16) : Bool := 0xD800 ≤ a.toNat && a.toNat < 0xDC00
/-- A low (trailing) surrogate. -/
def isLow (a : UInt16) : Bool := 0xDC00 ≤ a.toNat && a.toNat < 0xE000

/-- `TextEncoder`: a JavaScript text, code unit by code unit, to UTF-8; a surrogate without partner becomes U+FFFD. -/
def encodeText : List UInt16 → Str
  | [] => []
  | [a] => if isHigh a || isLow a then Json.utf8Encode 0xFFFD else Json.utf8Encode a.toNat
  | a :: b :: r =>
    if isHigh a then
      if isLow b then Json.utf8Encode ((a.toNat - 0xD800) * 1024 + (b.toNat - 0xDC00) + 0x10000) ++ encodeText r
      else Json.utf8Encode 0xFFFD ++ encodeText (b :: r)
    else if isLow a then Json.utf8Encode 0xFFFD ++ encodeText (b :: r)
    else Json.utf8Encode a.toNat ++ encodeText (b :: r)

/-- The code units of a code point. -/
def utf16Encode (n : Nat) : List UInt16 :=
  if n < 0x10000 then [UInt16.ofNat n] else [UInt16.ofNat (0xD800 + (n - 0x10000) / 1024), UInt16.ofNat (0xDC00 + (n - 0x10000) % 1024)]

/-- `TextDecoder` of the texts of Rust, which are valid UTF-8: each code point by its first byte. Ill-formed bytes, which it would refuse, do not occur. -/
def decodeText : Str → List UInt16
  | [] => []
  | a :: r =>
    if a.toNat < 0x80 then utf16Encode a.toNat ++ decodeText r
    else if a.toNat < 0xE0 then
      match r with
      | b :: r => utf16Encode ((a.toNat - 0xC0) * 64 + (b.toNat - 0x80)) ++ decodeText r
      | _ => []
    else if a.toNat < 0xF0 then
      match r with
      | b :: c :: r => utf16Encode ((a.toNat - 0xE0) * 4096 + (b.toNat - 0x80) * 64 + (c.toNat - 0x80)) ++ decodeText r
      | _ => []
    else
      match r with
      | b :: c :: d :: r =>
        utf16Encode ((a.toNat - 0xF0) * 262144 + (b.toNat - 0x80) * 4096 + (c.toNat - 0x80) * 64 + (d.toNat - 0x80)) ++ decodeText r
      | _ => []

/-- `wasm/src/util.rs` 25-30 `Value::new`, then 32-34 `value`. -/
def valueText (text : List UInt16) : List UInt16 := decodeText (encodeText text)

end Cesride.Js
