import Verif.Model.Base

/-! # Model of `src/core/util.rs` and of the external `base64` URL_SAFE engine -/

namespace Cesride

/-- `src/core/util.rs` 5-73 `b64_char_to_index`. Works on the UTF-8 byte of the character; every non-ASCII
character falls into the `_` arm, and so do its bytes. The 64 literal arms are written as five ranges. -/
def b64CharToIndex (c : UInt8) : Res Nat :=
  if ch 'A' ≤ c ∧ c ≤ ch 'Z' then .ok (c.toNat - 65)
  else if ch 'a' ≤ c ∧ c ≤ ch 'z' then .ok (c.toNat - 97 + 26)
  else if ch '0' ≤ c ∧ c ≤ ch '9' then .ok (c.toNat - 48 + 52)
  else if c = ch '-' then .ok 62
  else if c = ch '_' then .ok 63
  else .err .invalidBase64Character

/-- `src/core/util.rs` 75-143 `b64_index_to_char` (the 64 literal arms are written as ranges). -/
def b64IndexToChar (i : Nat) : Res UInt8 :=
  if i < 26 then .ok (UInt8.ofNat (i + 65))
  else if i < 52 then .ok (UInt8.ofNat (i - 26 + 97))
  else if i < 62 then .ok (UInt8.ofNat (i - 52 + 48))
  else if i = 62 then .ok (ch '-')
  else if i = 63 then .ok (ch '_')
  else .err .invalidBase64Index

/-- `src/core/util.rs` 145-153 / 155-163: the loop of `b64_to_u32`/`b64_to_u64` for a word of `2^bits`.
`<<` drops the high bits silently; the addition cannot overflow because the low 6 bits are zero. -/
def b64ToUint (modulus : Nat) : Nat → Str → Res Nat
  | out, [] => .ok out
  | out, c :: rest => do
    let i ← b64CharToIndex c
    b64ToUint modulus (out * 64 % modulus + i) rest

/-- `src/core/util.rs` 145-153. -/
def b64ToU32 (s : Str) : Res Nat := b64ToUint (2 ^ 32) 0 s
/-- `src/core/util.rs` 155-163. -/
def b64ToU64 (s : Str) : Res Nat := b64ToUint (2 ^ 64) 0 s

/-- `src/core/util.rs` 174-181 / 199-206: the digit loop. `drop` is the number of iterations in which the
floating-point `overflow` is still negative. `fuel = 11` covers every `u64` (`64^11 > 2^64`). -/
def digitLoop : Nat → Nat → Nat → Str → Res Str
  | 0, _, _, out => .ok out
  | fuel + 1, drop, x, out =>
    if x = 0 then .ok out
    else match drop with
      | 0 => do
        let c ← b64IndexToChar (x % 64)
        digitLoop fuel 0 (x / 64) (c :: out)
      | d + 1 => digitLoop fuel d (x / 64) out

/-- `src/core/util.rs` 165-188 `u32_to_b64` and 190-213 `u64_to_b64` (identical bodies). -/
def uintToB64 (E : Env) (n length : Nat) : Res Str :=
  if length = 0 then .ok []
  else do
    let out ← digitLoop 11 (E.drop n length) n []
    .ok (List.replicate (length - out.length) (ch 'A') ++ out)

/-- `src/core/util.rs` 215-243 `code_b2_to_b64`. `u32::from_be_bytes(b2[..n] ++ 0..) >> tbs`; for
`length ≤ 4` always `n ≤ 3`, for `length ≤ 8` always `n ≤ 6`, so the copies into 4/8 byte arrays fit. -/
def codeB2ToB64 (E : Env) (b2 : List UInt8) (length : Nat) : Res Str :=
  if length = 0 then .ok []
  else
    let n := (length + 1) * 3 / 4
    if b2.length < n then .err .matter
    else if length ≤ 4 then
      let i := beNat (b2.take n) * 256 ^ (4 - n)
      let tbs := 2 * (length % 4) + (4 - n) * 8
      uintToB64 E (i / 2 ^ tbs) length
    else if length ≤ 8 then
      let i := beNat (b2.take n) * 256 ^ (8 - n)
      let tbs := 2 * (length % 4) + (8 - n) * 8
      uintToB64 E (i / 2 ^ tbs) length
    else .err .matter

/-- `src/core/util.rs` 245-250 `code_b64_to_b2`. `8 - n` underflows (panic in debug, slice panic in
release) when `n > 8`. -/
def codeB64ToB2 (code : Str) : Res (List UInt8) := do
  let i ← b64ToU64 code
  let i := i * 2 ^ (2 * (code.length % 4)) % 2 ^ 64
  let n := (code.length + 1) * 3 / 4
  if 8 < n then .panic else .ok ((toBe 8 i).drop (8 - n))

/-- `src/core/util.rs` 266-279: 3 bytes to 4 sextets (masks and shifts written as division and remainder).
Also the per-chunk arithmetic of the `base64` crate. -/
def sextets : List UInt8 → List Nat
  | a :: b :: c :: rest =>
    let n := a.toNat * 65536 + b.toNat * 256 + c.toNat
    n / 262144 % 64 :: n / 4096 % 64 :: n / 64 % 64 :: n % 64 :: sextets rest
  | _ => []

/-- `src/core/util.rs` 252-282 `nab_sextets`. The input is always padded with 1 to 3 zero bytes. -/
def nabSextets (binary : List UInt8) (count : Nat) : Res (List Nat) :=
  let n := (count + 1) * 3 / 4
  if binary.length < n then .err .tooSmall
  else
    let padded := binary ++ List.replicate (3 - binary.length % 3) 0
    slice (sextets padded) 0 count

/-! ## The `base64` crate, `URL_SAFE` engine (padding on encode, canonical padding required on decode,
non-zero trailing bits refused) -/

/-- Alphabet character of a sextet, total version for the encoder of the `base64` crate. -/
def sextetChar (i : Nat) : UInt8 :=
  match b64IndexToChar i with
  | .ok c => c
  | _ => 0

/-- `base64::engine::general_purpose::URL_SAFE.encode`: RFC 4648 section 5 with `=` padding. -/
def b64Encode : List UInt8 → Str
  | [] => []
  | [a] =>
    let n := a.toNat * 65536
    [sextetChar (n / 262144 % 64), sextetChar (n / 4096 % 64), ch '=', ch '=']
  | [a, b] =>
    let n := a.toNat * 65536 + b.toNat * 256
    [sextetChar (n / 262144 % 64), sextetChar (n / 4096 % 64), sextetChar (n / 64 % 64), ch '=']
  | a :: b :: c :: rest =>
    let n := a.toNat * 65536 + b.toNat * 256 + c.toNat
    sextetChar (n / 262144 % 64) :: sextetChar (n / 4096 % 64) :: sextetChar (n / 64 % 64)
      :: sextetChar (n % 64) :: b64Encode rest

/-- `URL_SAFE.encode_slice(input, &mut vec![0; outLen])`: error when the output buffer is too small; the
part of the buffer that is not written stays zero. -/
def b64EncodeSlice (input : List UInt8) (outLen : Nat) : Res Str :=
  let e := b64Encode input
  if outLen < e.length then .err .encodeSlice
  else .ok (e ++ List.replicate (outLen - e.length) 0)

/-- Value of an alphabet byte for the decoder of the `base64` crate. -/
def sextetVal (c : UInt8) : Option Nat :=
  match b64CharToIndex c with
  | .ok i => some i
  | _ => none

/-- Three bytes of a 24-bit group. -/
def groupBytes (n : Nat) : List UInt8 :=
  [UInt8.ofNat (n / 65536), UInt8.ofNat (n / 256), UInt8.ofNat n]

/-- Decode a four character group without padding. -/
def decodeQuad (a b c d : UInt8) : Option (List UInt8) :=
  match sextetVal a, sextetVal b, sextetVal c, sextetVal d with
  | some a, some b, some c, some d => some (groupBytes (a * 262144 + b * 4096 + c * 64 + d))
  | _, _, _, _ => none

/-- Decode the last four character group, which may be `xx==` or `xxx=` with zero trailing bits. -/
def decodeLastQuad (a b c d : UInt8) : Option (List UInt8) :=
  if d = ch '=' then
    if c = ch '=' then
      match sextetVal a, sextetVal b with
      | some a, some b => if b % 16 = 0 then some [UInt8.ofNat (a * 4 + b / 16)] else none
      | _, _ => none
    else
      match sextetVal a, sextetVal b, sextetVal c with
      | some a, some b, some c =>
        if c % 4 = 0 then some [UInt8.ofNat (a * 4 + b / 16), UInt8.ofNat (b * 16 + c / 4)] else none
      | _, _, _ => none
  else decodeQuad a b c d

/-- Decoder as a partial function. -/
def b64DecodeOpt : Str → Option (List UInt8)
  | [] => some []
  | a :: b :: c :: d :: rest =>
    match rest with
    | [] => decodeLastQuad a b c d
    | _ :: _ =>
      match decodeQuad a b c d, b64DecodeOpt rest with
      | some x, some y => some (x ++ y)
      | _, _ => none
  | _ => none

/-- `URL_SAFE.decode_vec(s, &mut v)?`. -/
def b64Decode (s : Str) : Res (List UInt8) :=
  match b64DecodeOpt s with
  | some v => .ok v
  | none => .err .decode

end Cesride
