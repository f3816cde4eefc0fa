import Verif.Model.Base

/-!
# Independent specification of the CESR text/binary domains

Nothing here refers to the model of the code; only `Str`, `lit` (bytes of a literal) are shared.
-/

namespace Cesride.Spec

/-- RFC 4648 section 5 alphabet in index order. -/
def alphabet : Str := lit "ABCDEFGHIJKLMNOPQRSTUVWXYZabcdefghijklmnopqrstuvwxyz0123456789-_"

/-- A text that consists of Base64URL characters only (in particular no `=`). -/
def IsB64Text (s : Str) : Prop := ∀ c ∈ s, c ∈ alphabet

/-- The eight bits of a byte, most significant first. -/
def byteBits (b : UInt8) : List Nat :=
  [b.toNat / 128 % 2, b.toNat / 64 % 2, b.toNat / 32 % 2, b.toNat / 16 % 2,
   b.toNat / 8 % 2, b.toNat / 4 % 2, b.toNat / 2 % 2, b.toNat % 2]

/-- The six bits of a Base64URL character, most significant first. -/
def charBits (c : UInt8) : List Nat :=
  let v := alphabet.idxOf c
  [v / 32 % 2, v / 16 % 2, v / 8 % 2, v / 4 % 2, v / 2 % 2, v % 2]

/-- Bit string of a byte string. -/
def bytesBits (b : List UInt8) : List Nat := b.flatMap byteBits
/-- Bit string of a Base64URL text. -/
def textBits (s : Str) : List Nat := s.flatMap charBits

/-- `b` is the Base64URL decoding of `t`, without padding: same bits, alphabet characters only. -/
def IsDecoding (t : Str) (b : List UInt8) : Prop := IsB64Text t ∧ textBits t = bytesBits b

/-- Fixed-size primitive codes of this version of the library, with the number of raw bytes they carry. -/
def fixedCodes : List (Str × Nat) := [
  (lit "A", 32), (lit "B", 32), (lit "C", 32), (lit "D", 32), (lit "E", 32), (lit "F", 32), (lit "G", 32),
  (lit "H", 32), (lit "I", 32), (lit "J", 32), (lit "K", 56), (lit "L", 56), (lit "M", 2), (lit "N", 8),
  (lit "O", 32), (lit "P", 92), (lit "Q", 32),
  (lit "0A", 16), (lit "0B", 64), (lit "0C", 64), (lit "0D", 64), (lit "0E", 64), (lit "0F", 64), (lit "0G", 64),
  (lit "0H", 4), (lit "0I", 64),
  (lit "1AAA", 33), (lit "1AAB", 33), (lit "1AAC", 57), (lit "1AAD", 57), (lit "1AAE", 39), (lit "1AAF", 3),
  (lit "1AAG", 24), (lit "1AAH", 72), (lit "1AAI", 33), (lit "1AAJ", 33), (lit "2AAA", 2), (lit "3AAA", 1)]

/-- Variable-size codes: small (`4`,`5`,`6` + family) and large (`7`,`8`,`9` + `AA` + family), where the
family is `A` (Base64 text) or `B` (bytes) and the digit carries the lead size 0, 1, 2. -/
def varCode (large : Bool) (lead : Nat) (family : UInt8) : Str :=
  if large then (lit "789").getD lead 0 :: lit "AA" ++ [family] else (lit "456").getD lead 0 :: [family]

/-- `code` is a variable-size code of the library. -/
def IsVarCode (code : Str) : Prop :=
  ∃ large lead family, lead ≤ 2 ∧ (family = ch 'A' ∨ family = ch 'B') ∧ code = varCode large lead family

/-- `code` is a primitive code of the library. -/
def IsCode (code : Str) : Prop := (∃ n, (code, n) ∈ fixedCodes) ∨ IsVarCode code

end Cesride.Spec

namespace Cesride.Spec

/-- Big-endian base-64 number written by a Base64URL text. -/
def textNum (t : Str) : Nat := t.foldl (fun a c => a * 64 + alphabet.idxOf c) 0

/-- The raw sizes (in bytes) of the material the fixed-size codes are named after: 256-bit seeds, keys and digests,
448-bit seeds and X448 keys, 2/4/8/16 byte numbers, 64 byte signatures and 512-bit digests, 33 byte compressed
ECDSA keys, 57 byte Ed448 keys, 114 byte Ed448 signatures, 24 byte packed date-times,
sealed boxes of a 44 (24) character text: 44 + 48 (24 + 48) bytes. -/
def materialSizes : List (Str × Nat) := [
  (lit "A", 32), (lit "B", 32), (lit "C", 32), (lit "D", 32), (lit "E", 32), (lit "F", 32), (lit "G", 32),
  (lit "H", 32), (lit "I", 32), (lit "J", 32), (lit "K", 56), (lit "L", 56), (lit "M", 2), (lit "N", 8),
  (lit "O", 32), (lit "P", 44 + 48), (lit "Q", 32),
  (lit "0A", 16), (lit "0B", 64), (lit "0C", 64), (lit "0D", 64), (lit "0E", 64), (lit "0F", 64), (lit "0G", 64),
  (lit "0H", 4), (lit "0I", 64),
  (lit "1AAA", 33), (lit "1AAB", 33), (lit "1AAC", 57), (lit "1AAD", 57), (lit "1AAE", 114), (lit "1AAF", 3),
  (lit "1AAG", 32 * 3 / 4), (lit "1AAH", 24 + 48), (lit "1AAI", 33), (lit "1AAJ", 33)]

end Cesride.Spec
