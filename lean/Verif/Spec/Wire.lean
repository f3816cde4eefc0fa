import Verif.Spec.Cesr
import Verif.Spec.Indexed

/-! # Specification of the CESR wire format, as bits

A primitive on the wire is its head (code and, where the code has them, size or index digits), as few zero bits as align the
whole to 24 bits, and the raw bytes. -/

namespace Cesride.Spec

/-- `t` is the wire text of raw material under a head. -/
def IsWire (head : Str) (raw : List UInt8) (t : Str) : Prop :=
  IsB64Text t ∧ t.length % 4 = 0 ∧
    ∃ zeros < 24, textBits t = textBits head ++ List.replicate zeros 0 ++ bytesBits raw

/-- `head` is the head of a primitive: the code of a fixed-size code; code and size digits of a variable-size code (two digits, or
four in the large family). -/
def IsHead (code : Str) (size : Nat) (head : Str) : Prop :=
  (∃ n, (code, n) ∈ fixedCodes ∧ size = 0 ∧ head = code) ∨
  (∃ large lead f digits, lead ≤ 2 ∧ (f = ch 'A' ∨ f = ch 'B') ∧ code = varCode large lead f ∧ head = code ++ digits ∧
    IsB64Text digits ∧ digits.length = (if large then 4 else 2) ∧ textNum digits = size)

/-- The number of raw bytes that code and size promise. -/
def RawSize (code : Str) (size n : Nat) : Prop :=
  (code, n) ∈ fixedCodes ∨ (∃ large lead f, lead ≤ 2 ∧ (f = ch 'A' ∨ f = ch 'B') ∧ code = varCode large lead f ∧ n + lead = 3 * size)

/-- `head` is the head of an indexed signature: code, digits of the index, digits of the other index if the code has them. -/
def IsIndexedHead (c : IdxCode) (index ondex : Nat) (head : Str) : Prop :=
  ∃ d1 d2, head = c.code ++ d1 ++ d2 ∧ IsB64Text d1 ∧ d1.length = c.digits ∧ textNum d1 = index ∧
    IsB64Text d2 ∧ d2.length = (if c.separate then c.digits else 0) ∧ (c.separate = true → textNum d2 = ondex)

end Cesride.Spec

namespace Cesride.Spec

/-- Byte `k` of `s` is inside a multi-byte UTF-8 character (it is a continuation byte). -/
def MidChar (s : Str) (k : Nat) : Prop := ∃ b, s[k]? = some b ∧ 128 ≤ b.toNat ∧ b.toNat < 192

/-- How many characters a code has that starts with this character: 1 for letters, 2 for `0`, `4`, `5`, `6`, 4 for the other digits. -/
def codeLength (c : UInt8) : Option Nat :=
  if (ch 'A' ≤ c ∧ c ≤ ch 'Z') ∨ (ch 'a' ≤ c ∧ c ≤ ch 'z') then some 1
  else if c ∈ lit "0456" then some 2
  else if c ∈ lit "123789" then some 4
  else none

/-- The number of characters of a primitive with a head of `h` characters and `n` raw bytes: 24-bit aligned. -/
def wireLength (h n : Nat) : Nat := (6 * h + 8 * n + 23) / 24 * 4

/-- The offsets at which reading a primitive cuts the text: after the code, after the size digits, after the primitive. -/
def CutPoint (s : Str) (k : Nat) : Prop :=
  (∃ c rest, s = c :: rest ∧ codeLength c = some k) ∨
  (∃ large lead f, lead ≤ 2 ∧ (f = ch 'A' ∨ f = ch 'B') ∧ varCode large lead f <+: s ∧ k = if large then 8 else 4) ∨
  (∃ code size head n, IsHead code size head ∧ RawSize code size n ∧ head <+: s ∧ k = wireLength head.length n)

end Cesride.Spec
