import Verif.Model.Base

/-! # What a message may show of the material it is about -/

namespace Cesride
namespace Spec

/-- The leading characters of a text that make up its code, by its first character: letters are codes of one character, `0` starts codes of two, `1` to `3`
codes of four; `4` to `6` start codes of two and `7` to `9` codes of four characters, and as many characters for the size follow. Anything else is
no code: at most one character, which has up to four bytes, is shown. -/
def codeChars : Str → Nat
  | [] => 0
  | c :: _ =>
    if (ch 'A' ≤ c ∧ c ≤ ch 'Z') ∨ (ch 'a' ≤ c ∧ c ≤ ch 'z') then 1
    else if c = ch '0' then 2
    else if ch '7' ≤ c ∧ c ≤ ch '9' then 8
    else 4

/-- The same for binary material, in bytes; the code starts with the upper six bits of the first byte. -/
def codeBytes : List UInt8 → Nat
  | [] => 0
  | b :: _ =>
    if b.toNat / 4 ≤ 51 then 1
    else if b.toNat / 4 = 52 then 2
    else if 59 ≤ b.toNat / 4 ∧ b.toNat / 4 ≤ 61 then 6
    else 3

/-- The arguments of a constructor: code, raw material, qualified text as bytes, qualified text, qualified binary. -/
structure Given where
  code : Option Str
  raw : Option (List UInt8)
  qb64b : Option (List UInt8)
  qb64 : Option Str
  qb2 : Option (List UInt8)

/-- All that is public about the arguments: the code, the lengths, and the code a text or binary starts with. -/
def Given.outline (g : Given) : Option Str × Option Nat × Option (Nat × Str) × Option (Nat × Str) × Option (Nat × List UInt8) :=
  (g.code, g.raw.map List.length, g.qb64b.map fun s => (s.length, s.take (codeChars s)), g.qb64.map fun s => (s.length, s.take (codeChars s)),
    g.qb2.map fun b => (b.length, b.take (codeBytes b)))

end Spec
end Cesride
