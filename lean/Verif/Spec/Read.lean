import Verif.Spec.Wire

/-! # Specification of what the text parsers accept: the wire format, and its padded variant -/

namespace Cesride.Spec

/-- `t` is the text of raw material under a head in which the last `pads` characters are `=` and stand for as many missing raw bytes:
head, zero bits, raw and two zero bits for each missing byte fill the other characters. With `pads = 0` this is `IsWire`. -/
def IsPaddedWire (head : Str) (raw : List UInt8) (pads : Nat) (t : Str) : Prop :=
  t.length % 4 = 0 ∧ ∃ body, t = body ++ List.replicate pads (ch '=') ∧ IsB64Text body ∧
    ∃ zeros < 24, textBits body = textBits head ++ List.replicate zeros 0 ++ bytesBits raw ++ List.replicate (2 * pads) 0

/-- The other index that is reported for a head that was read: 0 for a current-only code (whose digits for it, if any, must be zero), the
number in its own digits, or the index where the code has no digits for it. -/
def OndexRead (c : IdxCode) (index ondex : Nat) : Prop :=
  if c.current then ondex = 0 else (c.separate = false → ondex = index)

end Cesride.Spec
