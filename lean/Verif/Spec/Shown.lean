import Verif.Spec.Prims

/-! # What the text of a Bexter shows of its raw bytes -/

namespace Cesride.Spec

/-- The part of the raw bytes that the text of a Bexter shows: the text has six bits per character, so when the number of bytes is no multiple of three, the
first four (two bytes too many) or two (one byte too many) bits of the first byte do not belong to it. -/
def shown : List UInt8 → List UInt8
  | [] => []
  | a :: rest => (if rest.length % 3 = 1 then a % 16 else if rest.length % 3 = 0 then a % 64 else a) :: rest

end Cesride.Spec
