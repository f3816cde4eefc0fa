import Mathlib.Data.List.Basic

/-! # Unicode text as bytes -/

namespace Cesride.Spec

/-- The UTF-8 bytes of a Unicode text: those of its characters, one after the other. -/
def textBytes (s : String) : List UInt8 := s.toList.flatMap String.utf8EncodeChar

end Cesride.Spec
