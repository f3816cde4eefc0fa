import Verif.Spec.Sign

/-! # Specification: which argument of a constructor is used, and the classes of codes, independent of the code model -/

namespace Cesride.Spec

/-- An encoded primitive: text given as bytes, text, or binary. -/
inductive Input where
  | bytes (b : List UInt8)
  | text (t : Str)
  | binary (b : List UInt8)

/-- The input that counts when several are given: text bytes before text before binary. -/
def firstInput (qb64b : Option (List UInt8)) (qb64 : Option Str) (qb2 : Option (List UInt8)) : Option Input :=
  match qb64b, qb64, qb2 with
  | some b, _, _ => some (.bytes b)
  | none, some t, _ => some (.text t)
  | none, none, some b => some (.binary b)
  | none, none, none => none

/-- The codes of public keys that cannot be rotated: those of the three schemes and of Ed448. -/
def fixedKeyCodes : List Str := schemes.map Scheme.fixedKey ++ [lit "1AAC"]

end Cesride.Spec
