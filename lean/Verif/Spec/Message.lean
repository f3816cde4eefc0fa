import Verif.Spec.Said

/-! # Specification vocabulary for messages -/

namespace Cesride.Spec

/-- The two lists have the same length and correspond entry by entry. -/
inductive Aligned {α β : Type} (R : α → β → Prop) : List α → List β → Prop
  | nil : Aligned R [] []
  | cons {a b as bs} : R a b → Aligned R as bs → Aligned R (a :: as) (b :: bs)

/-- Codes of verification keys. -/
def verferCodes : List Str := [lit "B", lit "D", lit "1AAA", lit "1AAB", lit "1AAI", lit "1AAJ"]

/-- Event types that establish keys: inception, rotation and their delegated forms. -/
def establishmentIlks : List Str := [lit "icp", lit "rot", lit "dip", lit "drt"]

end Cesride.Spec
