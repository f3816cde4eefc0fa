import Verif.Spec.Prims

/-! # Specification of version strings, independent of the code model -/

namespace Cesride.Spec

/-- Upper-case ASCII letters. -/
def upperCase : Str := lit "ABCDEFGHIJKLMNOPQRSTUVWXYZ"

/-- The number written by lower-case hexadecimal digits. -/
def lowHexNum (s : Str) : Nat := s.foldl (fun a c => a * 16 + lowerHex.idxOf c) 0

/-- `s` consists of `width` lower-case hexadecimal digits that write `n`. -/
def HexField (s : Str) (width n : Nat) : Prop := s.length = width ∧ (∀ c ∈ s, c ∈ lowerHex) ∧ lowHexNum s = n

/-- A four-letter upper-case word. -/
def Word4 (s : Str) : Prop := s.length = 4 ∧ ∀ c ∈ s, c ∈ upperCase

/-- The layout `PPPPvvKKKKssssss_` of a version string: protocol, major and minor version (one hexadecimal digit each),
serialization kind, size (six hexadecimal digits), terminator. -/
def VersionText (vs ident : Str) (major minor : Nat) (kind : Str) (size : Nat) : Prop :=
  ∃ a b z, vs = ident ++ a ++ b ++ kind ++ z ++ lit "_" ∧ Word4 ident ∧ HexField a 1 major ∧ HexField b 1 minor ∧
    Word4 kind ∧ HexField z 6 size

/-- A text that has the layout of a version string, whatever its components. -/
def VersionLike (s : Str) : Prop := ∃ ident major minor kind size, VersionText s ident major minor kind size

/-- The protocols and the serialization kind of the library. -/
def protocols : List Str := [lit "KERI", lit "ACDC"]

/-- No version-like text occurs in `s`. -/
def NoVersionLike (s : Str) : Prop := ∀ pre w post, s = pre ++ w ++ post → ¬ VersionLike w

/-- `w` is the first version-like text in `s`: `s` is `pre`, `w`, `post`, and no version-like text starts earlier. -/
def FirstVersion (s pre w post : Str) : Prop :=
  s = pre ++ w ++ post ∧ VersionLike w ∧ ∀ pre' w' post', s = pre' ++ w' ++ post' → VersionLike w' → pre.length ≤ pre'.length

end Cesride.Spec

namespace Cesride.Spec

/-- The bytes announce a JSON message of protocol `ident`, version `major.minor` and `size` bytes: they are at least 29 bytes of
valid UTF-8, and the first version-like text in them starts within the first 12 bytes and says so. -/
def Announces (raw ident : Str) (major minor size : Nat) : Prop :=
  29 ≤ raw.length ∧ utf8Valid raw = true ∧
    ∃ pre w post, FirstVersion raw pre w post ∧ pre.length ≤ 12 ∧ VersionText w ident major minor (lit "JSON") size

end Cesride.Spec
