import Verif.Spec.Cuts

/-! # Specification of what the start of a stream shows, independent of the code model -/

namespace Cesride.Spec

/-- A byte string shows a text: it starts with the bits of its characters. -/
def Shows (b : List UInt8) (t : Str) : Prop := IsB64Text t ∧ textBits t <+: bytesBits b

/-- The first two characters of the counter codes, and how many characters the codes have that start with them. -/
def counterHeads : List (Str × Nat) := [
  (lit "-A", 2), (lit "-B", 2), (lit "-C", 2), (lit "-D", 2), (lit "-E", 2), (lit "-F", 2), (lit "-G", 2), (lit "-H", 2), (lit "-I", 2), (lit "-J", 2), (lit "-K", 2), (lit "-L", 2), (lit "-V", 2),
  (lit "-0", 3), (lit "--", 5)]

end Cesride.Spec

namespace Cesride.Spec

/-- What a reader of texts says of their start: `len` is the number of characters of a code that starts with a character, `late` are the errors it has once it has found a code. -/
def TextStart {α : Type} (read : Str → Res α) (len : UInt8 → Option Nat) (isCode : Str → Prop) (late : List Err) : Prop :=
  ∀ s : Str, (read s = .err .emptyMaterial ↔ s = []) ∧
    (read s = .err .unexpectedCode ↔ lit "-" <+: s ∨ lit "_" <+: s) ∧
    (read s = .err .unknownHardage ↔ ∃ c, [c] <+: s ∧ c ∉ lit "-_" ∧ len c = none) ∧
    (read s = .err .unknownSizage ↔ ∃ c t, c :: t <+: s ∧ len c = some (t.length + 1) ∧ ¬ MidChar s (t.length + 1) ∧ ¬ isCode (c :: t)) ∧
    ∀ e, read s = .err e → e ∈ [.emptyMaterial, .unexpectedCode, .unknownHardage, .unknownSizage] ++ late

/-- What a reader of byte strings says of their start. -/
def BinaryStart {α : Type} (read : List UInt8 → Res α) (len : UInt8 → Option Nat) (isCode : Str → Prop) (late : List Err) : Prop :=
  ∀ b : List UInt8, (read b = .err .emptyMaterial ↔ b = []) ∧
    (read b = .err .unexpectedCode ↔ Shows b (lit "-") ∨ Shows b (lit "_")) ∧
    (read b = .err .unknownBardage ↔ ∃ c, Shows b [c] ∧ c ∉ lit "-_" ∧ len c = none) ∧
    (read b = .err .unknownSizage ↔ ∃ c t, Shows b (c :: t) ∧ len c = some (t.length + 1) ∧ ¬ isCode (c :: t)) ∧
    ∀ e, read b = .err e → e ∈ [.emptyMaterial, .unexpectedCode, .unknownBardage, .unknownSizage] ++ late

end Cesride.Spec
