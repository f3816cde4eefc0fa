import Verif.Spec.Wire
import Verif.Spec.Counted

/-! # Specification of where the parsers of indexed signatures and counters cut text -/

namespace Cesride.Spec

/-- Head of an indexed signature code: its text, the digits of the index, the digits of the other index, whether it is for the current key
list only, the bytes after the head (`none`: three for each unit of the index). -/
structure IdxHead where
  code : Str
  digits : Nat
  other : Nat
  current : Bool
  bytes : Option Nat
  deriving DecidableEq

/-- The sixteen signature codes and the three test codes. -/
def idxHeads : List IdxHead :=
  idxCodes.map (fun c => ⟨c.code, c.digits, if c.separate then c.digits else 0, c.current, some c.raw⟩) ++
  [⟨lit "0z", 2, 0, false, none⟩, ⟨lit "1z", 1, 1, false, some 54⟩, ⟨lit "4z", 3, 3, false, some 54⟩]

/-- How many characters an indexed code has that starts with this character: 1 for letters, 2 for `0` to `4`. -/
def idxCodeLength (c : UInt8) : Option Nat :=
  if (ch 'A' ≤ c ∧ c ≤ ch 'Z') ∨ (ch 'a' ≤ c ∧ c ≤ ch 'z') then some 1
  else if c ∈ lit "01234" then some 2
  else none

/-- The offsets at which reading an indexed signature cuts the text: after the code, after the index, after the other index, after the
signature. -/
def IdxCutPoint (s : Str) (k : Nat) : Prop :=
  (∃ c rest, s = c :: rest ∧ idxCodeLength c = some k) ∨
  (∃ h ∈ idxHeads, h.code <+: s ∧ h.code.length + h.digits + h.other ≤ s.length ∧ k = h.code.length + h.digits) ∨
  (∃ h ∈ idxHeads, ∃ d1, h.code ++ d1 <+: s ∧ d1.length = h.digits ∧ IsB64Text d1 ∧ k = h.code.length + h.digits + h.other) ∨
  (∃ h ∈ idxHeads, ∃ d1 d2, h.code ++ d1 ++ d2 <+: s ∧ d1.length = h.digits ∧ IsB64Text d1 ∧ d2.length = h.other ∧ IsB64Text d2 ∧
    (h.current = true → textNum d2 = 0) ∧ k = wireLength (h.code.length + h.digits + h.other) (h.bytes.getD (3 * textNum d1)))

/-- The offsets at which reading a counter cuts the text: after two characters, after the code, after the count. -/
def CounterCutPoint (s : Str) (k : Nat) : Prop :=
  k = 2 ∨ (lit "-0" <+: s ∧ k = 3) ∨ (lit "--" <+: s ∧ k = 5) ∨
  (∃ code digits, (code, digits) ∈ counterCodes ∧ code <+: s ∧ k = code.length + digits)

end Cesride.Spec
