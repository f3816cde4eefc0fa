import Verif.Spec.Indexed

/-! # Specification of the signature schemes and of the codes of the typed primitives, independent of the code model -/

namespace Cesride.Spec

/-- A signature scheme: the codes of its private seed, of its public key (one that can be rotated and one that cannot), of its signature, and
its indexed signature codes. -/
structure Scheme where
  seed : Str
  key : Str
  fixedKey : Str
  sig : Str
  indexed : List Str

/-- Ed25519, ECDSA over secp256k1, ECDSA over secp256r1. -/
def schemes : List Scheme := [
  ⟨lit "A", lit "D", lit "B", lit "0B", [lit "A", lit "B", lit "2A", lit "2B"]⟩,
  ⟨lit "J", lit "1AAB", lit "1AAA", lit "0C", [lit "C", lit "D", lit "2C", lit "2D"]⟩,
  ⟨lit "Q", lit "1AAJ", lit "1AAI", lit "0I", [lit "E", lit "F", lit "2E", lit "2F"]⟩]

/-- The code `c` can carry a signature with index `i` and other index `o`, for the current key list only or for both key lists. -/
def Carries (c : IdxCode) (only : Bool) (i o : Nat) : Prop :=
  c.current = only ∧ i < 64 ^ c.digits ∧ (only = false → if c.separate then o < 64 ^ c.digits else o = i)

/-- Number of characters of an indexed signature: the code, its index fields, and 64 bytes of signature in Base64. -/
def idxChars (c : IdxCode) : Nat := c.code.length + (if c.separate then 2 * c.digits else c.digits) + (c.raw * 4 + 2) / 3

namespace Typed

/-! The codes of the typed primitives. -/

def keyCodes : List Str := [lit "B", lit "D", lit "1AAA", lit "1AAB", lit "1AAI", lit "1AAJ"]
def digestCodes : List Str := [lit "E", lit "F", lit "G", lit "H", lit "I", lit "0D", lit "0E", lit "0F", lit "0G"]
def sigCodes : List Str := [lit "0B", lit "0C", lit "0I"]
def indexedSigCodes : List Str :=
  [lit "A", lit "B", lit "C", lit "D", lit "E", lit "F", lit "2A", lit "2B", lit "2C", lit "2D", lit "2E", lit "2F"]
def seedCodes : List Str := [lit "A", lit "J", lit "Q"]
def numberCodes : List Str := [lit "M", lit "0H", lit "N", lit "0A"]
def seqnerCodes : List Str := [lit "0A"]
def saltCodes : List Str := [lit "0A"]
def dateCodes : List Str := [lit "1AAG"]
def textCodes : List Str := [lit "4A", lit "5A", lit "6A", lit "7AAA", lit "8AAA", lit "9AAA"]
def prefixCodes : List Str := keyCodes ++ digestCodes

end Typed

end Cesride.Spec
