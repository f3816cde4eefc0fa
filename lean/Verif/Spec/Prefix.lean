import Verif.Spec.Message

/-! # Specification of identifier prefixes, independent of the code model -/

namespace Cesride.Spec

/-- Codes of keys that cannot be rotated. -/
def nontransferableKeys : List Str := [lit "B", lit "1AAA", lit "1AAI"]

/-- Codes of keys that can be rotated. -/
def transferableKeys : List Str := [lit "D", lit "1AAB", lit "1AAJ"]

/-- The nine digest codes. -/
def digestPrefixes : List Str := [lit "E", lit "F", lit "G", lit "H", lit "I", lit "0D", lit "0E", lit "0F", lit "0G"]

/-- The event `ked` is the inception event with the entries `o`: its type is `icp`, `dip` or `vcp`. -/
def Inception (ked : Value) (o : List (Str × Value)) : Prop :=
  ked = .obj o ∧ ∃ ilk, o.lookup (lit "t") = some (.str ilk) ∧ ilk ∈ [lit "icp", lit "dip", lit "vcp"]

/-- `c` is the content of the event `o` that a digest prefix of `n` characters is computed over: the same entries in the same order,
`n` dummy characters in the fields `i` and `d` (appended when missing), and a version string that differs from the one of `o` in nothing
but its size, which is the number of bytes of the content. -/
structure PrefixContent (n : Nat) (o c : List (Str × Value)) : Prop where
  keys : c.map Prod.fst = o.map Prod.fst ++ (if lit "i" ∈ o.map Prod.fst then [] else [lit "i"]) ++ (if lit "d" ∈ o.map Prod.fst then [] else [lit "d"])
  pre : c.lookup (lit "i") = some (.str (List.replicate n (ch '#')))
  said : c.lookup (lit "d") = some (.str (List.replicate n (ch '#')))
  other : ∀ k, k ≠ lit "i" → k ≠ lit "d" → k ≠ lit "v" → c.lookup k = o.lookup k
  version : ∃ vs vs' ident m, o.lookup (lit "v") = some (.str vs) ∧ c.lookup (lit "v") = some (.str vs') ∧ ident ∈ protocols ∧
    VersionText vs ident 1 0 (lit "JSON") m ∧ VersionText vs' ident 1 0 (lit "JSON") ((Value.obj c).toJson.length % 2 ^ 32)

end Cesride.Spec
