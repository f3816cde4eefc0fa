import Verif.Spec.Version
import Verif.Spec.Data

/-! # Specification of self-addressing identifiers, independent of the code model -/

namespace Cesride.Spec

/-- `c` is the content of the map `o` that a SAID of `n` characters in the field `label` is computed over: the same entries in
the same order without the ignored ones, `n` dummy characters in the field `label` (appended when missing), and a version
string that differs from the one of `o` in nothing but its size. Without ignored fields that size is the number of bytes of the
content. -/
structure SaidContent (n : Nat) (label : Str) (ignore : List Str) (o c : List (Str × Value)) : Prop where
  keys : c.map Prod.fst = (o.map Prod.fst ++ if label ∈ o.map Prod.fst then [] else [label]).filter (fun k => k ∉ ignore)
  field : label ∉ ignore → c.lookup label = some (.str (List.replicate n (ch '#')))
  other : ∀ k, k ∉ ignore → k ≠ label → k ≠ lit "v" → c.lookup k = o.lookup k
  version : lit "v" ∉ ignore → ∀ x, o.lookup (lit "v") = some x → ∃ vs vs' ident m m', x = .str vs ∧ c.lookup (lit "v") = some (.str vs') ∧
    ident ∈ protocols ∧ VersionText vs ident 1 0 (lit "JSON") m ∧ VersionText vs' ident 1 0 (lit "JSON") m' ∧
    (ignore = [] → m' = (Value.obj c).toJson.length % 2 ^ 32)

/-- Two maps that a SAID in the field `label` does not tell apart: the same keys in the same order and the same values, except for
the field `label`, ignored fields and the size in the version string. -/
structure SameContent (label : Str) (ignore : List Str) (a b : List (Str × Value)) : Prop where
  keys : (a.map Prod.fst).filter (fun k => k ∉ label :: ignore) = (b.map Prod.fst).filter (fun k => k ∉ label :: ignore)
  other : ∀ k, k ∉ ignore → k ≠ label → k ≠ lit "v" → a.lookup k = b.lookup k
  version : lit "v" ∉ ignore → ∀ x, a.lookup (lit "v") = some x → ∃ vs vs' ident m m', x = .str vs ∧ b.lookup (lit "v") = some (.str vs') ∧
    VersionText vs ident 1 0 (lit "JSON") m ∧ VersionText vs' ident 1 0 (lit "JSON") m'

end Cesride.Spec
