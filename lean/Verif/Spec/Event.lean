import Verif.Model.Value

/-! # Specification of inception events -/

namespace Cesride.Spec

/-- The entries of an inception event, in order: version, type, SAID, identifier, sequence number 0, signing threshold, keys, next threshold, digests of the next
keys, witness threshold, witnesses, configuration, data and, for a delegated identifier, the delegator. -/
def inceptionEntries (vs d i : Str) (kt : Value) (keys : List Str) (nt : Value) (ndigs : List Str) (bt : Value) (wits cnfg : List Str) (data : List Value)
    (delegator : Option Str) : List (Str × Value) :=
  [(lit "v", .str vs), (lit "t", .str (if delegator.isNone then lit "icp" else lit "dip")), (lit "d", .str d), (lit "i", .str i), (lit "s", .str (lit "0")),
    (lit "kt", kt), (lit "k", .arr (keys.map .str)), (lit "nt", nt), (lit "n", .arr (ndigs.map .str)), (lit "bt", bt), (lit "b", .arr (wits.map .str)),
    (lit "c", .arr (cnfg.map .str)), (lit "a", .arr data)] ++
  match delegator with
  | some x => [(lit "di", .str x)]
  | none => []

end Cesride.Spec
