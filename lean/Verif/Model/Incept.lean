import Verif.Model.Prefixer
import Verif.Model.Signer
import Verif.Model.Native
import Verif.Model.Counter
import Verif.Model.Indexer

/-!
# Model of the event and message builders

`incept`, `ample` (`src/core/serder.rs` 571-797) and `receipt`, `messagize`, `Seal` (`src/core/salter.rs` 277-301, 369-453). They live in the test modules of
the crate, where the comment announces that they will be extracted; they are ordinary code over the public interface, and the only place in the crate where whole
events and messages are put together.
-/

namespace Cesride
open Common

/-- Sum of two `u128` values under the profile of `E`. -/
def Env.addU128 (E : Env) (a b : Nat) : Res Nat :=
  if a + b < 2 ^ 128 then .ok (a + b) else if E.overflowChecks then .panic else .ok ((a + b) % 2 ^ 128)

/-- Difference of two `u128` values under the profile of `E`. -/
def Env.subU128 (E : Env) (a b : Nat) : Res Nat :=
  if b ≤ a then .ok (a - b) else if E.overflowChecks then .panic else .ok (a + 2 ^ 128 - b)

namespace Builder

/-- `src/core/serder.rs` 760-795 `ample`: the default witness threshold. -/
def ample (E : Env) (n : Nat) (f : Option Nat) (weak : Option Bool) : Res Nat :=
  let weak := weak.getD true
  match f with
  | some f => do
    let s ← E.addU128 n f
    let s ← E.addU128 s 2
    let m1 := s / 2
    let d ← E.subU128 n f
    let m2 := if d > 0 then d else 0
    if m2 < m1 ∧ n > 0 then .err .value
    else if weak then .ok (min n (min m1 m2))
    else .ok (min n (max m1 m2))
  | none => do
    let d ← E.subU128 n 1
    let f1 := max 1 (max 0 d / 3)
    let e ← E.addU128 (max 0 d) 2
    let f2 := max 1 (e / 3)
    if weak then do
      let a ← E.addU128 n f1
      let a ← E.addU128 a 3
      let b ← E.addU128 n f2
      let b ← E.addU128 b 3
      .ok (min n (min (a / 2) (b / 2)))
    else do
      let a ← E.subU128 n f1
      let b ← E.addU128 n f1
      let b ← E.addU128 b 3
      .ok (min n (max 0 (max a (b / 2))))

/-- Rust `Vec::dedup`: of equal neighbours one is kept. -/
def dedupNeighbours : List Str → List Str
  | a :: b :: rest => if a = b then dedupNeighbours (b :: rest) else a :: dedupNeighbours (b :: rest)
  | l => l

/-- `src/core/serder.rs` 599-605 and 622-628: the threshold when none is given: half of the keys, rounded up, but at least `least`. -/
def halfOf (keys least : Nat) : Value := .int (max least ((keys + 1) / 2) : Nat)

/-- `src/core/serder.rs` 671-679 and 681-689: how a threshold is written in the event. -/
def shownThreshold (intive : Bool) (t : Tholder) : Res Value := do
  match ← t.num with
  | some n => if intive ∧ n < 2 ^ 32 - 1 then .ok (.int n) else t.sith
  | none => t.sith

/-- `src/core/serder.rs` 645-652: the witness threshold. -/
def toader (E : Env) (toad : Option Nat) (wits : List Str) : Res Matter :=
  match toad with
  | some toad => Number.new E (some toad) none none none none none none
  | none =>
    if wits = [] then Number.new E (some 0) none none none none none none
    else do
      let toad ← ample E wits.length none none
      Number.new E (some toad) none none none none none none

/-- `src/core/serder.rs` 654-666: the witness threshold must fit the witnesses. -/
def checkToad (wits : List Str) (toad : Nat) : Res Unit :=
  if wits ≠ [] then (if toad < 1 ∨ toad > wits.length then .err .value else .ok ())
  else if toad ≠ 0 then .err .value else .ok ()

/-- `src/core/serder.rs` 726-744: the prefix of the event. -/
def prefixerOf (E : Env) (H : Hash) (keys : List Str) (delpre code : Option Str) (ked : Value) : Res Matter :=
  match delpre, code, keys with
  | none, none, [key] => do
    let p ← Prefixer.new E H none none none none none (some key) none
    if p.digestive then .err .value else .ok p
  | _, _, _ => do
    let p ← Prefixer.new E H (some ked) none code none none none none
    if delpre.isSome ∧ p.digestive = false then .err .value else .ok p

/-- `src/core/serder.rs` 691-695: how the witness threshold is written. -/
def shownToad (intive : Bool) (toader : Matter) : Res Value := do
  let t ← Number.num toader
  if intive ∧ t < 2 ^ 32 - 1 then .ok (.int t)
  else do
    let h ← Number.numh toader
    .ok (.str h)

/-- `src/core/serder.rs` 697-716 and the label `di` of 718-720: the entries of the event, without SAID and prefix. -/
def draftEntries (vs s : Str) (kt : Value) (keys : List Str) (nt : Value) (ndigs : List Str) (bt : Value) (wits cnfg : List Str) (data : List Value)
    (delpre : Option Str) : Res Value :=
  let ilk := if delpre.isNone then lit "icp" else lit "dip"
  let ked := Native.datObject [(lit "v", .str vs), (lit "t", .str ilk), (lit "d", .str []), (lit "i", .str []), (lit "s", .str s),
    (lit "kt", kt), (lit "k", .arr (keys.map .str)), (lit "nt", nt), (lit "n", .arr (ndigs.map .str)), (lit "bt", bt),
    (lit "b", .arr (wits.map .str)), (lit "c", .arr (cnfg.map .str)), (lit "a", .arr data)]
  match delpre with
  | some delpre => ked.set (lit "di") (.str delpre)
  | none => .ok ked

/-- `src/core/serder.rs` 591-720: checks of thresholds and witnesses, and the event without SAID and prefix. -/
def draft (E : Env) (F : Str → Option Str) (keys : List Str) (sith : Option Value) (ndigs : List Str) (nsith : Option Value)
    (toad : Option Nat) (wits cnfg : List Str) (data : List Value) (version : Option Version) (kind : Option Str) (intive : Bool) (delpre : Option Str) :
    Res Value := do
  let vs ← versify none (some (version.getD currentVersion)) (some (kind.getD (lit "JSON"))) (some 0)
  let sner ← Number.new E (some 0) none none none none none none
  let tholder ← Tholder.new E F none none (some (sith.getD (halfOf keys.length 1)))
  let n ← tholder.num
  if n = some 0 then .err .value
  else if tholder.size > keys.length then .err .value
  else do
    let ntholder ← Tholder.new E F none none (some (nsith.getD (halfOf ndigs.length 0)))
    if ntholder.size > ndigs.length then .err .value
    else if wits.length ≠ (dedupNeighbours wits).length then .err .value
    else do
      let toader ← toader E toad wits
      let t ← Number.num toader
      checkToad wits t
      let kt ← shownThreshold intive tholder
      let nt ← shownThreshold intive ntholder
      let bt ← shownToad intive toader
      let s ← Number.numh sner
      draftEntries vs s kt keys nt ndigs bt wits cnfg data delpre

/-- `src/core/serder.rs` 718-724: the derivation code; a delegated identifier has the digest code `E` if none is given. -/
def codeOf (delpre code : Option Str) : Option Str := if delpre.isSome then some (code.getD (lit "E")) else code

/-- `src/core/serder.rs` 726-757: prefix and SAID. -/
def finish (E : Env) (F : Str → Option Str) (H : Hash) (keys : List Str) (delpre code : Option Str) (ked : Value) : Res Sadder := do
  let prefixer ← prefixerOf E H keys delpre code ked
  let pre ← prefixer.qb64 E
  let ked ← ked.set (lit "i") (.str pre)
  let ked ← (if prefixer.digestive then do
      let pre ← prefixer.qb64 E
      ked.set (lit "d") (.str pre)
    else do
      let (_, ked) ← Saider.saidify E H ked none none none none
      .ok ked : Res Value)
  Serder.new E F H none none none (some ked) none

/-- `src/core/serder.rs` 576-758 `incept`. -/
def incept (E : Env) (F : Str → Option Str) (H : Hash) (keys : List Str) (sith : Option Value) (ndigs : Option (List Str)) (nsith : Option Value)
    (toad : Option Nat) (wits cnfg : Option (List Str)) (data : Option (List Value)) (version : Option Version) (kind code : Option Str)
    (intive : Option Bool) (delpre : Option Str) : Res Sadder := do
  let ked ← draft E F keys sith (ndigs.getD []) nsith toad (wits.getD []) (cnfg.getD []) (data.getD []) version kind (intive.getD false) delpre
  finish E F H keys delpre (codeOf delpre code) ked

/-- `src/core/salter.rs` 428-452 `receipt`. -/
def receipt (E : Env) (F : Str → Option Str) (H : Hash) (pre : Str) (sn : Nat) (said : Str) (version : Option Version) (kind : Option Str) : Res Sadder := do
  let vs ← versify none (some (version.getD currentVersion)) (some (kind.getD (lit "JSON"))) (some 0)
  let sner ← Number.new E (some sn) none none none none none none
  let s ← Number.numh sner
  Serder.newWithKed E F H (Native.datObject [(lit "v", .str vs), (lit "t", .str (lit "rct")), (lit "d", .str said), (lit "i", .str pre), (lit "s", .str s)]) none none

/-- `src/core/salter.rs` 276-281 `Seal`. -/
structure Seal where
  i : Str
  s : Str
  d : Str
  last : Bool

/-- `src/core/salter.rs` 283-291: the sequence number of a seal as a primitive. -/
def Seal.number (E : Env) (x : Seal) : Res Str := do
  let m ← Seqner.new E none (some x.s) none none none none none
  m.qb64 E

/-- `Counter::new_with_code_and_count(code, count)?.qb64()?`. -/
def counterText (E : Env) (code : Str) (count : Nat) : Res Str := do
  let c ← Counter.new E (some count) none (some code) none none none
  c.qb64 E

/-- The loops of `src/core/salter.rs` 406-408 and 417-420: the texts of the signatures one after the other. -/
def sigerTexts (E : Env) : List Siger → Res Str
  | [] => .ok []
  | s :: rest => do
    let t ← s.indexer.qb64 E
    let ts ← sigerTexts E rest
    .ok (t ++ ts)

/-- `src/core/salter.rs` 384-399: the seal in front of the signatures. -/
def sealText (E : Env) : Option Seal → Res Str
  | none => .ok []
  | some x =>
    if x.last then do
      let c ← counterText E (lit "-H") 1
      .ok (c ++ x.i)
    else do
      let c ← counterText E (lit "-F") 1
      let s ← x.number E
      .ok (c ++ x.i ++ s ++ x.d)

/-- `src/core/salter.rs` 383-409: seal and controller signatures. -/
def controllerText (E : Env) (sealed : Option Seal) : Option (List Siger) → Res Str
  | none => .ok []
  | some sigers => do
    let s ← sealText E sealed
    let c ← counterText E (lit "-A") (sigers.length % 2 ^ 32)
    let ts ← sigerTexts E sigers
    .ok (s ++ c ++ ts)

/-- `src/core/salter.rs` 411-421: witness signatures. -/
def witnessText (E : Env) : Option (List Siger) → Res Str
  | none => .ok []
  | some wigers => do
    let c ← counterText E (lit "-B") (wigers.length % 2 ^ 32)
    let ts ← sigerTexts E wigers
    .ok (c ++ ts)

/-- `src/core/salter.rs` 369-426 `messagize`. `cigars` is only asked for its presence. -/
def messagize (E : Env) (serder : Sadder) (sigers : Option (List Siger)) (sealed : Option Seal) (wigers : Option (List Siger))
    (cigars : Option (List Cigar)) : Res Str := do
  let message ← fromUtf8 serder.raw
  if sigers.isNone ∧ wigers.isNone ∧ cigars.isNone then .err .value
  else do
    let a ← controllerText E sealed sigers
    let b ← witnessText E wigers
    .ok (message ++ (a ++ b))

end Builder
end Cesride
