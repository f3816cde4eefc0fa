import Verif.Model.Saider
import Verif.Model.Tholder

/-! # Model of `src/core/sadder.rs`, `src/core/serder.rs`, `src/core/creder.rs` and the constructor of `src/core/verfer.rs` -/

namespace Cesride

namespace Verfer

/-- `src/core/verfer.rs` 18-35 `validate_code`: Ed25519N, Ed25519, ECDSA_256k1N, ECDSA_256k1, ECDSA_256r1N, ECDSA_256r1
(`src/core/matter/tables.rs` 104-143). -/
def validateCode (code : Str) : Res Unit :=
  if [lit "B", lit "D", lit "1AAA", lit "1AAB", lit "1AAI", lit "1AAJ"].contains code then .ok () else .err .unexpectedCode

/-- `src/core/verfer.rs` 38-49 `new`. -/
def new (E : Env) (code : Option Str) (raw : Option (List UInt8)) (qb64b : Option (List UInt8)) (qb64 : Option Str) (qb2 : Option (List UInt8)) :
    Res Matter := do
  let code := code.getD (lit "B")
  let verfer ← Matter.new E (some code) raw qb64b qb64 qb2
  validateCode verfer.code
  .ok verfer

end Verfer

/-- The state of a `Sadder` implementor (`src/core/serder.rs` 16-26, `src/core/creder.rs` 10-20). -/
structure Sadder where
  code : Str
  raw : List UInt8
  ked : Value
  ident : Str
  kind : Str
  size : Nat
  version : Common.Version
  saider : Matter

namespace Sadder
open Common

/-- `src/core/sadder.rs` 27-46 `inhale`. -/
def inhale (F : Str → Option Str) (raw : List UInt8) : Res (Value × Versioned) := do
  let result ← sniff raw
  if result.version ≠ currentVersion then .err .value
  else do
    let ked ← loads F raw (some result.size) (some result.kind)
    .ok (ked, result)

/-- `src/core/sadder.rs` 109-119, 139-149, 169-179: the SAID object for the `d` field. -/
def saiderOf (E : Env) (H : Hash) (ked : Value) : Res Matter := do
  let d ← ked.index (lit "d")
  let t ← d.toStr
  Saider.new E H none none none none none none none (some t) none

/-- `src/core/sadder.rs` 109-128, 139-158, 169-188: set the SAID object and compare the codes. The state is left as it is when
the SAID object cannot be built, and has the new SAID object when the codes differ. -/
def setSaider (E : Env) (H : Hash) (s : Sadder) (ked : Value) : Sadder × Res Unit :=
  match saiderOf E H ked with
  | .ok saider => ({ s with saider := saider }, if s.code ≠ saider.code then .err .validation else .ok ())
  | .err e => (s, .err e)
  | .panic => (s, .panic)

/-- `src/core/sadder.rs` 100-128 `populate_from_raw`: the object afterwards and the outcome. -/
def populateFromRaw (E : Env) (F : Str → Option Str) (H : Hash) (s : Sadder) (raw : List UInt8) : Sadder × Res Unit :=
  match inhale F raw with
  | .err e => (s, .err e)
  | .panic => (s, .panic)
  | .ok (ked, result) =>
    match slice raw 0 result.size with
    | .err e => (s, .err e)
    | .panic => (s, .panic)
    | .ok raw =>
      setSaider E H { s with raw := raw, ked := ked, ident := result.ident, kind := result.kind, size := result.size, version := result.version } ked

/-- `src/core/sadder.rs` 130-158 `populate_from_ked`, with `exhale` 48-57. `raw.len() as u32` wraps. -/
def populateFromKed (E : Env) (H : Hash) (s : Sadder) (ked : Value) (kind : Option Str) : Sadder × Res Unit :=
  match sizeify ked kind with
  | .err e => (s, .err e)
  | .panic => (s, .panic)
  | .ok r =>
    setSaider E H { s with raw := r.raw, ked := r.ked, ident := r.ident, kind := r.kind, size := r.raw.length % 2 ^ 32, version := r.version } r.ked

/-- `src/core/sadder.rs` 160-188 `populate_from_kind_and_self`. -/
def populateFromKindAndSelf (E : Env) (H : Hash) (s : Sadder) (kind : Str) : Sadder × Res Unit :=
  populateFromKed E H s s.ked (some kind)

/-- `src/core/sadder.rs` 78-98 `new`. `dflt` is `Self::default()`. -/
def new (E : Env) (F : Str → Option Str) (H : Hash) (dflt : Sadder) (code : Option Str) (raw : Option (List UInt8)) (kind : Option Str)
    (ked : Option Value) (sad : Option Sadder) : Res Sadder :=
  let sadder := { dflt with code := code.getD (lit "E") }
  match raw with
  | some raw => do
    let (s, r) := populateFromRaw E F H sadder raw
    let _ ← r
    .ok s
  | none =>
    match ked with
    | some ked => do
      let (s, r) := populateFromKed E H sadder ked kind
      let _ ← r
      .ok s
    | none =>
      match sad with
      | some sad => .ok sad
      | none => .err .value

/-- `src/core/sadder.rs` 190-192 `said`. -/
def said (E : Env) (s : Sadder) : Res Str := s.saider.qb64 E

end Sadder

namespace Serder
open Common

/-- `src/core/serder.rs` 196-207 `default`. `Saider::default` is `src/core/saider.rs` 14-18. -/
def default : Sadder :=
  { code := lit "E", raw := [], ked := .obj [], ident := lit "KERI", kind := lit "JSON", size := 0, version := currentVersion,
    saider := { code := lit "E", size := 0, raw := [] } }

/-- `src/core/serder.rs` 28-34 `validate_ident`. -/
def validateIdent (ident : Str) : Res Unit := if ident ≠ lit "KERI" then .err .validation else .ok ()

/-- `src/core/serder.rs` 37-49 `new`. -/
def new (E : Env) (F : Str → Option Str) (H : Hash) (code : Option Str) (raw : Option (List UInt8)) (kind : Option Str) (ked : Option Value)
    (sad : Option Sadder) : Res Sadder := do
  let code := code.getD (lit "E")
  let serder ← Sadder.new E F H default (some code) raw kind ked sad
  validateIdent serder.ident
  .ok serder

/-- `src/core/serder.rs` 51-53 `new_with_ked`. -/
def newWithKed (E : Env) (F : Str → Option Str) (H : Hash) (ked : Value) (code kind : Option Str) : Res Sadder := new E F H code none kind (some ked) none
/-- `src/core/serder.rs` 55-57 `new_with_raw`. -/
def newWithRaw (E : Env) (F : Str → Option Str) (H : Hash) (raw : List UInt8) : Res Sadder := new E F H none (some raw) none none none

/-- A loop that parses a list of texts one after the other (`src/core/serder.rs` 67-70, 84-87, 99-101). -/
def parseAll (f : Str → Res Matter) : List Value → Res (List Matter)
  | [] => .ok []
  | v :: rest => do
    let t ← v.toStr
    let m ← f t
    let ms ← parseAll f rest
    .ok (m :: ms)

/-- `src/core/serder.rs` 59-74 `verfers`. -/
def verfers (E : Env) (s : Sadder) : Res (List Matter) := do
  let map ← s.ked.toMap
  if Value.hasKey map (lit "k") then do
    let v ← s.ked.index (lit "k")
    match v.toVec with
    | .ok keys => parseAll (fun t => Verfer.new E none none none (some t) none) keys
    | .err _ => .ok []
    | .panic => .panic
  else .ok []

/-- `src/core/serder.rs` 76-91 `digers`. -/
def digers (E : Env) (H : Hash) (s : Sadder) : Res (List Matter) := do
  let map ← s.ked.toMap
  if Value.hasKey map (lit "n") then do
    let v ← s.ked.index (lit "n")
    match v.toVec with
    | .ok keys => parseAll (fun t => Diger.new E H none none none none (some t) none) keys
    | .err _ => .ok []
    | .panic => .panic
  else .ok []

/-- `src/core/serder.rs` 93-105 `werfers`. -/
def werfers (E : Env) (s : Sadder) : Res (List Matter) := do
  let map ← s.ked.toMap
  if Value.hasKey map (lit "b") then do
    let v ← s.ked.index (lit "b")
    let wits ← v.toVec
    parseAll (fun t => Verfer.new E none none none (some t) none) wits
  else .ok []

/-- `src/core/serder.rs` 107-118 `tholder`, 120-131 `ntholder` (`label` is `kt`, `nt`). -/
def tholderAt (label : Str) (E : Env) (F : Str → Option Str) (s : Sadder) : Res (Option Tholder) := do
  let map ← s.ked.toMap
  if Value.hasKey map label then do
    let v ← s.ked.index label
    let t ← Tholder.new E F none none (some v)
    .ok (some t)
  else .ok none

/-- `src/core/serder.rs` 107-118 `tholder`. -/
def tholder (E : Env) (F : Str → Option Str) (s : Sadder) : Res (Option Tholder) := tholderAt (lit "kt") E F s
/-- `src/core/serder.rs` 120-131 `ntholder`. -/
def ntholder (E : Env) (F : Str → Option Str) (s : Sadder) : Res (Option Tholder) := tholderAt (lit "nt") E F s

/-- `src/core/serder.rs` 133-137 `sner`. -/
def sner (E : Env) (s : Sadder) : Res Matter := do
  let v ← s.ked.index (lit "s")
  let t ← v.toStr
  Number.new E none (some t) none none none none none

/-- `src/core/serder.rs` 139-141 `sn`. -/
def sn (E : Env) (s : Sadder) : Res Nat := do
  let m ← sner E s
  Number.num m

/-- `src/core/serder.rs` 143-162 `fner`: the text is read as `qb64`. -/
def fner (E : Env) (s : Sadder) : Res (Option Matter) := do
  let map ← s.ked.toMap
  if Value.hasKey map (lit "f") then do
    let v ← s.ked.index (lit "f")
    let t ← v.toStr
    let m ← Number.new E none none none none none (some t) none
    .ok (some m)
  else .ok none

/-- `src/core/serder.rs` 164-172 `_fn`. -/
def fn (E : Env) (s : Sadder) : Res Nat := do
  let m ← fner E s
  match m with
  | some m => Number.num m
  | none => .err .validation

/-- `src/core/serder.rs` 174-177 `pre`. -/
def pre (s : Sadder) : Res Str := do
  let v ← s.ked.index (lit "i")
  v.toStr

/-- `src/core/serder.rs` 183-190 `est` (`src/core/common.rs` 50-70 `Ilkage`). -/
def est (s : Sadder) : Res Bool := do
  let v ← s.ked.index (lit "t")
  let ilk ← v.toStr
  .ok ([lit "icp", lit "rot", lit "dip", lit "drt"].contains ilk)

end Serder

namespace Creder
open Common

/-- `src/core/creder.rs` 91-102 `default`. -/
def default : Sadder :=
  { code := lit "E", raw := [], ked := .obj [], ident := lit "ACDC", kind := lit "JSON", size := 0, version := currentVersion,
    saider := { code := lit "E", size := 0, raw := [] } }

/-- `src/core/creder.rs` 22-28 `validate_ident`. -/
def validateIdent (ident : Str) : Res Unit := if ident ≠ lit "ACDC" then .err .value else .ok ()

/-- `src/core/creder.rs` 31-43 `new`. -/
def new (E : Env) (F : Str → Option Str) (H : Hash) (code : Option Str) (raw : Option (List UInt8)) (kind : Option Str) (ked : Option Value)
    (sad : Option Sadder) : Res Sadder := do
  let code := code.getD (lit "E")
  let creder ← Sadder.new E F H default (some code) raw kind ked sad
  validateIdent creder.ident
  .ok creder

/-- `src/core/creder.rs` 45-47 `new_with_ked`. -/
def newWithKed (E : Env) (F : Str → Option Str) (H : Hash) (ked : Value) (code kind : Option Str) : Res Sadder := new E F H code none kind (some ked) none
/-- `src/core/creder.rs` 49-51 `new_with_raw`. -/
def newWithRaw (E : Env) (F : Str → Option Str) (H : Hash) (raw : List UInt8) : Res Sadder := new E F H none (some raw) none none none

/-- `src/core/creder.rs` 53-55 `crd`. -/
def crd (s : Sadder) : Value := s.ked
/-- `src/core/creder.rs` 57-59 `issuer`. -/
def issuer (s : Sadder) : Res Str := do
  let v ← s.ked.index (lit "i")
  v.toStr
/-- `src/core/creder.rs` 61-63 `schema`. -/
def schema (s : Sadder) : Res Str := do
  let v ← s.ked.index (lit "s")
  v.toStr
/-- `src/core/creder.rs` 65-67 `subject`. -/
def subject (s : Sadder) : Res Value := s.ked.index (lit "a")
/-- `src/core/creder.rs` 69-77 `status`. -/
def status (s : Sadder) : Res (Option Str) := do
  let map ← s.ked.toMap
  if Value.hasKey map (lit "ri") then do
    let v ← (Value.obj map).index (lit "ri")
    let t ← v.toStr
    .ok (some t)
  else .ok none
/-- `src/core/creder.rs` 79-87 `chains`. -/
def chains (s : Sadder) : Res Value := do
  let map ← s.ked.toMap
  if Value.hasKey map (lit "e") then (Value.obj map).index (lit "e")
  else .ok (.obj [])

end Creder
end Cesride
