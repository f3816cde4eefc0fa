import Verif.Model.Sadder

/-! # Model of `src/core/prefixer.rs` -/

namespace Cesride
namespace Prefixer
open Common

/-- `src/core/prefixer.rs` 66-68, 342: Ed25519N, ECDSA_256k1N, ECDSA_256r1N (`src/core/matter/tables.rs` 104-143). -/
def nontransferableCodes : List Str := [lit "B", lit "1AAA", lit "1AAI"]

/-- `src/core/prefixer.rs` 70-72, 346: Ed25519, ECDSA_256k1, ECDSA_256r1. -/
def transferableCodes : List Str := [lit "D", lit "1AAB", lit "1AAJ"]

/-- `src/core/prefixer.rs` 74-82, 350-358: the digests. -/
def digestCodes : List Str := [lit "E", lit "0D", lit "F", lit "0E", lit "G", lit "H", lit "0F", lit "I", lit "0G"]

/-- `src/core/prefixer.rs` 26-53 `validate_code`. -/
def validateCode (code : Str) : Res Unit :=
  if [lit "B", lit "1AAA", lit "1AAI", lit "D", lit "1AAB", lit "1AAJ", lit "E", lit "0D", lit "F", lit "0E", lit "G", lit "H", lit "0F", lit "I",
      lit "0G"].contains code then .ok () else .err .unexpectedCode

/-- `src/core/prefixer.rs` 56, 329 `ILKS`: the inception events icp, dip, vcp (`src/core/common.rs` 55-90). -/
def ilks : List Str := [lit "icp", lit "dip", lit "vcp"]

/-- `src/core/prefixer.rs` 92-108 and 134-150: the single key of the event. -/
def theKey (E : Env) (ked : Value) : Res Matter := do
  let map ← ked.toMap
  if Value.hasKey map (lit "k") then do
    let k ← ked.index (lit "k")
    let keys ← k.toVec
    if keys.length ≠ 1 then .err .derivation
    else do
      let k0 ← (Value.arr keys).indexNat 0
      let t ← k0.toStr
      Verfer.new E none none none (some t) none
  else .err .derivation

/-- `src/core/prefixer.rs` 112-115, 117-120, 122-125: a field that must be an empty text if it is present. -/
def refuseField (ked : Value) (label : Str) : Res Unit := do
  let map ← ked.toMap
  if Value.hasKey map label then do
    let x ← ked.index label
    let s ← x.toStr
    if s ≠ [] then .err .derivation else .ok ()
  else .ok ()

/-- `src/core/prefixer.rs` 88-128 `derive_nontransferable`. -/
def deriveNontransferable (E : Env) (ked : Value) (code : Str) : Res (List UInt8 × Str) := do
  let verfer ← theKey E ked
  if verfer.code ≠ code then .err .derivation
  else do
    refuseField ked (lit "n")
    refuseField ked (lit "b")
    refuseField ked (lit "a")
    .ok (verfer.raw, verfer.code)

/-- `src/core/prefixer.rs` 130-155 `derive_transferable`. -/
def deriveTransferable (E : Env) (ked : Value) (code : Str) : Res (List UInt8 × Str) := do
  let verfer ← theKey E ked
  if verfer.code ≠ code then .err .derivation
  else .ok (verfer.raw, verfer.code)

/-- `src/core/prefixer.rs` 157-172 `derive_digest`. -/
def deriveDigest (H : Hash) (ked : Value) (code : Str) : Res (List UInt8 × Str) := do
  let szg ← Matter.sizage code
  let dummy := Saider.dummy szg.fs
  let ked ← ked.set (lit "i") dummy
  let ked ← ked.set (lit "d") dummy
  let result ← sizeify ked none
  let dig ← hashDigest H code result.raw
  .ok (dig, code)

/-- `src/core/prefixer.rs` 55-86 `derive`. -/
def derive (E : Env) (H : Hash) (ked : Value) (code : Str) : Res (List UInt8 × Str) := do
  let t ← ked.index (lit "t")
  let ilk ← t.toStr
  if !ilks.contains ilk then .err .value
  else if nontransferableCodes.contains code then deriveNontransferable E ked code
  else if transferableCodes.contains code then deriveTransferable E ked code
  else if digestCodes.contains code then deriveDigest H ked code
  else .err .unexpectedCode

/-- `src/core/prefixer.rs` 191-194, 228-231, 244-248: the check of the field `i`. -/
def prefixMismatch (ked : Value) (pre : Str) (prefixed : Bool) : Res Bool :=
  if prefixed then do
    let map ← ked.toMap
    if !Value.hasKey map (lit "i") then .ok true
    else do
      let i ← ked.index (lit "i")
      let s ← i.toStr
      .ok (decide (s ≠ pre))
  else .ok false

/-- `src/core/prefixer.rs` 174-209 `verify_nontransferable`. -/
def verifyNontransferable (ked : Value) (pre : Str) (prefixed : Bool) : Res Bool := do
  let map ← ked.toMap
  if !Value.hasKey map (lit "k") then .ok false
  else do
    let k ← ked.index (lit "k")
    let keys ← k.toVec
    if keys.length ≠ 1 then .ok false
    else do
      let k0 ← (Value.arr keys).indexNat 0
      let t ← k0.toStr
      if t ≠ pre then .ok false
      else do
        let bad ← prefixMismatch ked pre prefixed
        if bad then .ok false
        else if Value.hasKey map (lit "n") then do
          let n ← ked.index (lit "n")
          match n with
          | .arr a => if a.isEmpty then .ok true else .ok false
          | .str s => if s.isEmpty then .ok true else .ok false
          | _ => .ok true
        else .ok true

/-- `src/core/prefixer.rs` 211-234 `verify_transferable`. -/
def verifyTransferable (ked : Value) (pre : Str) (prefixed : Bool) : Res Bool := do
  let map ← ked.toMap
  if !Value.hasKey map (lit "k") then .ok false
  else do
    let k ← ked.index (lit "k")
    let keys ← k.toVec
    if keys.length ≠ 1 then .ok false
    else do
      let k0 ← (Value.arr keys).indexNat 0
      let t ← k0.toStr
      if t ≠ pre then .ok false
      else do
        let bad ← prefixMismatch ked pre prefixed
        if bad then .ok false else .ok true

/-- `src/core/prefixer.rs` 236-251 `verify_digest`. The field `i` and `to_map` are checked after the digest, as in the source. -/
def verifyDigest (E : Env) (H : Hash) (ked : Value) (pre : Str) (prefixed : Bool) (code : Str) : Res Bool := do
  let (raw, code) ← deriveDigest H ked code
  let crymat ← Diger.new E H none (some code) (some raw) none none none
  let t ← crymat.qb64 E
  if t ≠ pre then .ok false
  else do
    let _ ← ked.toMap
    let bad ← prefixMismatch ked pre prefixed
    if bad then .ok false else .ok true

/-- `src/core/prefixer.rs` 254-306 `new`. -/
def new (E : Env) (H : Hash) (ked : Option Value) (allows : Option (List Str)) (code : Option Str) (raw : Option (List UInt8))
    (qb64b : Option (List UInt8)) (qb64 : Option Str) (qb2 : Option (List UInt8)) : Res Matter :=
  if raw.isSome ∨ qb64b.isSome ∨ qb64.isSome ∨ qb2.isSome then do
    validateCode (code.getD (lit "B"))
    Matter.new E code raw qb64b qb64 qb2
  else
    match ked with
    | none => .err .validation
    | some ked => do
      let missing ←
        (match code with
        | some _ => .ok false
        | none => do
          let map ← ked.toMap
          .ok (!Value.hasKey map (lit "i")) : Res Bool)
      if missing then .err .validation
      else do
        let code ←
          (match code with
          | some code => .ok code
          | none => do
            let i ← ked.index (lit "i")
            let t ← i.toStr
            let m ← Matter.new E none none none (some t) none
            .ok m.code : Res Str)
        validateCode code
        let allows := allows.getD []
        if allows ≠ [] ∧ code ∉ allows then .err .unexpectedCode
        else do
          let (raw, code) ← derive E H ked code
          Matter.new E (some code) (some raw) none none none

/-- `src/core/prefixer.rs` 328-362 `verify`. -/
def verify (E : Env) (H : Hash) (self : Matter) (ked : Value) (prefixed : Option Bool) : Res Bool := do
  let prefixed := prefixed.getD false
  let t ← ked.index (lit "t")
  let ilk ← t.toStr
  if !ilks.contains ilk then .err .value
  else if nontransferableCodes.contains self.code then do
    let pre ← self.qb64 E
    verifyNontransferable ked pre prefixed
  else if transferableCodes.contains self.code then do
    let pre ← self.qb64 E
    verifyTransferable ked pre prefixed
  else if digestCodes.contains self.code then do
    let pre ← self.qb64 E
    verifyDigest E H ked pre prefixed self.code
  else .err .unexpectedCode

end Prefixer
end Cesride
