import Verif.Model.Common

/-! # Model of `src/crypto/hash.rs`, `src/core/diger.rs`, `src/core/saider.rs` -/

namespace Cesride

/-- The codes of `src/crypto/hash.rs` 8-59 with the length of their digests: Blake3_256, Blake2b_256, Blake2s_256, SHA3_256, SHA2_256,
Blake3_512, Blake2b_512, SHA3_512, SHA2_512 (`src/core/matter/tables.rs` 111-130). -/
def digestSizes : List (Str × Nat) :=
  [(lit "E", 32), (lit "F", 32), (lit "G", 32), (lit "H", 32), (lit "I", 32), (lit "0D", 64), (lit "0E", 64), (lit "0F", 64), (lit "0G", 64)]

/-- The hash functions of the crates `blake3`, `blake2`, `sha2`, `sha3`. They are not modelled: a theorem holds for any functions
with these output lengths. -/
structure Hash where
  digest : Str → List UInt8 → List UInt8
  length : ∀ code n, (code, n) ∈ digestSizes → ∀ ser, (digest code ser).length = n

/-- `src/crypto/hash.rs` 8-59 `digest`. -/
def hashDigest (H : Hash) (code : Str) (ser : List UInt8) : Res (List UInt8) :=
  if (digestSizes.map Prod.fst).contains code then .ok (H.digest code ser) else .err .unexpectedCode

/-- `src/core/diger.rs` 38-56 and `src/core/saider.rs` 20-38 `validate_code` (the same nine codes). -/
def validateDigestCode (code : Str) : Res Unit :=
  if [lit "E", lit "F", lit "G", lit "H", lit "I", lit "0D", lit "0E", lit "0F", lit "0G"].contains code then .ok () else .err .unexpectedCode

namespace Diger

/-- `src/core/diger.rs` 59-80 `new`. -/
def new (E : Env) (H : Hash) (ser : Option (List UInt8)) (code : Option Str) (raw : Option (List UInt8)) (qb64b : Option (List UInt8))
    (qb64 : Option Str) (qb2 : Option (List UInt8)) : Res Matter :=
  match Matter.new E code raw qb64b qb64 qb2 with
  | .panic => .panic
  | .ok diger => do
    validateDigestCode diger.code
    .ok diger
  | .err _ =>
    match ser with
    | some ser => do
      let code := code.getD (lit "E")
      validateDigestCode code
      let dig ← hashDigest H code ser
      Matter.new E (some code) (some dig) none none none
    | none => .err .validation

/-- `src/core/diger.rs` 102-105 `verify`. -/
def verify (H : Hash) (d : Matter) (ser : List UInt8) : Res Bool := do
  let dig ← hashDigest H d.code ser
  .ok (decide (dig = d.raw))

/-- `src/core/diger.rs` 117-133 `compare_dig`. -/
def compareDig (E : Env) (H : Hash) (self : Matter) (ser dig : List UInt8) : Res Bool := do
  let t ← self.qb64b E
  if dig = t then .ok true
  else do
    let diger ← Matter.new E none none (some dig) none none
    if diger.code = self.code then .ok false
    else do
      let a ← verify H diger ser
      if a then do
        let b ← verify H self ser
        .ok b
      else .ok false

/-- `src/core/diger.rs` 135-150 `compare_diger`. -/
def compareDiger (E : Env) (H : Hash) (self : Matter) (ser : List UInt8) (diger : Matter) : Res Bool := do
  let s ← diger.qb64 E
  let t ← self.qb64 E
  if s = t then .ok true
  else if diger.code = self.code then .ok false
  else do
    let a ← verify H diger ser
    if a then do
      let b ← verify H self ser
      .ok b
    else .ok false

/-- `src/core/diger.rs` 107-115 `compare`. -/
def compare (E : Env) (H : Hash) (self : Matter) (ser : List UInt8) (dig : Option (List UInt8)) (diger : Option Matter) : Res Bool :=
  match dig with
  | some dig => compareDig E H self ser dig
  | none =>
    match diger with
    | some diger => compareDiger E H self ser diger
    | none => .err .value

end Diger

namespace Saider
open Common

/-- `src/core/common.rs` 106 `DUMMY` and `src/core/saider.rs` 66, `src/core/prefixer.rs` 163: a text of `n` dummy characters. -/
def dummy (n : Nat) : Value := .str (List.replicate n (ch '#'))

/-- `src/core/saider.rs` 40-49 `serialize`. -/
def serialize (sad : Value) (kind : Option Str) : Res (List UInt8) := do
  let map ← sad.toMap
  let knd ←
    (if Value.hasKey map (lit "v") then do
      let v ← sad.index (lit "v")
      let vs ← v.toStr
      let result ← deversify vs
      .ok result.kind
    else .ok (lit "JSON") : Res Str)
  dumps sad (some (kind.getD knd))

/-- `src/core/saider.rs` 76-81: remove the ignored keys. -/
def removeKeys : List Str → List (Str × Value) → List (Str × Value)
  | [], map => map
  | key :: keys, map => removeKeys keys (if Value.hasKey map key then Value.shiftRemove map key else map)

/-- `src/core/saider.rs` 51-89 `derive`. -/
def derive (H : Hash) (sad : Value) (code : Option Str) (kind : Option Str) (label : Option Str) (ignore : Option (List Str)) :
    Res (List UInt8 × Value) := do
  let label := label.getD (lit "d")
  let code := code.getD (lit "E")
  validateDigestCode code
  let szg ← Matter.sizage code
  let sad ← sad.set label (dummy szg.fs)
  let map ← sad.toMap
  let (kind, sad) ←
    (if Value.hasKey map (lit "v") then do
      let result ← sizeify sad kind
      .ok (some result.kind, result.ked)
    else .ok (kind, sad) : Res (Option Str × Value))
  let map ← sad.toMap
  let ser := Value.obj (removeKeys (ignore.getD []) map)
  let cpa ← serialize ser kind
  let digest ← hashDigest H code cpa
  .ok (digest, sad)

/-- `src/core/saider.rs` 93-165 `new`. -/
def new (E : Env) (H : Hash) (sad : Option Value) (label kind : Option Str) (ignore : Option (List Str)) (code : Option Str)
    (raw : Option (List UInt8)) (qb64b : Option (List UInt8)) (qb64 : Option Str) (qb2 : Option (List UInt8)) : Res Matter :=
  if raw.isSome ∨ sad.isSome then do
    let label := label.getD (lit "d")
    let (code, raw) ←
      (match code, raw with
      | some code, some raw => do
        validateDigestCode code
        .ok (code, raw)
      | _, _ =>
        match sad with
        | none => .err .validation
        | some sad => do
          let map ← sad.toMap
          if !Value.hasKey map label then .err .value
          else do
            let code ←
              (match code with
              | some code => .ok code
              | none => do
                let v ← sad.index label
                match v.toStr with
                | .panic => .panic
                | .err _ => .err .validation
                | .ok s =>
                  if s = [] then .ok (lit "E")
                  else do
                    let m ← Matter.new E none none none (some s) none
                    .ok m.code : Res Str)
            validateDigestCode code
            let (raw, _) ← derive H sad (some code) kind (some label) ignore
            .ok (code, raw) : Res (Str × List UInt8))
    Matter.new E (some code) (some raw) none none none
  else do
    let saider ← Matter.new E code raw qb64b qb64 qb2
    validateDigestCode saider.code
    .ok saider

/-- `src/core/saider.rs` 167-188 `saidify`. -/
def saidify (E : Env) (H : Hash) (sad : Value) (code kind label : Option Str) (ignore : Option (List Str)) : Res (Matter × Value) := do
  let code := code.getD (lit "E")
  let label := label.getD (lit "d")
  let map ← sad.toMap
  if !Value.hasKey map label then .err .validation
  else do
    let (_, sad) ← derive H sad (some code) kind (some label) ignore
    let saider ← new E H (some sad) (some label) kind ignore (some code) none none none none
    let t ← saider.qb64 E
    let sad ← sad.set label (.str t)
    .ok (saider, sad)

/-- `src/core/saider.rs` 191-241 `verify`. -/
def verify (E : Env) (H : Hash) (self : Matter) (sad : Value) (prefixed versioned : Option Bool) (kind label : Option Str)
    (ignore : Option (List Str)) : Res Bool :=
  let label := label.getD (lit "d")
  let prefixed := prefixed.getD false
  let versioned := versioned.getD true
  match derive H sad (some self.code) kind (some label) ignore with
  | .panic => .panic
  | .err _ => .ok false
  | .ok (raw, dsad) =>
    match new E H none none none none (some self.code) (some raw) none none none with
    | .panic => .panic
    | .err _ => .ok false
    | .ok saider => do
      let s ← self.qb64 E
      let t ← saider.qb64 E
      if s ≠ t then .ok false
      else do
        let unequal ←
          (if versioned then do
            let map ← sad.toMap
            if Value.hasKey map (lit "v") then do
              let v ← sad.index (lit "v")
              let vs ← v.toStr
              let w ← dsad.index (lit "v")
              let ws ← w.toStr
              .ok (decide (vs ≠ ws))
            else .ok false
          else .ok false : Res Bool)
        if unequal then .ok false
        else do
          let unequal ←
            (if prefixed then do
              let x ← sad.index label
              let xs ← x.toStr
              let s ← self.qb64 E
              .ok (decide (xs ≠ s))
            else .ok false : Res Bool)
          if unequal then .ok false else .ok true

end Saider
end Cesride
