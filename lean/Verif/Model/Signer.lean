import Verif.Model.Sadder
import Verif.Model.Indexer

/-! # Model of `src/crypto/sign.rs`, `src/crypto/salt.rs`, `src/core/signer.rs`, `src/core/cigar.rs`, `src/core/siger.rs`,
`src/core/salter.rs` and `Verfer::verify` -/

namespace Cesride

/-- The three signature schemes of `src/crypto/sign.rs`: `mod ed25519`, `mod ecdsa_256k1`, `mod ecdsa_256r1`. -/
inductive Curve where
  | ed25519 | k1 | r1
  deriving DecidableEq, Repr

/-- The crates `ed25519_dalek`, `k256`, `p256` and `argon2`. They are not modelled: a theorem holds for any functions with these laws.
`valid c k`: the library accepts `k` as a private key (`SigningKey::from_slice`; the Ed25519 library accepts every 32 bytes).
`publicKey`, `sign`: on accepted private keys; the last argument of `sign` and the argument of `generate` stand for the random numbers drawn.
`verify c key ser sig`: `none` when the key or the signature is malformed.
`argon m t pwd salt len`: Argon2id with these memory and time costs; `none` when it refuses its arguments. -/
structure Crypto where
  valid : Curve → List UInt8 → Bool
  publicKey : Curve → List UInt8 → List UInt8
  sign : Curve → List UInt8 → List UInt8 → Nat → List UInt8
  verify : Curve → List UInt8 → List UInt8 → List UInt8 → Option Bool
  generate : Curve → Nat → List UInt8
  argon : Nat → Nat → List UInt8 → List UInt8 → Nat → Option (List UInt8)
  valid_ed : ∀ k, valid .ed25519 k = true ↔ k.length = 32
  publicKey_length : ∀ c k, valid c k = true → (publicKey c k).length = if c = .ed25519 then 32 else 33
  sign_length : ∀ c k ser r, valid c k = true → (sign c k ser r).length = 64
  verify_sign : ∀ c k ser r, valid c k = true → verify c (publicKey c k) ser (sign c k ser r) = some true
  generate_valid : ∀ c r, (generate c r).length = 32 ∧ valid c (generate c r) = true
  argon_length : ∀ m t pwd salt len out, argon m t pwd salt len = some out → out.length = len

namespace Sign

/-- The dispatch of `src/crypto/sign.rs` 5-19 (and 23-38, 41-56, 59-74) by code: verification key, non-transferable verification key, seed
and signature codes of each scheme (`src/core/matter/tables.rs` 107-142). -/
def curveOf (code : Str) : Option Curve :=
  if [lit "D", lit "B", lit "A", lit "0B"].contains code then some .ed25519
  else if [lit "1AAB", lit "1AAA", lit "J", lit "0C"].contains code then some .k1
  else if [lit "1AAJ", lit "1AAI", lit "Q", lit "0I"].contains code then some .r1
  else none

/-- `src/crypto/sign.rs` 4-20 `generate`. -/
def generate (C : Crypto) (code : Str) (r : Nat) : Res (List UInt8) :=
  match curveOf code with
  | some c => .ok (C.generate c r)
  | none => .err .unexpectedCode

/-- `src/crypto/sign.rs` 22-38 `public_key`, with 97-101 (`private_key[..32]` panics on a short key), 134-138, 173-177. -/
def publicKey (C : Crypto) (code : Str) (key : List UInt8) : Res (List UInt8) :=
  match curveOf code with
  | some .ed25519 => do
    let key ← slice key 0 32
    .ok (C.publicKey .ed25519 key)
  | some c => if C.valid c key then .ok (C.publicKey c key) else .err .crypto
  | none => .err .unexpectedCode

/-- `src/crypto/sign.rs` 40-56 `sign`, with 103-106 (`try_into` to 32 bytes), 140-144, 179-183. -/
def sign (C : Crypto) (code : Str) (key ser : List UInt8) (r : Nat) : Res (List UInt8) :=
  match curveOf code with
  | some .ed25519 => if key.length = 32 then .ok (C.sign .ed25519 key ser r) else .err .tryFrom
  | some c => if C.valid c key then .ok (C.sign c key ser r) else .err .crypto
  | none => .err .unexpectedCode

/-- `src/crypto/sign.rs` 58-74 `verify`, with 108-116 (`try_into` to 32 and 64 bytes), 146-154, 185-193. For Ed25519
the code decodes the key point before it looks at the length of the signature: when both are wrong it reports the key, the model the length. -/
def verify (C : Crypto) (code : Str) (key sig ser : List UInt8) : Res Bool :=
  match curveOf code with
  | some .ed25519 =>
    if key.length ≠ 32 then .err .tryFrom
    else if sig.length ≠ 64 then .err .tryFrom
    else match C.verify .ed25519 key ser sig with
      | some b => .ok b
      | none => .err .crypto
  | some c =>
    match C.verify c key ser sig with
    | some b => .ok b
    | none => .err .crypto
  | none => .err .unexpectedCode

end Sign

namespace Verfer

/-- `src/core/verfer.rs` 13-15 `default`. -/
def default : Matter := { code := lit "D", size := 0, raw := [] }

/-- `src/core/verfer.rs` 67-70 `verify`. -/
def verify (C : Crypto) (v : Matter) (sig ser : List UInt8) : Res Bool := do
  validateCode v.code
  Sign.verify C v.code v.raw sig ser

end Verfer

/-- `src/core/cigar.rs` 5-11. -/
structure Cigar where
  matter : Matter
  verfer : Matter
  deriving DecidableEq, Repr

namespace Cigar

/-- `src/core/cigar.rs` 24-37 `validate_code`. -/
def validateCode (code : Str) : Res Unit :=
  if [lit "0B", lit "0C", lit "0I"].contains code then .ok () else .err .unexpectedCode

/-- `src/core/cigar.rs` 40-54 `new`. -/
def new (E : Env) (verfer : Option Matter) (code : Option Str) (raw : Option (List UInt8)) (qb64b : Option (List UInt8)) (qb64 : Option Str)
    (qb2 : Option (List UInt8)) : Res Cigar := do
  let m ← Matter.new E code raw qb64b qb64 qb2
  validateCode m.code
  .ok { matter := m, verfer := verfer.getD Verfer.default }

end Cigar

/-- `src/core/siger.rs` 5-12. -/
structure Siger where
  indexer : Indexer
  verfer : Matter
  deriving DecidableEq, Repr

namespace Siger

/-- `src/core/siger.rs` 26-51 `validate_code`. -/
def validateCode (code : Str) : Res Unit :=
  if [lit "A", lit "B", lit "C", lit "D", lit "E", lit "F", lit "2A", lit "2B", lit "2C", lit "2D", lit "2E", lit "2F"].contains code then .ok ()
  else .err .unexpectedCode

/-- `src/core/siger.rs` 55-71 `new`. -/
def new (E : Env) (verfer : Option Matter) (index ondex : Option Nat) (code : Option Str) (raw : Option (List UInt8)) (qb64b : Option (List UInt8))
    (qb64 : Option Str) (qb2 : Option (List UInt8)) : Res Siger := do
  let x ← Indexer.new E index ondex code raw qb64b qb64 qb2
  validateCode x.code
  .ok { indexer := x, verfer := verfer.getD Verfer.default }

end Siger

/-- `src/core/signer.rs` 37-46. -/
structure Signer where
  matter : Matter
  verfer : Matter
  deriving DecidableEq, Repr

namespace Signer

/-- `src/core/signer.rs` 59-72 `validate_code`: Ed25519_Seed, ECDSA_256k1_Seed, ECDSA_256r1_Seed. -/
def validateCode (code : Str) : Res Unit :=
  if [lit "A", lit "J", lit "Q"].contains code then .ok () else .err .unexpectedCode

/-- `src/core/signer.rs` 74-92 `derive_verfer`. -/
def deriveVerfer (E : Env) (C : Crypto) (code : Str) (key : List UInt8) (transferable : Bool) : Res Matter := do
  let verferCode ←
    (if transferable then
      if code = lit "A" then .ok (lit "D")
      else if code = lit "J" then .ok (lit "1AAB")
      else if code = lit "Q" then .ok (lit "1AAJ")
      else .err .unexpectedCode
    else
      if code = lit "A" then .ok (lit "B")
      else if code = lit "J" then .ok (lit "1AAA")
      else if code = lit "Q" then .ok (lit "1AAI")
      else .err .unexpectedCode : Res Str)
  let raw ← Sign.publicKey C code key
  Verfer.new E (some verferCode) (some raw) none none none

/-- `src/core/signer.rs` 95-120 `new`; `r` stands for the random numbers of a generated key. -/
def new (E : Env) (C : Crypto) (r : Nat) (transferable : Option Bool) (code : Option Str) (raw : Option (List UInt8)) (qb64b : Option (List UInt8))
    (qb64 : Option Str) (qb2 : Option (List UInt8)) : Res Signer := do
  let transferable := transferable.getD true
  let m ←
    (if qb64b.isNone ∧ qb64.isNone ∧ qb2.isNone then do
      let code := code.getD (lit "A")
      validateCode code
      let raw ←
        (match raw with
        | some raw => .ok raw
        | none => Sign.generate C code r : Res (List UInt8))
      Matter.new E (some code) (some raw) none none none
    else do
      let m ← Matter.new E code raw qb64b qb64 qb2
      validateCode m.code
      .ok m : Res Matter)
  let verfer ← deriveVerfer E C m.code m.raw transferable
  .ok { matter := m, verfer := verfer }

/-- `src/core/signer.rs` 146-156 `sign_unindexed`. -/
def signUnindexed (E : Env) (C : Crypto) (s : Signer) (ser : List UInt8) (r : Nat) : Res Cigar := do
  let code ←
    (if s.matter.code = lit "A" then .ok (lit "0B")
    else if s.matter.code = lit "J" then .ok (lit "0C")
    else if s.matter.code = lit "Q" then .ok (lit "0I")
    else .err .unexpectedCode : Res Str)
  let sig ← Sign.sign C s.matter.code s.matter.raw ser r
  Cigar.new E (some s.verfer) (some code) (some sig) none none none

/-- One of the four code matches of `src/core/signer.rs` 165-204: the code for each seed code. -/
def pick (code ed k1 r1 : Str) : Res Str :=
  if code = lit "A" then .ok ed
  else if code = lit "J" then .ok k1
  else if code = lit "Q" then .ok r1
  else .err .unexpectedCode

/-- `src/core/signer.rs` 158-217 `sign_indexed`. -/
def signIndexed (E : Env) (C : Crypto) (s : Signer) (ser : List UInt8) (only : Bool) (index : Nat) (ondex : Option Nat) (r : Nat) : Res Siger := do
  let (code, ondex) ←
    (if only then do
      let code ←
        (if index < 64 then pick s.matter.code (lit "B") (lit "D") (lit "F")
        else pick s.matter.code (lit "2B") (lit "2D") (lit "2F") : Res Str)
      .ok (code, none)
    else do
      let ondex := ondex.getD index
      let code ←
        (if index = ondex ∧ index < 64 then pick s.matter.code (lit "A") (lit "C") (lit "E")
        else pick s.matter.code (lit "2A") (lit "2C") (lit "2E") : Res Str)
      .ok (code, some ondex) : Res (Str × Option Nat))
  let sig ← Sign.sign C s.matter.code s.matter.raw ser r
  Siger.new E (some s.verfer) (some index) ondex (some code) (some sig) none none none

end Signer

/-- `src/crypto/salt.rs` 5-36 `params` and `stretch`. -/
def stretchSalt (C : Crypto) (pwd salt : List UInt8) (length : Nat) (tier : Str) : Res (List UInt8) := do
  let (m, t) ←
    (if tier = lit "min" then .ok (8, 1)
    else if tier = lit "low" then .ok (65536, 2)
    else if tier = lit "med" then .ok (262144, 3)
    else if tier = lit "high" then .ok (1048576, 4)
    else .err .value : Res (Nat × Nat))
  match C.argon m t pwd salt length with
  | some out => .ok out
  | none => .err .derivation

/-- `src/core/salter.rs` 13-22. -/
structure Salter where
  matter : Matter
  tier : Str
  deriving DecidableEq, Repr

namespace Salter

/-- `src/core/salter.rs` 35-59 `new` with `validate_code` 24-30; `rnd` is the 16 random bytes of a generated salt. -/
def new (E : Env) (rnd : List UInt8) (tier code : Option Str) (raw : Option (List UInt8)) (qb64b : Option (List UInt8)) (qb64 : Option Str)
    (qb2 : Option (List UInt8)) : Res Salter := do
  let code := code.getD (lit "0A")
  if code ≠ lit "0A" then .err .unexpectedCode
  else do
    let m ←
      (if raw.isNone ∧ qb64b.isNone ∧ qb64.isNone ∧ qb2.isNone then Matter.new E (some code) (some rnd) none none none
      else Matter.new E (some code) raw qb64b qb64 qb2 : Res Matter)
    .ok { matter := m, tier := tier.getD (lit "low") }

/-- `src/core/salter.rs` 81-97 `stretch`. -/
def stretch (C : Crypto) (s : Salter) (size : Option Nat) (path tier : Option Str) (temp : Option Bool) : Res (List UInt8) :=
  let tier := if temp.getD false then lit "min" else tier.getD s.tier
  stretchSalt C (path.getD []) s.matter.raw (size.getD 32) tier

/-- `src/core/salter.rs` 103-123 `signer`. -/
def signer (E : Env) (C : Crypto) (s : Salter) (code : Option Str) (transferable : Option Bool) (path tier : Option Str) (temp : Option Bool) :
    Res Signer := do
  let code := code.getD (lit "A")
  let transferable := transferable.getD true
  let path := path.getD []
  let temp := temp.getD false
  let size ← Matter.rawSize code
  let seed ← stretch C s (some size) (some path) tier (some temp)
  Signer.new E C 0 (some transferable) (some code) (some seed) none none none

/-- `i + start` on `usize`: a panic in the debug profile when it does not fit, wraps in release. -/
def addUsize (E : Env) (a b : Nat) : Res Nat :=
  if a + b < 2 ^ E.usizeBits then .ok (a + b) else if E.overflowChecks then .panic else .ok ((a + b) % 2 ^ E.usizeBits)

/-- The loop `src/core/salter.rs` 141-144 over the given positions. -/
def signersLoop (E : Env) (C : Crypto) (s : Salter) (start : Nat) (path : Str) (code : Option Str) (transferable : Option Bool) (tier : Option Str)
    (temp : Option Bool) : List Nat → Res (List Signer)
  | [] => .ok []
  | i :: is => do
    let n ← addUsize E i start
    let x ← signer E C s code transferable (some (path ++ hexStr n)) tier temp
    let xs ← signersLoop E C s start path code transferable tier temp is
    .ok (x :: xs)

/-- `src/core/salter.rs` 126-147 `signers`. -/
def signers (E : Env) (C : Crypto) (s : Salter) (count start : Option Nat) (path code : Option Str) (transferable : Option Bool)
    (tier : Option Str) (temp : Option Bool) : Res (List Signer) :=
  signersLoop E C s (start.getD 0) (path.getD []) code transferable tier temp (List.range (count.getD 1))

end Salter
end Cesride
