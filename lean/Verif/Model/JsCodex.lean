import Verif.Model.JsPlain

/-!
# Model of the code enumerations of the JavaScript bindings (`wasm/src/primitives/codex.rs`)

In JavaScript an enumeration of `wasm-bindgen` 0.2.84 is an object that gives each member's name its position, counted from 0, as a number; the property of any other name is
`undefined` (the names the object inherits, and the texts of the positions, which lead back to the names, give values that are no numbers: they convert like `undefined`).
The generated code for an argument of such a type passes the value as a `u32` (so `undefined` becomes 0), and throws for a number that is no position.
-/

namespace Cesride.Js

/-- `src/core/matter/tables.rs` 106-157, `pub mod Codex`: the constants by name. -/
def matterCodexConsts : List (String × Str) := [
  ("Ed25519_Seed", lit "A"), ("Ed25519N", lit "B"), ("X25519", lit "C"), ("Ed25519", lit "D"), ("Blake3_256", lit "E"),
  ("Blake2b_256", lit "F"), ("Blake2s_256", lit "G"), ("SHA3_256", lit "H"), ("SHA2_256", lit "I"), ("ECDSA_256k1_Seed", lit "J"),
  ("Ed448_Seed", lit "K"), ("X448", lit "L"), ("Short", lit "M"), ("Big", lit "N"), ("X25519_Private", lit "O"),
  ("X25519_Cipher_Seed", lit "P"), ("ECDSA_256r1_Seed", lit "Q"), ("Salt_128", lit "0A"), ("Ed25519_Sig", lit "0B"), ("ECDSA_256k1_Sig", lit "0C"),
  ("Blake3_512", lit "0D"), ("Blake2b_512", lit "0E"), ("SHA3_512", lit "0F"), ("SHA2_512", lit "0G"), ("Long", lit "0H"),
  ("ECDSA_256r1_Sig", lit "0I"), ("ECDSA_256k1N", lit "1AAA"), ("ECDSA_256k1", lit "1AAB"), ("Ed448N", lit "1AAC"), ("Ed448", lit "1AAD"),
  ("Ed448_Sig", lit "1AAE"), ("Tern", lit "1AAF"), ("DateTime", lit "1AAG"), ("X25519_Cipher_Salt", lit "1AAH"), ("ECDSA_256r1N", lit "1AAI"),
  ("ECDSA_256r1", lit "1AAJ"), ("TBD1", lit "2AAA"), ("TBD2", lit "3AAA"), ("StrB64_L0", lit "4A"), ("StrB64_L1", lit "5A"),
  ("StrB64_L2", lit "6A"), ("StrB64_Big_L0", lit "7AAA"), ("StrB64_Big_L1", lit "8AAA"), ("StrB64_Big_L2", lit "9AAA"), ("Bytes_L0", lit "4B"),
  ("Bytes_L1", lit "5B"), ("Bytes_L2", lit "6B"), ("Bytes_Big_L0", lit "7AAB"), ("Bytes_Big_L1", lit "8AAB"), ("Bytes_Big_L2", lit "9AAB")]

/-- The members of `wasm/src/primitives/codex.rs` 8-55 `CesrideMatterCodex` in order, each with the constant that its arm of `code` (57-108) gives. -/
def matterCodexArms : List (String × String) := [
  ("Ed25519Seed", "Ed25519_Seed"), ("Ed25519N", "Ed25519N"), ("X25519", "X25519"), ("Ed25519", "Ed25519"),
  ("Blake3_256", "Blake3_256"), ("Blake2b_256", "Blake2b_256"), ("Blake2s_256", "Blake2s_256"), ("SHA3_256", "SHA3_256"),
  ("SHA2_256", "SHA2_256"), ("ECDSA_256k1_Seed", "ECDSA_256k1_Seed"), ("Ed448_Seed", "Ed448_Seed"), ("X448", "X448"),
  ("Short", "Short"), ("Big", "Big"), ("X25519_Private", "X25519_Private"), ("X25519_Cipher_Seed", "X25519_Cipher_Seed"),
  ("Salt_128", "Salt_128"), ("Ed25519_Sig", "Ed25519_Sig"), ("ECDSA_256k1_Sig", "ECDSA_256k1_Sig"), ("Blake3_512", "Blake3_512"),
  ("Blake2b_512", "Blake2b_512"), ("SHA3_512", "SHA3_512"), ("SHA2_512", "SHA2_512"), ("Long", "Long"),
  ("ECDSA_256k1N", "ECDSA_256k1N"), ("ECDSA_256k1", "ECDSA_256k1"), ("Ed448N", "Ed448N"), ("Ed448", "Ed448"),
  ("Ed448_Sig", "Ed448_Sig"), ("Tern", "Tern"), ("DateTime", "DateTime"), ("X25519_Cipher_Salt", "X25519_Cipher_Salt"),
  ("TBD1", "TBD1"), ("TBD2", "TBD2"), ("StrB64_L0", "StrB64_L0"), ("StrB64_L1", "StrB64_L1"),
  ("StrB64_L2", "StrB64_L2"), ("StrB64_Big_L0", "StrB64_Big_L0"), ("StrB64_Big_L1", "StrB64_Big_L1"), ("StrB64_Big_L2", "StrB64_Big_L2"),
  ("Bytes_L0", "Bytes_L0"), ("Bytes_L1", "Bytes_L1"), ("Bytes_L2", "Bytes_L2"), ("Bytes_Big_L0", "Bytes_Big_L0"),
  ("Bytes_Big_L1", "Bytes_Big_L1"), ("Bytes_Big_L2", "Bytes_Big_L2")]

/-- `src/core/indexer/tables.rs` 24-44, `pub mod Codex`: the constants by name. -/
def indexerCodexConsts : List (String × Str) := [
  ("Ed25519", lit "A"), ("Ed25519_Crt", lit "B"), ("ECDSA_256k1", lit "C"), ("ECDSA_256k1_Crt", lit "D"), ("ECDSA_256r1", lit "E"),
  ("ECDSA_256r1_Crt", lit "F"), ("Ed448", lit "0A"), ("Ed448_Crt", lit "0B"), ("Ed25519_Big", lit "2A"), ("Ed25519_Big_Crt", lit "2B"),
  ("ECDSA_256k1_Big", lit "2C"), ("ECDSA_256k1_Big_Crt", lit "2D"), ("ECDSA_256r1_Big", lit "2E"), ("ECDSA_256r1_Big_Crt", lit "2F"), ("Ed448_Big", lit "3A"),
  ("Ed448_Big_Crt", lit "3B"), ("TBD0", lit "0z"), ("TBD1", lit "1z"), ("TBD4", lit "4z")]

/-- The members of `wasm/src/primitives/codex.rs` 118-134 `CesrideIndexerCodex` in order, each with the constant that its arm of `code` (136-156) gives. -/
def indexerCodexArms : List (String × String) := [
  ("Ed25519", "Ed25519"), ("Ed25519_Crt", "Ed25519_Crt"), ("ECDSA_256k1", "ECDSA_256k1"), ("ECDSA_256k1_Crt", "ECDSA_256k1_Crt"),
  ("Ed448", "Ed448"), ("Ed448_Crt", "Ed448_Crt"), ("Ed25519_Big", "Ed25519_Big"), ("Ed25519_Big_Crt", "Ed25519_Big_Crt"),
  ("ECDSA_256k1_Big", "ECDSA_256k1_Big"), ("ECDSA_256k1_Big_Crt", "ECDSA_256k1_Big_Crt"), ("Ed448_Big", "Ed448_Big"), ("Ed448_Big_Crt", "Ed448_Big_Crt"),
  ("TBD0", "TBD0"), ("TBD1", "TBD1"), ("TBD4", "TBD4")]

/-- The property of the enumeration object: a member's position, `none` for `undefined`. -/
def member (arms : List (String × String)) (name : String) : Option Num :=
  (arms.findIdx? (·.1 == name)).map fun i => .finite i

/-- The generated conversion of the argument, then `code`; `none` when it throws ("invalid enum value passed"). -/
def codeOf (consts : List (String × Str)) (arms : List (String × String)) (value : Option Num) : Option Str :=
  match arms[(value.map toUint32).getD 0]? with
  | some arm => consts.lookup arm.2
  | none => none

/-- `MatterCodex` in JavaScript, `wasm/src/primitives/codex.rs` 5-55. -/
def matterCodex (name : String) : Option Num := member matterCodexArms name
/-- `wasm/src/primitives/codex.rs` 110-113 `matter_codex_code`. -/
def matterCodexCode (value : Option Num) : Option Str := codeOf matterCodexConsts matterCodexArms value
/-- `IndexerCodex` in JavaScript, `wasm/src/primitives/codex.rs` 115-134. -/
def indexerCodex (name : String) : Option Num := member indexerCodexArms name
/-- `wasm/src/primitives/codex.rs` 158-161 `indexer_codex_code`. -/
def indexerCodexCode (value : Option Num) : Option Str := codeOf indexerCodexConsts indexerCodexArms value

end Cesride.Js
