import Verif.Spec.Cesr

/-! # Specification: the names of the codes in JavaScript, from the tables of the CESR standard, independent of the code model -/

namespace Cesride.Spec

/-- The primitive codes that JavaScript can name, by what they are for. -/
def primitiveNames : List (String × Str) :=
  -- seeds, salts and decryption keys
  [("Ed25519Seed", lit "A"), ("ECDSA_256k1_Seed", lit "J"), ("Ed448_Seed", lit "K"), ("Salt_128", lit "0A"), ("X25519_Private", lit "O")] ++
  -- keys to verify with; the names with N are of keys that cannot be rotated
  [("Ed25519N", lit "B"), ("Ed25519", lit "D"), ("ECDSA_256k1N", lit "1AAA"), ("ECDSA_256k1", lit "1AAB"), ("Ed448N", lit "1AAC"), ("Ed448", lit "1AAD")] ++
  -- keys to encrypt with, and what is encrypted
  [("X25519", lit "C"), ("X448", lit "L"), ("X25519_Cipher_Seed", lit "P"), ("X25519_Cipher_Salt", lit "1AAH")] ++
  -- digests
  [("Blake3_256", lit "E"), ("Blake2b_256", lit "F"), ("Blake2s_256", lit "G"), ("SHA3_256", lit "H"), ("SHA2_256", lit "I"),
   ("Blake3_512", lit "0D"), ("Blake2b_512", lit "0E"), ("SHA3_512", lit "0F"), ("SHA2_512", lit "0G")] ++
  -- signatures
  [("Ed25519_Sig", lit "0B"), ("ECDSA_256k1_Sig", lit "0C"), ("Ed448_Sig", lit "1AAE")] ++
  -- numbers, of 2, 3, 4 and 8 bytes, and dates
  [("Short", lit "M"), ("Tern", lit "1AAF"), ("Long", lit "0H"), ("Big", lit "N"), ("DateTime", lit "1AAG")] ++
  -- for tests
  [("TBD1", lit "2AAA"), ("TBD2", lit "3AAA")] ++
  -- texts and bytes of any length, by lead size
  [("StrB64_L0", varCode false 0 (ch 'A')), ("StrB64_L1", varCode false 1 (ch 'A')), ("StrB64_L2", varCode false 2 (ch 'A')),
   ("StrB64_Big_L0", varCode true 0 (ch 'A')), ("StrB64_Big_L1", varCode true 1 (ch 'A')), ("StrB64_Big_L2", varCode true 2 (ch 'A')),
   ("Bytes_L0", varCode false 0 (ch 'B')), ("Bytes_L1", varCode false 1 (ch 'B')), ("Bytes_L2", varCode false 2 (ch 'B')),
   ("Bytes_Big_L0", varCode true 0 (ch 'B')), ("Bytes_Big_L1", varCode true 1 (ch 'B')), ("Bytes_Big_L2", varCode true 2 (ch 'B'))]

/-- The codes of ECDSA over secp256r1: seed, signature, keys. -/
def r1Primitives : List Str := [lit "Q", lit "0I", lit "1AAI", lit "1AAJ"]

/-- The indexed signature codes that JavaScript can name: for both key lists or (Crt) the current one only, with small and large (Big) indices. -/
def indexedNames : List (String × Str) :=
  [("Ed25519", lit "A"), ("Ed25519_Crt", lit "B"), ("Ed25519_Big", lit "2A"), ("Ed25519_Big_Crt", lit "2B")] ++
  [("ECDSA_256k1", lit "C"), ("ECDSA_256k1_Crt", lit "D"), ("ECDSA_256k1_Big", lit "2C"), ("ECDSA_256k1_Big_Crt", lit "2D")] ++
  [("Ed448", lit "0A"), ("Ed448_Crt", lit "0B"), ("Ed448_Big", lit "3A"), ("Ed448_Big_Crt", lit "3B")] ++
  [("TBD0", lit "0z"), ("TBD1", lit "1z"), ("TBD4", lit "4z")]

/-- The indexed signature codes of ECDSA over secp256r1. -/
def r1Indexed : List Str := [lit "E", lit "F", lit "2E", lit "2F"]

end Cesride.Spec
