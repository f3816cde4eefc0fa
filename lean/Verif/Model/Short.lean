import Verif.Model.Prefixer
import Verif.Model.Signer
import Verif.Model.Pather

/-!
# The short constructors of the typed primitives

Each passes its arguments to `new` and `None` for the others. (Pather's are in `Model/Pather.lean`, Serder's and Creder's in `Model/Sadder.lean`.)
-/

namespace Cesride

namespace Diger
variable (E : Env) (H : Hash)
/-- `src/core/diger.rs` 82-84 `new_with_ser`. -/
def newWithSer (ser : List UInt8) (code : Option Str) : Res Matter := new E H (some ser) code none none none none
/-- `src/core/diger.rs` 86-88 `new_with_raw`. -/
def newWithRaw (raw : List UInt8) (code : Option Str) : Res Matter := new E H none code (some raw) none none none
/-- `src/core/diger.rs` 90-92 `new_with_qb64b`. -/
def newWithQb64b (qb64b : List UInt8) : Res Matter := new E H none none none (some qb64b) none none
/-- `src/core/diger.rs` 94-96 `new_with_qb64`. -/
def newWithQb64 (qb64 : Str) : Res Matter := new E H none none none none (some qb64) none
/-- `src/core/diger.rs` 98-100 `new_with_qb2`. -/
def newWithQb2 (qb2 : List UInt8) : Res Matter := new E H none none none none none (some qb2)
end Diger

namespace Verfer
variable (E : Env)
/-- `src/core/verfer.rs` 51-53 `new_with_raw`. -/
def newWithRaw (raw : List UInt8) (code : Option Str) : Res Matter := new E code (some raw) none none none
/-- `src/core/verfer.rs` 55-57 `new_with_qb64b`. -/
def newWithQb64b (qb64b : List UInt8) : Res Matter := new E none none (some qb64b) none none
/-- `src/core/verfer.rs` 59-61 `new_with_qb64`. -/
def newWithQb64 (qb64 : Str) : Res Matter := new E none none none (some qb64) none
/-- `src/core/verfer.rs` 63-65 `new_with_qb2`. -/
def newWithQb2 (qb2 : List UInt8) : Res Matter := new E none none none none (some qb2)
end Verfer

namespace Number
variable (E : Env)
/-- `src/core/number.rs` 96-98 `new_with_num`. -/
def newWithNum (num : Nat) : Res Matter := new E (some num) none none none none none none
/-- `src/core/number.rs` 100-102 `new_with_numh`. -/
def newWithNumh (numh : Str) : Res Matter := new E none (some numh) none none none none none
/-- `src/core/number.rs` 104-106 `new_with_raw`. -/
def newWithRaw (raw : List UInt8) (code : Option Str) : Res Matter := new E none none code (some raw) none none none
/-- `src/core/number.rs` 108-110 `new_with_qb64b`. -/
def newWithQb64b (qb64b : List UInt8) : Res Matter := new E none none none none (some qb64b) none none
/-- `src/core/number.rs` 112-114 `new_with_qb64`. -/
def newWithQb64 (qb64 : Str) : Res Matter := new E none none none none none (some qb64) none
/-- `src/core/number.rs` 116-118 `new_with_qb2`. -/
def newWithQb2 (qb2 : List UInt8) : Res Matter := new E none none none none none none (some qb2)
end Number

namespace Seqner
variable (E : Env)
/-- `src/core/seqner.rs` 57-59 `new_with_sn`. -/
def newWithSn (sn : Nat) : Res Matter := new E (some sn) none none none none none none
/-- `src/core/seqner.rs` 61-63 `new_with_snh`. -/
def newWithSnh (snh : Str) : Res Matter := new E none (some snh) none none none none none
/-- `src/core/seqner.rs` 65-67 `new_with_raw`. -/
def newWithRaw (raw : List UInt8) (code : Option Str) : Res Matter := new E none none code (some raw) none none none
/-- `src/core/seqner.rs` 69-71 `new_with_qb64b`. -/
def newWithQb64b (qb64b : List UInt8) : Res Matter := new E none none none none (some qb64b) none none
/-- `src/core/seqner.rs` 73-75 `new_with_qb64`. -/
def newWithQb64 (qb64 : Str) : Res Matter := new E none none none none none (some qb64) none
/-- `src/core/seqner.rs` 77-79 `new_with_qb2`. -/
def newWithQb2 (qb2 : List UInt8) : Res Matter := new E none none none none none none (some qb2)
end Seqner

namespace Bexter
variable (E : Env)
/-- `src/core/bexter.rs` 121-123 `new_with_bext`. -/
def newWithBext (bext : Str) : Res Matter := new E (some bext) none none none none none
/-- `src/core/bexter.rs` 125-127 `new_with_raw`. -/
def newWithRaw (raw : List UInt8) (code : Option Str) : Res Matter := new E none code (some raw) none none none
/-- `src/core/bexter.rs` 129-131 `new_with_qb64b`. -/
def newWithQb64b (qb64b : List UInt8) : Res Matter := new E none none none (some qb64b) none none
/-- `src/core/bexter.rs` 133-135 `new_with_qb64`. -/
def newWithQb64 (qb64 : Str) : Res Matter := new E none none none none (some qb64) none
/-- `src/core/bexter.rs` 137-139 `new_with_qb2`. -/
def newWithQb2 (qb2 : List UInt8) : Res Matter := new E none none none none none (some qb2)
end Bexter

namespace Dater
variable (E : Env) (now : Str)
/-- `src/core/dater.rs` 66-68 `new_with_dts`. -/
def newWithDts (dts : Str) (code : Option Str) : Res Matter := new E now (some dts) code none none none none
/-- `src/core/dater.rs` 70-72 `new_with_raw`. -/
def newWithRaw (raw : List UInt8) (code : Option Str) : Res Matter := new E now none code (some raw) none none none
/-- `src/core/dater.rs` 74-76 `new_with_qb64b`. -/
def newWithQb64b (qb64b : List UInt8) : Res Matter := new E now none none none (some qb64b) none none
/-- `src/core/dater.rs` 78-80 `new_with_qb64`. -/
def newWithQb64 (qb64 : Str) : Res Matter := new E now none none none none (some qb64) none
/-- `src/core/dater.rs` 82-84 `new_with_qb2`. -/
def newWithQb2 (qb2 : List UInt8) : Res Matter := new E now none none none none none (some qb2)
end Dater

namespace Prefixer
variable (E : Env) (H : Hash)
/-- `src/core/prefixer.rs` 308-310 `new_with_ked`. -/
def newWithKed (ked : Value) (allows : Option (List Str)) (code : Option Str) : Res Matter := new E H (some ked) allows code none none none none
/-- `src/core/prefixer.rs` 312-314 `new_with_raw`. -/
def newWithRaw (raw : List UInt8) (code : Option Str) : Res Matter := new E H none none code (some raw) none none none
/-- `src/core/prefixer.rs` 316-318 `new_with_qb64b`. -/
def newWithQb64b (qb64b : List UInt8) : Res Matter := new E H none none none none (some qb64b) none none
/-- `src/core/prefixer.rs` 320-322 `new_with_qb64`. -/
def newWithQb64 (qb64 : Str) : Res Matter := new E H none none none none none (some qb64) none
/-- `src/core/prefixer.rs` 324-326 `new_with_qb2`. -/
def newWithQb2 (qb2 : List UInt8) : Res Matter := new E H none none none none none none (some qb2)
end Prefixer

namespace Saider
variable (E : Env) (H : Hash)
/-- `src/core/saider.rs` 243-251 `new_with_sad`. -/
def newWithSad (sad : Value) (label kind : Option Str) (ignore : Option (List Str)) (code : Option Str) : Res Matter :=
  new E H (some sad) label kind ignore code none none none none
/-- `src/core/saider.rs` 253-255 `new_with_raw`. -/
def newWithRaw (raw : List UInt8) (code : Option Str) : Res Matter := new E H none none none none code (some raw) none none none
/-- `src/core/saider.rs` 257-259 `new_with_qb64b`. -/
def newWithQb64b (qb64b : List UInt8) : Res Matter := new E H none none none none none none (some qb64b) none none
/-- `src/core/saider.rs` 261-263 `new_with_qb64`. -/
def newWithQb64 (qb64 : Str) : Res Matter := new E H none none none none none none none (some qb64) none
/-- `src/core/saider.rs` 265-267 `new_with_qb2`. -/
def newWithQb2 (qb2 : List UInt8) : Res Matter := new E H none none none none none none none none (some qb2)
end Saider

namespace Cigar
variable (E : Env)
/-- `src/core/cigar.rs` 56-58 `new_with_raw`. -/
def newWithRaw (raw : List UInt8) (verfer : Option Matter) (code : Option Str) : Res Cigar := new E verfer code (some raw) none none none
/-- `src/core/cigar.rs` 60-62 `new_with_qb64b`. -/
def newWithQb64b (qb64b : List UInt8) (verfer : Option Matter) : Res Cigar := new E verfer none none (some qb64b) none none
/-- `src/core/cigar.rs` 64-66 `new_with_qb64`. -/
def newWithQb64 (qb64 : Str) (verfer : Option Matter) : Res Cigar := new E verfer none none none (some qb64) none
/-- `src/core/cigar.rs` 68-70 `new_with_qb2`. -/
def newWithQb2 (qb2 : List UInt8) (verfer : Option Matter) : Res Cigar := new E verfer none none none none (some qb2)
end Cigar

namespace Siger
variable (E : Env)
/-- `src/core/siger.rs` 73-81 `new_with_raw`. -/
def newWithRaw (raw : List UInt8) (verfer : Option Matter) (index ondex : Option Nat) (code : Option Str) : Res Siger :=
  new E verfer index ondex code (some raw) none none none
/-- `src/core/siger.rs` 83-85 `new_with_qb64b`. -/
def newWithQb64b (qb64b : List UInt8) (verfer : Option Matter) : Res Siger := new E verfer none none none none (some qb64b) none none
/-- `src/core/siger.rs` 87-89 `new_with_qb64`. -/
def newWithQb64 (qb64 : Str) (verfer : Option Matter) : Res Siger := new E verfer none none none none none (some qb64) none
/-- `src/core/siger.rs` 91-93 `new_with_qb2`. -/
def newWithQb2 (qb2 : List UInt8) (verfer : Option Matter) : Res Siger := new E verfer none none none none none none (some qb2)
end Siger

namespace Salter
variable (E : Env) (rnd : List UInt8)
/-- `src/core/salter.rs` 61-63 `new_with_defaults`. -/
def newWithDefaults (tier : Option Str) : Res Salter := new E rnd tier none none none none none
/-- `src/core/salter.rs` 65-67 `new_with_raw`. -/
def newWithRaw (raw : List UInt8) (code tier : Option Str) : Res Salter := new E rnd tier code (some raw) none none none
/-- `src/core/salter.rs` 69-71 `new_with_qb64b`. -/
def newWithQb64b (qb64b : List UInt8) (tier : Option Str) : Res Salter := new E rnd tier none none (some qb64b) none none
/-- `src/core/salter.rs` 73-75 `new_with_qb64`. -/
def newWithQb64 (qb64 : Str) (tier : Option Str) : Res Salter := new E rnd tier none none none (some qb64) none
/-- `src/core/salter.rs` 77-79 `new_with_qb2`. -/
def newWithQb2 (qb2 : List UInt8) (tier : Option Str) : Res Salter := new E rnd tier none none none none (some qb2)
end Salter

namespace Signer
variable (E : Env) (C : Crypto) (r : Nat)
/-- `src/core/signer.rs` 122-124 `new_with_defaults`. -/
def newWithDefaults (transferable : Option Bool) (code : Option Str) : Res Signer := new E C r transferable code none none none none
/-- `src/core/signer.rs` 126-132 `new_with_raw`. -/
def newWithRaw (raw : List UInt8) (transferable : Option Bool) (code : Option Str) : Res Signer := new E C r transferable code (some raw) none none none
/-- `src/core/signer.rs` 134-136 `new_with_qb64b`. -/
def newWithQb64b (qb64b : List UInt8) (transferable : Option Bool) : Res Signer := new E C r transferable none none (some qb64b) none none
/-- `src/core/signer.rs` 138-140 `new_with_qb64`. -/
def newWithQb64 (qb64 : Str) (transferable : Option Bool) : Res Signer := new E C r transferable none none none (some qb64) none
/-- `src/core/signer.rs` 142-144 `new_with_qb2`. -/
def newWithQb2 (qb2 : List UInt8) (transferable : Option Bool) : Res Signer := new E C r transferable none none none none (some qb2)
end Signer

end Cesride
