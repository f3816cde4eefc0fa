import Verif.Model.Signer
import Verif.Model.Pather

/-! # Model of the `Default` implementations (`Verfer`, `Tholder`, `Serder`, `Creder`: with their classes) -/

namespace Cesride

/-- `src/core/diger.rs` 33-35. -/
def Diger.default : Matter := { code := lit "E", size := 0, raw := [] }
/-- `src/core/saider.rs` 15-17. -/
def Saider.default : Matter := { code := lit "E", size := 0, raw := [] }
/-- `src/core/prefixer.rs` 21-23. -/
def Prefixer.default : Matter := { code := lit "E", size := 0, raw := [] }
/-- `src/core/number.rs` 30-32. -/
def Number.default : Matter := { code := lit "M", size := 0, raw := [] }
/-- `src/core/seqner.rs` 12-14. -/
def Seqner.default : Matter := { code := lit "0A", size := 0, raw := [] }
/-- `src/core/dater.rs` 12-14. -/
def Dater.default : Matter := { code := lit "1AAG", size := 0, raw := [] }
/-- `src/core/bexter.rs` 39-41. -/
def Bexter.default : Matter := { code := lit "4A", size := 0, raw := [] }
/-- `src/core/pather.rs` 25-27. -/
def Pather.default : Matter := { code := lit "4A", size := 0, raw := [] }
/-- `src/core/salter.rs` 151-158. -/
def Salter.default : Salter := { matter := { code := lit "0A", size := 0, raw := [] }, tier := lit "low" }
/-- `src/core/cigar.rs` 14-21. -/
def Cigar.default : Cigar := { matter := { code := lit "0B", size := 0, raw := [] }, verfer := Verfer.default }
/-- `src/core/siger.rs` 15-23. -/
def Siger.default : Siger := { indexer := { code := lit "A", raw := [], index := 0, ondex := 0 }, verfer := Verfer.default }
/-- `src/core/signer.rs` 49-56. -/
def Signer.default : Signer := { matter := { code := lit "A", size := 0, raw := [] }, verfer := Verfer.default }
/-- `src/core/counter/mod.rs` 312-314. -/
def Counter.default : Counter := { code := [], count := 0 }

end Cesride
