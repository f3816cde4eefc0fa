import Verif.Model.Util

/-! # Model of `src/core/matter/tables.rs` and `src/core/matter/mod.rs` -/

namespace Cesride

/-- `u32::MAX`, the marker for a variable size code (`src/core/matter/tables.rs` 56-67). -/
def u32Max : Nat := 4294967295

/-- `src/core/matter/tables.rs` 9-14. -/
structure Sizage where
  hs : Nat
  ss : Nat
  ls : Nat
  fs : Nat
  deriving DecidableEq, Repr

namespace Matter

/-- `src/core/matter/tables.rs` 3. -/
def smallVrzDex : List UInt8 := [ch '4', ch '5', ch '6']
/-- `src/core/matter/tables.rs` 4. -/
def largeVrzDex : List UInt8 := [ch '7', ch '8', ch '9']

/-- The arms of `src/core/matter/tables.rs` 18-67. -/
def sizes : List (Str × Sizage) := [
  (lit "A", { hs := 1, ss := 0, fs := 44, ls := 0 }),
  (lit "B", { hs := 1, ss := 0, fs := 44, ls := 0 }),
  (lit "C", { hs := 1, ss := 0, fs := 44, ls := 0 }),
  (lit "D", { hs := 1, ss := 0, fs := 44, ls := 0 }),
  (lit "E", { hs := 1, ss := 0, fs := 44, ls := 0 }),
  (lit "F", { hs := 1, ss := 0, fs := 44, ls := 0 }),
  (lit "G", { hs := 1, ss := 0, fs := 44, ls := 0 }),
  (lit "H", { hs := 1, ss := 0, fs := 44, ls := 0 }),
  (lit "I", { hs := 1, ss := 0, fs := 44, ls := 0 }),
  (lit "J", { hs := 1, ss := 0, fs := 44, ls := 0 }),
  (lit "K", { hs := 1, ss := 0, fs := 76, ls := 0 }),
  (lit "L", { hs := 1, ss := 0, fs := 76, ls := 0 }),
  (lit "M", { hs := 1, ss := 0, fs := 4, ls := 0 }),
  (lit "N", { hs := 1, ss := 0, fs := 12, ls := 0 }),
  (lit "O", { hs := 1, ss := 0, fs := 44, ls := 0 }),
  (lit "P", { hs := 1, ss := 0, fs := 124, ls := 0 }),
  (lit "Q", { hs := 1, ss := 0, fs := 44, ls := 0 }),
  (lit "0A", { hs := 2, ss := 0, fs := 24, ls := 0 }),
  (lit "0B", { hs := 2, ss := 0, fs := 88, ls := 0 }),
  (lit "0C", { hs := 2, ss := 0, fs := 88, ls := 0 }),
  (lit "0D", { hs := 2, ss := 0, fs := 88, ls := 0 }),
  (lit "0E", { hs := 2, ss := 0, fs := 88, ls := 0 }),
  (lit "0F", { hs := 2, ss := 0, fs := 88, ls := 0 }),
  (lit "0G", { hs := 2, ss := 0, fs := 88, ls := 0 }),
  (lit "0H", { hs := 2, ss := 0, fs := 8, ls := 0 }),
  (lit "0I", { hs := 2, ss := 0, fs := 88, ls := 0 }),
  (lit "1AAA", { hs := 4, ss := 0, fs := 48, ls := 0 }),
  (lit "1AAB", { hs := 4, ss := 0, fs := 48, ls := 0 }),
  (lit "1AAC", { hs := 4, ss := 0, fs := 80, ls := 0 }),
  (lit "1AAD", { hs := 4, ss := 0, fs := 80, ls := 0 }),
  (lit "1AAE", { hs := 4, ss := 0, fs := 56, ls := 0 }),
  (lit "1AAF", { hs := 4, ss := 0, fs := 8, ls := 0 }),
  (lit "1AAG", { hs := 4, ss := 0, fs := 36, ls := 0 }),
  (lit "1AAH", { hs := 4, ss := 0, fs := 100, ls := 0 }),
  (lit "1AAI", { hs := 4, ss := 0, fs := 48, ls := 0 }),
  (lit "1AAJ", { hs := 4, ss := 0, fs := 48, ls := 0 }),
  (lit "2AAA", { hs := 4, ss := 0, fs := 8, ls := 1 }),
  (lit "3AAA", { hs := 4, ss := 0, fs := 8, ls := 2 }),
  (lit "4A", { hs := 2, ss := 2, fs := u32Max, ls := 0 }),
  (lit "5A", { hs := 2, ss := 2, fs := u32Max, ls := 1 }),
  (lit "6A", { hs := 2, ss := 2, fs := u32Max, ls := 2 }),
  (lit "7AAA", { hs := 4, ss := 4, fs := u32Max, ls := 0 }),
  (lit "8AAA", { hs := 4, ss := 4, fs := u32Max, ls := 1 }),
  (lit "9AAA", { hs := 4, ss := 4, fs := u32Max, ls := 2 }),
  (lit "4B", { hs := 2, ss := 2, fs := u32Max, ls := 0 }),
  (lit "5B", { hs := 2, ss := 2, fs := u32Max, ls := 1 }),
  (lit "6B", { hs := 2, ss := 2, fs := u32Max, ls := 2 }),
  (lit "7AAB", { hs := 4, ss := 4, fs := u32Max, ls := 0 }),
  (lit "8AAB", { hs := 4, ss := 4, fs := u32Max, ls := 1 }),
  (lit "9AAB", { hs := 4, ss := 4, fs := u32Max, ls := 2 })]

/-- `src/core/matter/tables.rs` 16-70 `sizage`. -/
def sizage (s : Str) : Res Sizage :=
  match sizes.lookup s with
  | some z => .ok z
  | none => .err .unknownSizage

/-- `src/core/matter/tables.rs` 72-81 `hardage`, on the first UTF-8 byte of the string (a non-ASCII first
character falls into the last arm). -/
def hardage (c : UInt8) : Res Nat :=
  if (ch 'A' ≤ c ∧ c ≤ ch 'Z') ∨ (ch 'a' ≤ c ∧ c ≤ ch 'z') then .ok 1
  else if c = ch '0' ∨ c = ch '4' ∨ c = ch '5' ∨ c = ch '6' then .ok 2
  else if c = ch '1' ∨ c = ch '2' ∨ c = ch '3' ∨ c = ch '7' ∨ c = ch '8' ∨ c = ch '9' then .ok 4
  else if c = ch '-' then .err .unexpectedCode
  else if c = ch '_' then .err .unexpectedCode
  else .err .unknownHardage

/-- `src/core/matter/tables.rs` 83-92 `bardage`. -/
def bardage (b : Nat) : Res Nat :=
  if b ≤ 0x33 then .ok 1
  else if b = 0x34 ∨ (0x38 ≤ b ∧ b ≤ 0x3a) then .ok 2
  else if (0x35 ≤ b ∧ b ≤ 0x37) ∨ (0x3b ≤ b ∧ b ≤ 0x3d) then .ok 4
  else if b = 0x3e then .err .unexpectedCode
  else if b = 0x3f then .err .unexpectedCode
  else .err .unknownBardage

/-- `src/core/matter/tables.rs` 94-102 `raw_size` (no underflow for any table entry). -/
def rawSize (code : Str) : Res Nat := do
  let szg ← sizage code
  if szg.fs = u32Max then .err .unexpectedCode
  else .ok ((szg.fs - (szg.hs + szg.ss)) * 3 / 4 - szg.ls)

end Matter

/-- The state every `Matter` implementor holds: code, size (in quadlets, 0 for fixed codes) and raw
(`src/core/matter/mod.rs` 9-15). -/
structure Matter where
  code : Str
  size : Nat
  raw : List UInt8
  deriving DecidableEq, Repr

namespace Matter

/-- `src/core/matter/mod.rs` 51-99: code, size and `rize` for the given code and raw.
`raw.len() as u32` truncates. `first` is the first byte of the (non-empty) code. -/
def selectCode (first : UInt8) (code : Str) (rawLen : Nat) : Res (Str × Nat × Nat) :=
  if first ∈ smallVrzDex ∨ first ∈ largeVrzDex then
    let rize := rawLen % 2 ^ 32
    let ls := (3 - rize % 3) % 3
    let size := (rize + ls) / 3
    if first ∈ smallVrzDex then
      if size < 64 ^ 2 then do
        let t ← sliceStr code 1 2
        .ok (smallVrzDex.getD ls 0 :: t, size, rize)
      else if size < 64 ^ 4 then do
        let t ← sliceStr code 1 2
        .ok (largeVrzDex.getD ls 0 :: lit "AA" ++ t, size, rize)
      else .err .invalidVarRawSize
    else
      if size < 64 ^ 4 then do
        let t ← sliceStr code 1 4
        .ok (largeVrzDex.getD ls 0 :: t, size, rize)
      else .err .invalidVarRawSize
  else do
    let rize ← rawSize code
    .ok (code, 0, rize)

/-- `src/core/matter/mod.rs` 43-114 `new_with_code_and_raw`. -/
def newWithCodeAndRaw (code : Str) (raw : List UInt8) : Res Matter :=
  match code with
  | [] => .err .emptyMaterial
  | first :: _ => do
    let (code', size, rize) ← selectCode first code raw.length
    if raw.length < rize then .err .shortage
    else .ok { code := code', size := size, raw := raw.take rize }

/-- `src/core/matter/mod.rs` 184-247 `infil`. -/
def infil (E : Env) (m : Matter) : Res Str := do
  let ps := (3 - m.raw.length % 3) % 3
  let szg ← sizage m.code
  if szg.fs = u32Max then
    let cs := szg.hs + szg.ss
    if cs % 4 ≠ 0 then .err .invalidCodeSize
    else if 64 ^ szg.ss - 1 < m.size then .err .invalidVarSize
    else do
      let soft ← uintToB64 E m.size szg.ss
      let both := m.code ++ soft
      if (szg.ls ≤ ps ∧ both.length % 4 ≠ ps - szg.ls) ∨ (ps < szg.ls ∧ both.length % 4 ≠ szg.ls - ps) then
        .err .invalidCodeSize
      else do
        let buffer := List.replicate szg.ls 0 ++ m.raw
        let b64 ← b64EncodeSlice buffer (buffer.length * 4 / 3)
        .ok (both ++ b64)
  else do
    let both := m.code
    let cs := both.length
    let d ← E.subU32 ps szg.ls
    if cs % 4 ≠ d then .err .invalidCodeSize
    else do
      let buffer := List.replicate ps 0 ++ m.raw
      let b64 ← b64EncodeSlice buffer (buffer.length * 4 / 3)
      let tail ← sliceStr b64 (cs % 4) b64.length
      .ok (both ++ tail)

/-- `src/core/matter/mod.rs` 249-318 `binfil`. -/
def binfil (E : Env) (m : Matter) : Res (List UInt8) := do
  let szg ← sizage m.code
  let cs := szg.hs + szg.ss
  let (fs, both) ←
    (if szg.fs = u32Max then
      if cs % 4 ≠ 0 then .err .invalidCodeSize
      else if 64 ^ szg.ss - 1 < m.size then .err .invalidVarSize
      else do
        let soft ← uintToB64 E m.size szg.ss
        .ok (cs + m.size * 4, m.code ++ soft)
    else .ok (szg.fs, m.code) : Res (Nat × Str))
  if both.length ≠ cs then .err .invalidCodeSize
  else
    let n := (cs + 1) * 3 / 4
    if n ≤ 3 then do
      let v ← b64ToU32 both
      let full := toBe 4 (v * 2 ^ (2 * (cs % 4)) % 2 ^ 32)
      finish szg.ls fs n (full.drop (4 - n)) m.raw
    else if n ≤ 6 then do
      let v ← b64ToU64 both
      let full := toBe 8 (v * 2 ^ (2 * (cs % 4)) % 2 ^ 64)
      finish szg.ls fs n (full.drop (8 - n)) m.raw
    else .err .invalidCodeSize
where
  /-- `src/core/matter/mod.rs` 303-317. -/
  finish (ls fs _n : Nat) (bcode raw : List UInt8) : Res (List UInt8) :=
    let buffer := bcode ++ List.replicate ls 0 ++ raw
    let bfs := buffer.length
    if bfs % 3 ≠ 0 ∨ bfs * 4 / 3 ≠ fs then .err .invalidCodeSize
    else .ok buffer

/-- `src/core/matter/mod.rs` 320-421 `exfil` (the three setters are applied to a fresh object). -/
def exfil (qb64 : Str) : Res Matter :=
  match qb64 with
  | [] => .err .emptyMaterial
  | first :: _ => do
    let hs ← hardage first
    if qb64.length < hs then .err .shortage
    else do
      let hard ← sliceStr qb64 0 hs
      let szg ← sizage hard
      let cs := szg.hs + szg.ss
      let (fs, size) ←
        (if szg.fs = u32Max then
          if cs % 4 ≠ 0 then .err .invalidCodeSize
          else if qb64.length < cs then .err .shortage
          else do
            let soft ← sliceStr qb64 szg.hs cs
            let size ← b64ToU32 soft
            .ok (size * 4 + cs, size)
        else .ok (szg.fs, 0) : Res (Nat × Nat))
      if qb64.length < fs then .err .shortage
      else do
        let trim ← sliceStr qb64 0 fs
        let ps := cs % 4
        let pbs := 2 * (if ps ≠ 0 then ps else szg.ls)
        let material ← sliceStr trim cs trim.length
        if ps ≠ 0 then do
          let paw ← b64Decode (List.replicate ps (ch 'A') ++ material)
          let pad ← slice paw 0 ps
          if beNat pad % 2 ^ pbs ≠ 0 then .err .prepad
          else do
            let raw ← slice paw ps paw.length
            .ok { code := hard, size := size, raw := raw }
        else do
          let paw ← b64Decode material
          let lead ← slice paw 0 szg.ls
          if beNat lead ≠ 0 then
            if szg.ls = 1 then .err .nonZeroedLeadByte else .err .nonZeroedLeadBytes
          else do
            let raw ← slice paw szg.ls paw.length
            .ok { code := hard, size := size, raw := raw }

/-- `src/core/matter/mod.rs` 423-509 `bexfil`. -/
def bexfil (E : Env) (qb2 : List UInt8) : Res Matter :=
  if qb2 = [] then .err .emptyMaterial
  else do
    let firsts ← nabSextets qb2 1
    match firsts with
    | [] => .panic
    | first :: _ => do
      let hs ← bardage first
      let bhs := (hs * 3 + 3) / 4
      if qb2.length < bhs then .err .shortage
      else do
        let hard ← codeB2ToB64 E qb2 hs
        let szg ← sizage hard
        let cs := szg.hs + szg.ss
        let bcs := (cs + 1) * 3 / 4
        let (fs, size) ←
          (if szg.fs = u32Max then
            if cs % 4 ≠ 0 then .err .parseQb2
            else if qb2.length < bcs then .err .shortage
            else do
              let both ← codeB2ToB64 E qb2 cs
              let soft ← sliceStr both szg.hs cs
              let size ← b64ToU32 soft
              .ok (size * 4 + cs, size)
          else .ok (szg.fs, 0) : Res (Nat × Nat))
        let bfs := (fs + 1) * 3 / 4
        if qb2.length < bfs then .err .shortage
        else do
          let trim := qb2.take bfs
          let ps := cs % 4
          let pbs := 2 * (if ps ≠ 0 then ps else szg.ls)
          if ps ≠ 0 then
            match trim[bcs - 1]? with
            | none => .panic
            | some b =>
              if b.toNat % 2 ^ pbs ≠ 0 then .err .nonZeroedPadBits
              else do
                let raw ← slice trim (bcs + szg.ls) trim.length
                .ok { code := hard, size := size, raw := raw }
          else if ((trim.take (bcs + szg.ls)).drop bcs).any (fun v => v ≠ 0) then
            if szg.ls = 1 then .err .nonZeroedLeadByte else .err .nonZeroedLeadBytes
          else do
            let raw ← slice trim (bcs + szg.ls) trim.length
            .ok { code := hard, size := size, raw := raw }

/-- `src/core/matter/mod.rs` 116-123. -/
def newWithQb64 (qb64 : Str) : Res Matter := exfil qb64

/-- `src/core/matter/mod.rs` 125-134. -/
def newWithQb64b (qb64b : List UInt8) : Res Matter := do
  let qb64 ← fromUtf8 qb64b
  exfil qb64

/-- `src/core/matter/mod.rs` 136-143. -/
def newWithQb2 (E : Env) (qb2 : List UInt8) : Res Matter := bexfil E qb2

/-- `src/core/matter/mod.rs` 17-41 `new`. -/
def new (E : Env) (code : Option Str) (raw : Option (List UInt8)) (qb64b : Option (List UInt8))
    (qb64 : Option Str) (qb2 : Option (List UInt8)) : Res Matter :=
  match raw with
  | some raw =>
    match code with
    | some code => newWithCodeAndRaw code raw
    | none => .err .emptyMaterial
  | none =>
    match qb64b with
    | some qb64b => newWithQb64b qb64b
    | none =>
      match qb64 with
      | some qb64 => newWithQb64 qb64
      | none =>
        match qb2 with
        | some qb2 => newWithQb2 E qb2
        | none => .err .validation

/-- `src/core/matter/mod.rs` 145-147 `qb64`. -/
def qb64 (E : Env) (m : Matter) : Res Str := infil E m
/-- `src/core/matter/mod.rs` 149-151 `qb64b`. -/
def qb64b (E : Env) (m : Matter) : Res (List UInt8) := qb64 E m
/-- `src/core/matter/mod.rs` 153-155 `qb2`. -/
def qb2 (E : Env) (m : Matter) : Res (List UInt8) := binfil E m

/-- `src/core/matter/mod.rs` 511-518 `full_size`. The size is assumed to come from a constructor, so that line 516 fits in a `u32`. -/
def fullSize (m : Matter) : Res Nat := do
  let szg ← sizage m.code
  if szg.fs ≠ u32Max then .ok szg.fs
  else .ok (szg.hs + szg.ss + m.size * 4)

/-- `src/core/matter/mod.rs` 157-171 `digestive`
(Blake3_256, Blake3_512, Blake2b_256, Blake2b_512, Blake2s_256, SHA3_256, SHA3_512, SHA2_256, SHA2_512;
`src/core/matter/tables.rs` 111-130). -/
def digestive (m : Matter) : Bool :=
  [lit "E", lit "0D", lit "F", lit "0E", lit "G", lit "H", lit "0F", lit "I", lit "0G"].contains m.code

/-- `src/core/matter/mod.rs` 173-182 `transferable`
(Ed25519N, ECDSA_256k1N, Ed448N, ECDSA_256r1N; `src/core/matter/tables.rs` 108-141). -/
def transferable (m : Matter) : Bool :=
  ![lit "B", lit "1AAA", lit "1AAC", lit "1AAI"].contains m.code

end Matter
end Cesride
