import Verif.Model.Matter

/-! # Model of `src/core/indexer/tables.rs` and `src/core/indexer/mod.rs` -/

namespace Cesride

/-- `src/core/indexer/tables.rs` 130-137. -/
structure ISizage where
  hs : Nat
  ss : Nat
  os : Nat
  ls : Nat
  fs : Nat
  deriving DecidableEq, Repr

/-- The state every `Indexer` implementor holds (`src/core/indexer/mod.rs` 15-27). -/
structure Indexer where
  code : Str
  raw : List UInt8
  index : Nat
  ondex : Nat
  deriving DecidableEq, Repr

namespace Indexer

/-- The arms of `src/core/indexer/tables.rs` 141-159. -/
def sizes : List (Str × ISizage) := [
  (lit "A", { hs := 1, ss := 1, os := 0, fs := 88, ls := 0 }),
  (lit "B", { hs := 1, ss := 1, os := 0, fs := 88, ls := 0 }),
  (lit "C", { hs := 1, ss := 1, os := 0, fs := 88, ls := 0 }),
  (lit "D", { hs := 1, ss := 1, os := 0, fs := 88, ls := 0 }),
  (lit "E", { hs := 1, ss := 1, os := 0, fs := 88, ls := 0 }),
  (lit "F", { hs := 1, ss := 1, os := 0, fs := 88, ls := 0 }),
  (lit "0A", { hs := 2, ss := 2, os := 1, fs := 156, ls := 0 }),
  (lit "0B", { hs := 2, ss := 2, os := 1, fs := 156, ls := 0 }),
  (lit "2A", { hs := 2, ss := 4, os := 2, fs := 92, ls := 0 }),
  (lit "2B", { hs := 2, ss := 4, os := 2, fs := 92, ls := 0 }),
  (lit "2C", { hs := 2, ss := 4, os := 2, fs := 92, ls := 0 }),
  (lit "2D", { hs := 2, ss := 4, os := 2, fs := 92, ls := 0 }),
  (lit "2E", { hs := 2, ss := 4, os := 2, fs := 92, ls := 0 }),
  (lit "2F", { hs := 2, ss := 4, os := 2, fs := 92, ls := 0 }),
  (lit "3A", { hs := 2, ss := 6, os := 3, fs := 160, ls := 0 }),
  (lit "3B", { hs := 2, ss := 6, os := 3, fs := 160, ls := 0 }),
  (lit "0z", { hs := 2, ss := 2, os := 0, fs := u32Max, ls := 0 }),
  (lit "1z", { hs := 2, ss := 2, os := 1, fs := 76, ls := 1 }),
  (lit "4z", { hs := 2, ss := 6, os := 3, fs := 80, ls := 1 })]

/-- `src/core/indexer/tables.rs` 139-162 `sizage`. -/
def sizage (s : Str) : Res ISizage :=
  match sizes.lookup s with
  | some z => .ok z
  | none => .err .unknownSizage

/-- `src/core/indexer/tables.rs` 164-172 `hardage`, on the first UTF-8 byte. -/
def hardage (c : UInt8) : Res Nat :=
  if (ch 'A' ≤ c ∧ c ≤ ch 'Z') ∨ (ch 'a' ≤ c ∧ c ≤ ch 'z') then .ok 1
  else if ch '0' ≤ c ∧ c ≤ ch '4' then .ok 2
  else if c = ch '-' then .err .unexpectedCode
  else if c = ch '_' then .err .unexpectedCode
  else .err .unknownHardage

/-- `src/core/indexer/tables.rs` 174-182 `bardage`. -/
def bardage (b : Nat) : Res Nat :=
  if b ≤ 0x33 then .ok 1
  else if 0x34 ≤ b ∧ b ≤ 0x38 then .ok 2
  else if b = 0x3e then .err .unexpectedCode
  else if b = 0x3f then .err .unexpectedCode
  else .err .unknownBardage

/-- `CurrentSigCodex::has_code`, `src/core/indexer/tables.rs` 71-95. -/
def isCurrent (code : Str) : Bool :=
  [lit "B", lit "D", lit "F", lit "0B", lit "2B", lit "2D", lit "2F", lit "3B"].contains code

/-- `BothSigCodex::has_code`, `src/core/indexer/tables.rs` 99-123. -/
def isBoth (code : Str) : Bool :=
  [lit "A", lit "C", lit "E", lit "0A", lit "2A", lit "2C", lit "2E", lit "3A"].contains code

/-- `src/core/indexer/mod.rs` 60-148 `new_with_code_and_raw`. `index` and `ondex` are `u32`; `64_u32.pow(ms)`,
`64_u32.pow(os)` fit because `ms, os ≤ 3` in the table; `index * 4 + cs` fits because `index ≤ 4095` there. -/
def newWithCodeAndRaw (code : Str) (raw : List UInt8) (index : Nat) (ondex : Option Nat) : Res Indexer :=
  if code = [] then .err .emptyMaterial
  else do
    let szg ← sizage code
    let cs := szg.hs + szg.ss
    let ms := szg.ss - szg.os
    if 64 ^ ms - 1 < index then .err .invalidVarIndex
    else if (match ondex with
        | some o => decide (0 < szg.os ∧ 64 ^ szg.os - 1 < o)
        | none => false) = true then .err .invalidVarIndex
    else if isCurrent code = true ∧ ondex.isSome = true then .err .invalidVarIndex
    else do
      let ondex ←
        (if isBoth code then
          match ondex with
          | none => .ok (some index)
          | some o => .ok (some o)
        else
          match ondex with
          | some o => if o ≠ index ∧ szg.os = 0 then .err .invalidVarIndex else .ok (some o)
          | none => .ok none : Res (Option Nat))
      let fs ←
        (if szg.fs = u32Max then
          if cs % 4 ≠ 0 then .err .invalidCodeSize
          else if szg.os ≠ 0 then .err .invalidCodeSize
          else .ok (index * 4 + cs)
        else .ok szg.fs : Res Nat)
      let rize := (fs - cs) * 3 / 4
      if raw.length < rize then .err .shortage
      else .ok { code := code, raw := raw.take rize, index := index, ondex := ondex.getD 0 }

/-- `src/core/indexer/mod.rs` 201-279 `infil`. Line 228 computes in `u32`, before the index is tested. `URL_SAFE.encode` pads with `=`; `buffer` always has a length divisible
by 3. -/
def infil (E : Env) (x : Indexer) : Res Str := do
  let ps := (3 - x.raw.length % 3) % 3
  let szg ← sizage x.code
  let cs := szg.hs + szg.ss
  let ms := szg.ss - szg.os
  let fs ←
    (if szg.fs = u32Max then
      if cs % 4 ≠ 0 then .err .invalidCodeSize
      else if szg.os ≠ 0 then .err .invalidCodeSize
      else E.fitU32 (x.index * 4 + cs)
    else .ok szg.fs : Res Nat)
  if 64 ^ ms - 1 < x.index then .err .invalidVarIndex
  else if 0 < szg.os ∧ 64 ^ szg.os - 1 < x.ondex then .err .invalidVarIndex
  else do
    let i ← uintToB64 E x.index ms
    let o ← uintToB64 E x.ondex szg.os
    let both := x.code ++ i ++ o
    if both.length ≠ cs then .err .invalidCodeSize
    else do
      let d ← E.subU32 ps szg.ls
      if cs % 4 ≠ d then .err .invalidCodeSize
      else do
        let b64 := b64Encode (List.replicate ps 0 ++ x.raw)
        let tail ← sliceStr b64 (ps - szg.ls) b64.length
        let full := both ++ tail
        if full.length ≠ fs then .err .invalidCodeSize else .ok full

/-- `64_u32.pow(ss) - 1` in `src/core/indexer/mod.rs` 295. For `ss ≥ 6` the power overflows: a panic in the
debug profile; in release it wraps to 0 and the subtraction wraps to `u32::MAX`. -/
def powBound (E : Env) (ss : Nat) : Res Nat :=
  if ss ≤ 5 then .ok (64 ^ ss - 1) else if E.overflowChecks then .panic else .ok u32Max

/-- `src/core/indexer/mod.rs` 284-376 `binfil`. -/
def binfil (E : Env) (x : Indexer) : Res (List UInt8) := do
  let ps := (3 - x.raw.length % 3) % 3
  let szg ← sizage x.code
  let cs := szg.hs + szg.ss
  let ms := szg.ss - szg.os
  let bound ← powBound E szg.ss
  if bound < x.index then .err .invalidVarIndex
  else if szg.os = 1 ∧ 64 ^ szg.os - 1 < x.ondex then .err .invalidVarIndex
  else do
    let fs ←
      (if szg.fs = u32Max then
        if cs % 4 ≠ 0 then .err .invalidCodeSize
        else if szg.os ≠ 0 then .err .invalidCodeSize
        else .ok (x.index * 4 + cs)
      else .ok szg.fs : Res Nat)
    let i ← uintToB64 E x.index ms
    let o ← uintToB64 E x.ondex szg.os
    let both := x.code ++ i ++ o
    if both.length ≠ cs then .err .invalidCodeSize
    else do
      let d ← E.subU32 ps szg.ls
      if cs % 4 ≠ d then .err .invalidCodeSize
      else
        let n := (cs + 1) * 3 / 4
        if n ≤ 3 then do
          let v ← b64ToU32 both
          let full := toBe 4 (v * 2 ^ (2 * (cs % 4)) % 2 ^ 32)
          finish szg.ls fs (full.drop (4 - n)) x.raw
        else if n ≤ 6 then do
          let v ← b64ToU64 both
          let full := toBe 8 (v * 2 ^ (2 * (cs % 4)) % 2 ^ 64)
          finish szg.ls fs (full.drop (8 - n)) x.raw
        else .err .invalidCodeSize
where
  /-- `src/core/indexer/mod.rs` 362-375. -/
  finish (ls fs : Nat) (bcode raw : List UInt8) : Res (List UInt8) :=
    let buffer := bcode ++ List.replicate ls 0 ++ raw
    let bfs := buffer.length
    if bfs % 3 ≠ 0 ∨ bfs * 4 / 3 ≠ fs then .err .invalidCodeSize
    else .ok buffer

/-- `src/core/indexer/mod.rs` 413-429 and 546-565: the ondex that the soft part stands for. `odx` is the ondex
part of the text. -/
def readOndex (hard : Str) (os index : Nat) (odx : Str) : Res Nat :=
  if isCurrent hard then
    if os ≠ 0 then do
      let o ← b64ToU32 odx
      if o ≠ 0 then .err .value else .ok 0
    else .ok 0
  else if os ≠ 0 then b64ToU32 odx
  else .ok index

/-- `src/core/indexer/mod.rs` 382-508 `exfil`. -/
def exfil (qb64 : Str) : Res Indexer :=
  match qb64 with
  | [] => .err .emptyMaterial
  | first :: _ => do
    let hs ← hardage first
    if qb64.length < hs then .err .shortage
    else do
      let hard ← sliceStr qb64 0 hs
      let szg ← sizage hard
      let cs := szg.hs + szg.ss
      let ms := szg.ss - szg.os
      if qb64.length < cs then .err .shortage
      else do
        let itext ← sliceStr qb64 hs (hs + ms)
        let index ← b64ToU32 itext
        let odx ← sliceStr qb64 (hs + ms) (hs + (ms + szg.os))
        let ondex ← readOndex hard szg.os index odx
        let fs ←
          (if szg.fs = u32Max then
            if cs % 4 ≠ 0 then .err .validation
            else if szg.os ≠ 0 then .err .validation
            else .ok (index * 4 + cs)
          else .ok szg.fs : Res Nat)
        if qb64.length < fs then .err .shortage
        else do
          let trim ← sliceStr qb64 0 fs
          let ps := cs % 4
          let pbs := 2 * (if ps ≠ 0 then ps else szg.ls)
          let material ← sliceStr trim cs trim.length
          if ps ≠ 0 then do
            let paw ← b64Decode (List.replicate ps (ch 'A') ++ material)
            let pad ← slice paw 0 ps
            if beNat pad % 2 ^ pbs ≠ 0 then .err .prepad
            else do
              let raw ← slice paw ps paw.length
              .ok { code := hard, raw := raw, index := index, ondex := ondex }
          else do
            let paw ← b64Decode material
            let lead ← slice paw 0 szg.ls
            if beNat lead ≠ 0 then
              if szg.ls = 1 then .err .nonZeroedLeadByte else .err .nonZeroedLeadBytes
            else do
              let raw ← slice paw ps paw.length
              .ok { code := hard, raw := raw, index := index, ondex := ondex }

/-- `src/core/indexer/mod.rs` 514-631 `bexfil`. -/
def bexfil (E : Env) (qb2 : List UInt8) : Res Indexer :=
  if qb2 = [] then .err .emptyMaterial
  else do
    let firsts ← nabSextets qb2 1
    match firsts with
    | [] => .panic
    | first :: _ => do
      let hs ← bardage first
      let bhs := (hs * 3 + 3) / 4
      if qb2.length < bhs then .err .shortage
      else do
        let hard ← codeB2ToB64 E qb2 hs
        let szg ← sizage hard
        let cs := szg.hs + szg.ss
        let ms := szg.ss - szg.os
        let bcs := (cs + 1) * 3 / 4
        if qb2.length < bcs then .err .shortage
        else do
          let both ← codeB2ToB64 E qb2 cs
          let itext ← sliceStr both hs (hs + ms)
          let index ← b64ToU32 itext
          let odx ← sliceStr both (hs + ms) (hs + (ms + szg.os))
          let ondex ← readOndex hard szg.os index odx
          let fs ←
            (if szg.fs = u32Max then
              if cs % 4 ≠ 0 then .err .parseQb2
              else if szg.os ≠ 0 then .err .validation
              else .ok (index * 4 + cs)
            else .ok szg.fs : Res Nat)
          let bfs := (fs + 1) * 3 / 4
          if qb2.length < bfs then .err .shortage
          else do
            let trim := qb2.take bfs
            let ps := cs % 4
            let pbs := 2 * (if ps ≠ 0 then ps else szg.ls)
            if ps ≠ 0 then
              match trim[bcs - 1]? with
              | none => .panic
              | some b =>
                if b.toNat % 2 ^ pbs ≠ 0 then .err .nonZeroedPadBits
                else do
                  let raw ← slice trim (bcs + szg.ls) trim.length
                  .ok { code := hard, raw := raw, index := index, ondex := ondex }
            else if ((trim.take (bcs + szg.ls)).drop bcs).any (fun v => v ≠ 0) then
              if szg.ls = 1 then .err .nonZeroedLeadByte else .err .nonZeroedLeadBytes
            else do
              let raw ← slice trim (bcs + szg.ls) trim.length
              .ok { code := hard, raw := raw, index := index, ondex := ondex }

/-- `src/core/indexer/mod.rs` 159-168. -/
def newWithQb64b (qb64b : List UInt8) : Res Indexer := do
  let qb64 ← fromUtf8 qb64b
  exfil qb64

/-- `src/core/indexer/mod.rs` 30-58 `new` (and 150-157, 170-177). -/
def new (E : Env) (index ondex : Option Nat) (code : Option Str) (raw : Option (List UInt8))
    (qb64b : Option (List UInt8)) (qb64 : Option Str) (qb2 : Option (List UInt8)) : Res Indexer :=
  let index := index.getD 0
  match raw with
  | some raw =>
    match code with
    | some code => newWithCodeAndRaw code raw index ondex
    | none => .err .emptyMaterial
  | none =>
    match qb64b with
    | some qb64b => newWithQb64b qb64b
    | none =>
      match qb64 with
      | some qb64 => exfil qb64
      | none =>
        match qb2 with
        | some qb2 => bexfil E qb2
        | none => .err .validation

/-- `src/core/indexer/mod.rs` 181-183 `qb64`. -/
def qb64 (E : Env) (x : Indexer) : Res Str := infil E x
/-- `src/core/indexer/mod.rs` 187-189 `qb64b`. -/
def qb64b (E : Env) (x : Indexer) : Res (List UInt8) := qb64 E x
/-- `src/core/indexer/mod.rs` 192-194 `qb2`. -/
def qb2 (E : Env) (x : Indexer) : Res (List UInt8) := binfil E x

/-- `src/core/indexer/mod.rs` 633-641 `full_size`. The index is assumed to come from a constructor, so that line 639 fits in a `u32`. -/
def fullSize (x : Indexer) : Res Nat := do
  let szg ← sizage x.code
  if szg.fs ≠ u32Max then .ok szg.fs
  else .ok (x.index * 4 + (szg.hs + szg.ss))

end Indexer
end Cesride
