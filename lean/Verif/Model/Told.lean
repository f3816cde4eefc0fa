import Verif.Model.Signer
import Verif.Model.Value

/-! # What errors and panics say: the message texts of `src/core/matter/mod.rs`, `src/core/matter/tables.rs`, `src/core/util.rs`, `src/core/signer.rs`,
`src/core/salter.rs` and `src/error.rs`

The same functions as in `Model.Matter` and `Model.Signer`, with the text of the error (`to_string()`, the `Display` form) or of the panic.
Not followed: the `Debug` form of an error, backtraces. -/

namespace Cesride

/-- Outcome of a call with its message. -/
inductive Told (α : Type) where
  | ok (a : α)
  | err (e : Err) (text : Str)
  | panic (text : Str)
  deriving DecidableEq, Repr

namespace Told

/-- Sequencing with `?`. -/
def bind {α β : Type} (x : Told α) (f : α → Told β) : Told β :=
  match x with
  | ok a => f a
  | err e t => err e t
  | panic t => panic t

instance : Monad Told where
  pure := ok
  bind := Told.bind

/-- The outcome without the message. -/
def plain {α : Type} : Told α → Res α
  | ok a => .ok a
  | err e _ => .err e
  | panic _ => .panic

/-- A call whose message depends on the kind of error only: `f` for errors, `p` for a panic. -/
def tell {α : Type} (f : Err → Str) (p : Str) : Res α → Told α
  | .ok a => ok a
  | .err e => err e (f e)
  | .panic => panic p

end Told

/-- `base64::DecodeError` (crate `base64` 0.22). -/
inductive DecodeReport where
  | invalidByte (offset : Nat) (b : UInt8)
  | invalidLength (n : Nat)
  | invalidLastSymbol (offset : Nat) (b : UInt8)
  | invalidPadding
  deriving DecidableEq, Repr

/-- `Display` of `base64::DecodeError`. -/
def DecodeReport.text : DecodeReport → Str
  | .invalidByte o b => lit "Invalid symbol " ++ natDec b.toNat ++ lit ", offset " ++ natDec o ++ lit "."
  | .invalidLength n => lit "Invalid input length: " ++ natDec n
  | .invalidLastSymbol o b => lit "Invalid last symbol " ++ natDec b.toNat ++ lit ", offset " ++ natDec o ++ lit "."
  | .invalidPadding => lit "Invalid padding"

/-- What the decoder may report about a text it refuses: a byte outside its alphabet; or a length, a last symbol or the padding, when there is something
wrong with the length or there is a padding character. -/
def DecodeReport.About (s : Str) : DecodeReport → Prop
  | .invalidByte o b => s[o]? = some b ∧ sextetVal b = none
  | .invalidLength n => n ≤ s.length ∧ (ch '=' ∈ s ∨ s.length % 4 ≠ 0)
  | .invalidLastSymbol o b => s[o]? = some b ∧ (ch '=' ∈ s ∨ s.length % 4 ≠ 0)
  | .invalidPadding => ch '=' ∈ s ∨ s.length % 4 ≠ 0

/-- The messages of the standard library and of the foreign crates. They are not modelled: a theorem holds for any texts with these laws.
`decode s`: the report of the `base64` crate about a text `s` it refuses.
`utf8 s`: `valid_up_to` and `error_len` of the `Utf8Error` about `s`.
`slicing s a b`: the panic of `&s[a..b]` on a string, which quotes the string (`core::str::slice_error_fail`: whole up to 256 bytes).
`indexing n a b`: the panic of `&v[a..b]` on a slice of length `n`, which shows the numbers only.
`key`: the error of `SigningKey::from_slice` (`signature::Error`). `array`: `TryFromSliceError`. `argon p s n`: `argon2::Error`, which is about the
lengths of password, salt and output. `encodeSlice`: `EncodeSliceError`. `overflow`: the panic of an arithmetic overflow. -/
structure Voice where
  decode : Str → DecodeReport
  utf8 : Str → Nat × Option Nat
  slicing : Str → Nat → Nat → Str
  indexing : Nat → Nat → Nat → Str
  key : Str
  array : Str
  argon : Nat → Nat → Nat → Str
  encodeSlice : Str
  overflow : Str
  decode_about : ∀ s, b64DecodeOpt s = none → (decode s).About s
  slicing_quotes : ∀ s a b, s.length ≤ 256 → s <:+: slicing s a b

open Told

/-- `char` printed by `{}`: the first character of a text that starts at a character boundary. -/
def firstChar : Str → Str
  | [] => []
  | c :: r => c :: (r.take 3).takeWhile isCont

/-- `src/error.rs` 12-13 `UnexpectedCode`. -/
def unexpectedCodeText (s : Str) : Str := lit "unexpected code error: " ++ s
/-- `src/error.rs` 30-31 `Shortage`. -/
def shortageText (s : Str) : Str := lit "shortage: " ++ s
/-- `src/error.rs` 8-9 `EmptyMaterial`. -/
def emptyMaterialText (s : Str) : Str := lit "empty material: " ++ s
/-- `src/error.rs` 24-25 `InvalidCodeSize`. -/
def invalidCodeSizeText (s : Str) : Str := lit "invalid code size: " ++ s
/-- `Display` of `Utf8Error`. -/
def utf8Text : Nat × Option Nat → Str
  | (i, some n) => lit "invalid utf-8 sequence of " ++ natDec n ++ lit " bytes from index " ++ natDec i
  | (i, none) => lit "incomplete utf-8 byte sequence from index " ++ natDec i

/-- `src/core/util.rs` 145-153: the loop of `b64_to_u32` over characters; `InvalidBase64Character` (`src/error.rs` 26-27) shows the character. -/
def b64ToUintTold (modulus : Nat) : Nat → Str → Told Nat
  | out, [] => .ok out
  | out, c :: rest => do
    let i ← tell (fun _ => lit "invalid base64 character: " ++ firstChar (c :: rest)) [] (b64CharToIndex c)
    b64ToUintTold modulus (out * 64 % modulus + i) rest

/-- `src/core/util.rs` 215-243 `code_b2_to_b64`. -/
def codeB2ToB64Told (E : Env) (b2 : List UInt8) (length : Nat) : Told Str :=
  tell (fun e => if e = .matter then lit "matter error: " ++ (if b2.length < (length + 1) * 3 / 4 then lit "not enough bytes" else lit "unexpected length")
    else lit "invalid base64 index: ") [] (codeB2ToB64 E b2 length)

namespace Matter

/-- `src/core/matter/tables.rs` 16-70. -/
def sizageTold (s : Str) : Told Sizage := tell (fun _ => lit "unknown sizage: " ++ s) [] (sizage s)

/-- `src/core/matter/tables.rs` 72-81, on the first character of the text. -/
def hardageTold (s : Str) (first : UInt8) : Told Nat :=
  tell (fun e => if e = .unknownHardage then lit "unknown hardage: " ++ firstChar s
    else unexpectedCodeText (if first = ch '-' then lit "count code start" else lit "op code start")) [] (hardage first)

/-- `src/core/matter/tables.rs` 83-92. -/
def bardageTold (b : Nat) : Told Nat :=
  tell (fun e => if e = .unknownBardage then lit "unknown bardage: " ++ natDec b
    else unexpectedCodeText (if b = 0x3e then lit "count code start" else lit "op code start")) [] (bardage b)

/-- `src/core/matter/tables.rs` 94-102. -/
def rawSizeTold (code : Str) : Told Nat :=
  tell (fun e => if e = .unknownSizage then lit "unknown sizage: " ++ code
    else unexpectedCodeText (lit "cannot determine raw size for code=" ++ code)) [] (rawSize code)

/-- `src/core/matter/mod.rs` 51-99. -/
def selectCodeTold (V : Voice) (first : UInt8) (code : Str) (rawLen : Nat) : Told (Str × Nat × Nat) :=
  tell (fun e => if e = .invalidVarRawSize then lit "invalid variable raw size: unsupported raw size: code = '" ++ code ++ lit "'"
    else if e = .unknownSizage then lit "unknown sizage: " ++ code
    else unexpectedCodeText (lit "cannot determine raw size for code=" ++ code))
    (V.slicing code 1 (if first ∈ smallVrzDex then 2 else 4)) (selectCode first code rawLen)

/-- `src/core/matter/mod.rs` 43-114 `new_with_code_and_raw`. -/
def newWithCodeAndRawTold (V : Voice) (code : Str) (raw : List UInt8) : Told Matter :=
  match code with
  | [] => .err .emptyMaterial (emptyMaterialText (lit "empty code"))
  | first :: _ => do
    let (code', size, rize) ← selectCodeTold V first code raw.length
    if raw.length < rize then
      .err .shortage (shortageText (lit "insufficient raw material: raw size = " ++ natDec raw.length ++ lit ", rize = " ++ natDec rize))
    else .ok { code := code', size := size, raw := raw.take rize }

/-- `src/core/matter/mod.rs` 184-247 `infil`. -/
def infilTold (V : Voice) (E : Env) (m : Matter) : Told Str := do
  let ps := (3 - m.raw.length % 3) % 3
  let szg ← sizageTold m.code
  if szg.fs = u32Max then
    let cs := szg.hs + szg.ss
    if cs % 4 ≠ 0 then
      .err .invalidCodeSize (invalidCodeSizeText (lit "whole code size not multiple of 4 for variable length material: cs = " ++ natDec cs))
    else if 64 ^ szg.ss - 1 < m.size then
      .err .invalidVarSize (lit "invalid variable size: invalid size for code: size = " ++ natDec m.size ++ lit ", code = '" ++ m.code ++ lit "'")
    else do
      let soft ← tell (fun _ => lit "invalid base64 index: ") [] (uintToB64 E m.size szg.ss)
      let both := m.code ++ soft
      if (szg.ls ≤ ps ∧ both.length % 4 ≠ ps - szg.ls) ∨ (ps < szg.ls ∧ both.length % 4 ≠ szg.ls - ps) then
        .err .invalidCodeSize (invalidCodeSizeText (lit "invalid code for converted raw pad size: code = '" ++ both ++ lit "', pad size = " ++ natDec ps))
      else do
        let buffer := List.replicate szg.ls 0 ++ m.raw
        let b64 ← tell (fun _ => V.encodeSlice) [] (b64EncodeSlice buffer (buffer.length * 4 / 3))
        .ok (both ++ b64)
  else do
    let both := m.code
    let cs := both.length
    let d ← tell (fun _ => []) V.overflow (E.subU32 ps szg.ls)
    if cs % 4 ≠ d then
      .err .invalidCodeSize (invalidCodeSizeText (lit "invalid code for converted raw pad size: code = '" ++ both ++ lit "', pad size = " ++ natDec ps))
    else do
      let buffer := List.replicate ps 0 ++ m.raw
      let b64 ← tell (fun _ => V.encodeSlice) [] (b64EncodeSlice buffer (buffer.length * 4 / 3))
      let tail ← tell (fun _ => []) (V.slicing b64 (cs % 4) b64.length) (sliceStr b64 (cs % 4) b64.length)
      .ok (both ++ tail)

/-- `src/core/matter/mod.rs` 303-317. -/
def binfilFinishTold (ls fs : Nat) (both : Str) (bcode raw : List UInt8) : Told (List UInt8) :=
  let buffer := bcode ++ List.replicate ls 0 ++ raw
  let bfs := buffer.length
  if bfs % 3 ≠ 0 ∨ bfs * 4 / 3 ≠ fs then
    .err .invalidCodeSize (invalidCodeSizeText (lit "invalid code for raw size: code = '" ++ both ++ lit "', raw size = " ++ natDec raw.length))
  else .ok buffer

/-- `src/core/matter/mod.rs` 249-318 `binfil`. -/
def binfilTold (E : Env) (m : Matter) : Told (List UInt8) := do
  let szg ← sizageTold m.code
  let cs := szg.hs + szg.ss
  let (fs, both) ←
    (if szg.fs = u32Max then
      if cs % 4 ≠ 0 then
        .err .invalidCodeSize (invalidCodeSizeText (lit "whole code size not multiple of 4 for variable length material: cs = " ++ natDec cs))
      else if 64 ^ szg.ss - 1 < m.size then
        .err .invalidVarSize (lit "invalid variable size: invalid size for code: size = " ++ natDec m.size ++ lit ", code = '" ++ m.code ++ lit "'")
      else do
        let soft ← tell (fun _ => lit "invalid base64 index: ") [] (uintToB64 E m.size szg.ss)
        .ok (cs + m.size * 4, m.code ++ soft)
    else .ok (szg.fs, m.code) : Told (Nat × Str))
  if both.length ≠ cs then
    .err .invalidCodeSize (invalidCodeSizeText (lit "mismatched code size with table: code size = " ++ natDec cs ++ lit ", table size = " ++ natDec both.length))
  else
    let n := (cs + 1) * 3 / 4
    if n ≤ 3 then do
      let v ← b64ToUintTold (2 ^ 32) 0 both
      let full := toBe 4 (v * 2 ^ (2 * (cs % 4)) % 2 ^ 32)
      binfilFinishTold szg.ls fs both (full.drop (4 - n)) m.raw
    else if n ≤ 6 then do
      let v ← b64ToUintTold (2 ^ 64) 0 both
      let full := toBe 8 (v * 2 ^ (2 * (cs % 4)) % 2 ^ 64)
      binfilFinishTold szg.ls fs both (full.drop (8 - n)) m.raw
    else .err .invalidCodeSize (invalidCodeSizeText (lit "unsupported code size: cs = " ++ natDec cs))

/-- `src/core/matter/mod.rs` 321-366: the part of `exfil` that reads the code: hard part, sizes, full size and size. -/
def exfilHeadTold (V : Voice) (qb64 : Str) : Told (Str × Sizage × Nat × Nat) :=
  match qb64 with
  | [] => .err .emptyMaterial (emptyMaterialText (lit "empty qb64"))
  | first :: _ => do
    let hs ← hardageTold qb64 first
    if qb64.length < hs then
      .err .shortage (shortageText (lit "insufficient material for hard part of code: qb64 size = " ++ natDec qb64.length ++ lit ", hs = " ++ natDec hs))
    else do
      let hard ← tell (fun _ => []) (V.slicing qb64 0 hs) (sliceStr qb64 0 hs)
      let szg ← sizageTold hard
      let cs := szg.hs + szg.ss
      let (fs, size) ←
        (if szg.fs = u32Max then
          if cs % 4 ≠ 0 then
            .err .invalidCodeSize (invalidCodeSizeText (lit "code size not multiple of 4 for variable length material: cs = " ++ natDec cs))
          else if qb64.length < cs then
            .err .shortage (shortageText (lit "insufficient material for code: qb64 size = " ++ natDec qb64.length ++ lit ", cs = " ++ natDec cs))
          else do
            let soft ← tell (fun _ => []) (V.slicing qb64 szg.hs cs) (sliceStr qb64 szg.hs cs)
            let size ← b64ToUintTold (2 ^ 32) 0 soft
            .ok (size * 4 + cs, size)
        else .ok (szg.fs, 0) : Told (Nat × Nat))
      if qb64.length < fs then
        .err .shortage (shortageText (lit "insufficient material: qb64 size = " ++ natDec qb64.length ++ lit ", fs = " ++ natDec fs))
      else .ok (hard, szg, fs, size)

/-- `src/core/matter/mod.rs` 368-421: the part of `exfil` that reads the material. -/
def exfilTailTold (V : Voice) (qb64 hard : Str) (szg : Sizage) (fs size : Nat) : Told Matter := do
  let cs := szg.hs + szg.ss
  let trim ← tell (fun _ => []) (V.slicing qb64 0 fs) (sliceStr qb64 0 fs)
  let ps := cs % 4
  let pbs := 2 * (if ps ≠ 0 then ps else szg.ls)
  let material ← tell (fun _ => []) (V.slicing trim cs trim.length) (sliceStr trim cs trim.length)
  if ps ≠ 0 then do
    let buf := List.replicate ps (ch 'A') ++ material
    let paw ← tell (fun _ => (V.decode buf).text) [] (b64Decode buf)
    let pad ← tell (fun _ => []) (V.indexing paw.length 0 ps) (slice paw 0 ps)
    if beNat pad % 2 ^ pbs ≠ 0 then .err .prepad (lit "prepad error")
    else do
      let raw ← tell (fun _ => []) (V.indexing paw.length ps paw.length) (slice paw ps paw.length)
      .ok { code := hard, size := size, raw := raw }
  else do
    let paw ← tell (fun _ => (V.decode material).text) [] (b64Decode material)
    let lead ← tell (fun _ => []) (V.indexing paw.length 0 szg.ls) (slice paw 0 szg.ls)
    if beNat lead ≠ 0 then
      if szg.ls = 1 then .err .nonZeroedLeadByte (lit "non-zeroed lead byte") else .err .nonZeroedLeadBytes (lit "non-zeroed lead bytes")
    else do
      let raw ← tell (fun _ => []) (V.indexing paw.length szg.ls paw.length) (slice paw szg.ls paw.length)
      .ok { code := hard, size := size, raw := raw }

/-- `src/core/matter/mod.rs` 320-421 `exfil`. -/
def exfilTold (V : Voice) (qb64 : Str) : Told Matter := do
  let (hard, szg, fs, size) ← exfilHeadTold V qb64
  exfilTailTold V qb64 hard szg fs size

/-- `src/core/matter/mod.rs` 424-469: the part of `bexfil` that reads the code. -/
def bexfilHeadTold (V : Voice) (E : Env) (qb2 : List UInt8) : Told (Str × Sizage × Nat × Nat) :=
  if qb2 = [] then .err .emptyMaterial (emptyMaterialText (lit "empty qualified base2"))
  else do
    let firsts ← tell (fun _ => lit "need " ++ natDec (1 - qb2.length) ++ lit " more characters") (V.indexing 0 0 1) (nabSextets qb2 1)
    match firsts with
    | [] => .panic (V.indexing 0 0 1)
    | first :: _ => do
      let hs ← bardageTold first
      let bhs := (hs * 3 + 3) / 4
      if qb2.length < bhs then
        .err .shortage (shortageText (lit "insufficient material for hard part of code: qb2 size = " ++ natDec qb2.length ++ lit ", bhs = " ++ natDec bhs))
      else do
        let hard ← codeB2ToB64Told E qb2 hs
        let szg ← sizageTold hard
        let cs := szg.hs + szg.ss
        let bcs := (cs + 1) * 3 / 4
        let (fs, size) ←
          (if szg.fs = u32Max then
            if cs % 4 ≠ 0 then
              .err .parseQb2 (lit "error parsing qb2: code size not multiple of 4 for variable length material: cs = " ++ natDec cs)
            else if qb2.length < bcs then
              .err .shortage (shortageText (lit "insufficient material for code: qb2 size = " ++ natDec qb2.length ++ lit ", bcs = " ++ natDec bcs))
            else do
              let both ← codeB2ToB64Told E qb2 cs
              let soft ← tell (fun _ => []) (V.slicing both szg.hs cs) (sliceStr both szg.hs cs)
              let size ← b64ToUintTold (2 ^ 32) 0 soft
              .ok (size * 4 + cs, size)
          else .ok (szg.fs, 0) : Told (Nat × Nat))
        let bfs := (fs + 1) * 3 / 4
        if qb2.length < bfs then
          .err .shortage (shortageText (lit "insufficient material: qb2 size = " ++ natDec qb2.length ++ lit ", bfs = " ++ natDec bfs))
        else .ok (hard, szg, fs, size)

/-- `src/core/matter/mod.rs` 471-509: the part of `bexfil` that reads the material. -/
def bexfilTailTold (V : Voice) (qb2 : List UInt8) (hard : Str) (szg : Sizage) (fs size : Nat) : Told Matter :=
  let cs := szg.hs + szg.ss
  let bcs := (cs + 1) * 3 / 4
  let bfs := (fs + 1) * 3 / 4
  let trim := qb2.take bfs
  let ps := cs % 4
  let pbs := 2 * (if ps ≠ 0 then ps else szg.ls)
  if ps ≠ 0 then
    match trim[bcs - 1]? with
    | none => .panic (V.indexing trim.length (bcs - 1) bcs)
    | some b =>
      if b.toNat % 2 ^ pbs ≠ 0 then .err .nonZeroedPadBits (lit "non-zeroed pad bits")
      else do
        let raw ← tell (fun _ => []) (V.indexing trim.length (bcs + szg.ls) trim.length) (slice trim (bcs + szg.ls) trim.length)
        .ok { code := hard, size := size, raw := raw }
  else if ((trim.take (bcs + szg.ls)).drop bcs).any (fun v => v ≠ 0) then
    if szg.ls = 1 then .err .nonZeroedLeadByte (lit "non-zeroed lead byte") else .err .nonZeroedLeadBytes (lit "non-zeroed lead bytes")
  else do
    let raw ← tell (fun _ => []) (V.indexing trim.length (bcs + szg.ls) trim.length) (slice trim (bcs + szg.ls) trim.length)
    .ok { code := hard, size := size, raw := raw }

/-- `src/core/matter/mod.rs` 423-509 `bexfil`. -/
def bexfilTold (V : Voice) (E : Env) (qb2 : List UInt8) : Told Matter := do
  let (hard, szg, fs, size) ← bexfilHeadTold V E qb2
  bexfilTailTold V qb2 hard szg fs size

/-- `src/core/matter/mod.rs` 125-134 `new_with_qb64b`. -/
def newWithQb64bTold (V : Voice) (qb64b : List UInt8) : Told Matter := do
  let qb64 ← tell (fun _ => utf8Text (V.utf8 qb64b)) [] (fromUtf8 qb64b)
  exfilTold V qb64

/-- `src/core/matter/mod.rs` 17-41 `new`. -/
def newTold (V : Voice) (E : Env) (code : Option Str) (raw : Option (List UInt8)) (qb64b : Option (List UInt8))
    (qb64 : Option Str) (qb2 : Option (List UInt8)) : Told Matter :=
  match raw with
  | some raw =>
    match code with
    | some code => newWithCodeAndRawTold V code raw
    | none => .err .emptyMaterial (emptyMaterialText (lit "empty code specified with raw"))
  | none =>
    match qb64b with
    | some qb64b => newWithQb64bTold V qb64b
    | none =>
      match qb64 with
      | some qb64 => exfilTold V qb64
      | none =>
        match qb2 with
        | some qb2 => bexfilTold V E qb2
        | none => .err .validation (lit "must specify raw and code, qb64b, qb64 or qb2")

end Matter

namespace Sign

/-- `src/crypto/sign.rs` 22-38 `public_key`. -/
def publicKeyTold (V : Voice) (C : Crypto) (code : Str) (key : List UInt8) : Told (List UInt8) :=
  tell (fun e => if e = .crypto then V.key else unexpectedCodeText code) (V.indexing key.length 0 32) (publicKey C code key)

/-- `src/crypto/sign.rs` 40-56 `sign`. -/
def signTold (V : Voice) (C : Crypto) (code : Str) (key ser : List UInt8) (r : Nat) : Told (List UInt8) :=
  tell (fun e => if e = .crypto then V.key else if e = .tryFrom then V.array else unexpectedCodeText code) [] (sign C code key ser r)

end Sign

namespace Verfer

/-- `src/core/verfer.rs` 37-48 `new`. -/
def newTold (V : Voice) (E : Env) (code : Option Str) (raw : Option (List UInt8)) (qb64b : Option (List UInt8)) (qb64 : Option Str)
    (qb2 : Option (List UInt8)) : Told Matter := do
  let code := code.getD (lit "B")
  let verfer ← Matter.newTold V E (some code) raw qb64b qb64 qb2
  tell (fun _ => unexpectedCodeText verfer.code) [] (validateCode verfer.code)
  .ok verfer

end Verfer

namespace Cigar

/-- `src/core/cigar.rs` 40-54 `new`. -/
def newTold (V : Voice) (E : Env) (verfer : Option Matter) (code : Option Str) (raw : Option (List UInt8)) (qb64b : Option (List UInt8))
    (qb64 : Option Str) (qb2 : Option (List UInt8)) : Told Cigar := do
  let m ← Matter.newTold V E code raw qb64b qb64 qb2
  tell (fun _ => unexpectedCodeText m.code) [] (validateCode m.code)
  .ok { matter := m, verfer := verfer.getD Verfer.default }

end Cigar

namespace Signer

/-- `src/core/signer.rs` 74-92 `derive_verfer`. -/
def deriveVerferTold (V : Voice) (E : Env) (C : Crypto) (code : Str) (key : List UInt8) (transferable : Bool) : Told Matter := do
  let verferCode ← tell (fun _ => unexpectedCodeText code) []
    (if transferable then
      if code = lit "A" then .ok (lit "D")
      else if code = lit "J" then .ok (lit "1AAB")
      else if code = lit "Q" then .ok (lit "1AAJ")
      else .err .unexpectedCode
    else
      if code = lit "A" then .ok (lit "B")
      else if code = lit "J" then .ok (lit "1AAA")
      else if code = lit "Q" then .ok (lit "1AAI")
      else .err .unexpectedCode : Res Str)
  let raw ← Sign.publicKeyTold V C code key
  Verfer.newTold V E (some verferCode) (some raw) none none none

/-- `src/core/signer.rs` 95-120 `new`. -/
def newTold (V : Voice) (E : Env) (C : Crypto) (r : Nat) (transferable : Option Bool) (code : Option Str) (raw : Option (List UInt8))
    (qb64b : Option (List UInt8)) (qb64 : Option Str) (qb2 : Option (List UInt8)) : Told Signer := do
  let transferable := transferable.getD true
  let m ←
    (if qb64b.isNone ∧ qb64.isNone ∧ qb2.isNone then do
      let code := code.getD (lit "A")
      tell (fun _ => unexpectedCodeText code) [] (validateCode code)
      let raw ← tell (fun _ => unexpectedCodeText code) []
        (match raw with
        | some raw => .ok raw
        | none => Sign.generate C code r : Res (List UInt8))
      Matter.newTold V E (some code) (some raw) none none none
    else do
      let m ← Matter.newTold V E code raw qb64b qb64 qb2
      tell (fun _ => unexpectedCodeText m.code) [] (validateCode m.code)
      .ok m : Told Matter)
  let verfer ← deriveVerferTold V E C m.code m.raw transferable
  .ok { matter := m, verfer := verfer }

/-- `src/core/signer.rs` 146-156 `sign_unindexed`. -/
def signUnindexedTold (V : Voice) (E : Env) (C : Crypto) (s : Signer) (ser : List UInt8) (r : Nat) : Told Cigar := do
  let code ← tell (fun _ => unexpectedCodeText s.matter.code) []
    (if s.matter.code = lit "A" then .ok (lit "0B")
    else if s.matter.code = lit "J" then .ok (lit "0C")
    else if s.matter.code = lit "Q" then .ok (lit "0I")
    else .err .unexpectedCode : Res Str)
  let sig ← Sign.signTold V C s.matter.code s.matter.raw ser r
  Cigar.newTold V E (some s.verfer) (some code) (some sig) none none none

end Signer

/-- `src/crypto/salt.rs` 5-36 `params` and `stretch`. -/
def stretchSaltTold (V : Voice) (C : Crypto) (pwd salt : List UInt8) (length : Nat) (tier : Str) : Told (List UInt8) :=
  tell (fun e => if e = .value then lit "unknown security tier selected" else V.argon pwd.length salt.length length) [] (stretchSalt C pwd salt length tier)

namespace Salter

/-- `src/core/salter.rs` 35-59 `new`. -/
def newTold (V : Voice) (E : Env) (rnd : List UInt8) (tier code : Option Str) (raw : Option (List UInt8)) (qb64b : Option (List UInt8))
    (qb64 : Option Str) (qb2 : Option (List UInt8)) : Told Salter := do
  let code := code.getD (lit "0A")
  if code ≠ lit "0A" then .err .unexpectedCode (unexpectedCodeText code)
  else do
    let m ←
      (if raw.isNone ∧ qb64b.isNone ∧ qb64.isNone ∧ qb2.isNone then Matter.newTold V E (some code) (some rnd) none none none
      else Matter.newTold V E (some code) raw qb64b qb64 qb2 : Told Matter)
    .ok { matter := m, tier := tier.getD (lit "low") }

/-- `src/core/salter.rs` 81-97 `stretch`. -/
def stretchTold (V : Voice) (C : Crypto) (s : Salter) (size : Option Nat) (path tier : Option Str) (temp : Option Bool) : Told (List UInt8) :=
  let tier := if temp.getD false then lit "min" else tier.getD s.tier
  stretchSaltTold V C (path.getD []) s.matter.raw (size.getD 32) tier

/-- `src/core/salter.rs` 103-123 `signer`. -/
def signerTold (V : Voice) (E : Env) (C : Crypto) (s : Salter) (code : Option Str) (transferable : Option Bool) (path tier : Option Str)
    (temp : Option Bool) : Told Signer := do
  let code := code.getD (lit "A")
  let transferable := transferable.getD true
  let path := path.getD []
  let temp := temp.getD false
  let size ← Matter.rawSizeTold code
  let seed ← stretchTold V C s (some size) (some path) tier (some temp)
  Signer.newTold V E C 0 (some transferable) (some code) (some seed) none none none

end Salter

/-! ### `{:?}` -/

/-- Rest of the `Debug` form of a vector of bytes, after an element. -/
def debugMore : List UInt8 → Str
  | [] => lit "]"
  | b :: r => lit ", " ++ natDec b.toNat ++ debugMore r

/-- `Debug` of `Vec<u8>` without the alternate flag: `[1, 2, 3]`. -/
def debugBytes : List UInt8 → Str
  | [] => lit "[]"
  | b :: r => lit "[" ++ natDec b.toNat ++ debugMore r

/-- `src/core/verfer.rs` 5-10: derived `Debug`. `quote` is `Debug` of `String`, which is not modelled. -/
def Verfer.debug (quote : Str → Str) (v : Matter) : Str :=
  lit "Verfer { raw: " ++ debugBytes v.raw ++ lit ", code: " ++ quote v.code ++ lit ", size: " ++ natDec v.size ++ lit " }"

/-- `src/core/signer.rs` 37-46: derived `Debug`, fields in the order of the declaration. -/
def Signer.debug (quote : Str → Str) (s : Signer) : Str :=
  lit "Signer { raw: " ++ (debugBytes s.matter.raw ++ (lit ", code: " ++ quote s.matter.code ++ lit ", size: " ++ natDec s.matter.size ++ lit ", verfer: "
    ++ Verfer.debug quote s.verfer ++ lit " }"))

/-- `src/core/salter.rs` 13-21: derived `Debug`. -/
def Salter.debug (quote : Str → Str) (s : Salter) : Str :=
  lit "Salter { code: " ++ quote s.matter.code ++ lit ", raw: " ++ (debugBytes s.matter.raw ++ (lit ", size: " ++ natDec s.matter.size ++ lit ", tier: " ++ quote s.tier ++ lit " }"))

end Cesride
