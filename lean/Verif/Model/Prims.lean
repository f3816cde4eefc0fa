import Verif.Model.Counter
import Verif.Model.Matter

/-! # Model of `src/core/number.rs`, `src/core/seqner.rs`, `src/core/bexter.rs`, `src/core/dater.rs`

Every object is a `Matter` (code, size, raw). -/

namespace Cesride

/-- Value of an ASCII hexadecimal digit, `char::to_digit(16)` on a byte. -/
def hexDigit (c : UInt8) : Option Nat :=
  if ch '0' ≤ c ∧ c ≤ ch '9' then some (c.toNat - 48)
  else if ch 'a' ≤ c ∧ c ≤ ch 'f' then some (c.toNat - 97 + 10)
  else if ch 'A' ≤ c ∧ c ≤ ch 'F' then some (c.toNat - 65 + 10)
  else none

/-- The digit loop of Rust's integer `from_str_radix(_, 16)`. -/
def hexLoop (max : Nat) : Nat → Str → Option Nat
  | acc, [] => some acc
  | acc, c :: rest =>
    match hexDigit c with
    | some d => if max < acc * 16 + d then none else hexLoop max (acc * 16 + d) rest
    | none => none

/-- Rust `u128::from_str_radix(s, 16)?`: an optional plus sign, at least one digit, range checked. -/
def u128FromHex (s : Str) : Res Nat :=
  let digits := if s.head? = some (ch '+') then s.tail else s
  if digits = [] then .err .parseInt
  else match hexLoop (2 ^ 128 - 1) 0 digits with
    | some n => .ok n
    | none => .err .parseInt

/-- A lower-case hexadecimal digit. -/
def hexChar (d : Nat) : UInt8 := if d < 10 then UInt8.ofNat (48 + d) else UInt8.ofNat (97 + (d - 10))

/-- Rust `format!("{n:x}")`. -/
def hexStr (n : Nat) : Str :=
  if _h : n < 16 then [hexChar n] else hexStr (n / 16) ++ [hexChar (n % 16)]
termination_by n
decreasing_by omega

namespace Number

/-- `src/core/number.rs` 22-25 `has_code` (Short M, Long 0H, Big N, Huge 0A). -/
def hasCode (code : Str) : Bool := [lit "M", lit "0H", lit "N", lit "0A"].contains code

/-- `src/core/number.rs` 67-75: the code for a number. -/
def codeFor (num : Nat) : Str :=
  if num < 256 ^ 2 then lit "M" else if num < 256 ^ 4 then lit "0H" else if num < 256 ^ 8 then lit "N" else lit "0A"

/-- `src/core/number.rs` 77-84: the raw for a number (`as` casts truncate, `to_be_bytes`). -/
def rawFor (num : Nat) : List UInt8 :=
  if codeFor num = lit "M" then toBe 2 num
  else if codeFor num = lit "0H" then toBe 4 num
  else if codeFor num = lit "N" then toBe 8 num
  else toBe 16 num

/-- `src/core/number.rs` 44-94 `new`. -/
def new (E : Env) (num : Option Nat) (numh : Option Str) (code : Option Str) (raw : Option (List UInt8))
    (qb64b : Option (List UInt8)) (qb64 : Option Str) (qb2 : Option (List UInt8)) : Res Matter :=
  if raw.isNone ∧ qb64b.isNone ∧ qb64.isNone ∧ qb2.isNone then do
    let num ←
      (match num with
      | some num => .ok num
      | none =>
        match numh with
        | some h => if h = [] then .ok 0 else u128FromHex h
        | none => .ok 0 : Res Nat)
    Matter.new E (some (codeFor num)) (some (rawFor num)) none qb64 none
  else
    let code := code.getD (lit "M")
    if hasCode code then Matter.new E (some code) raw qb64b qb64 qb2 else .err .unexpectedCode

/-- `copy_from_slice` into an array of `n` bytes panics on a length mismatch; then `from_be_bytes`. -/
def fixedBe (n : Nat) (raw : List UInt8) : Res Nat := if raw.length = n then .ok (beNat raw) else .panic

/-- `src/core/number.rs` 120-147 `num`. -/
def num (m : Matter) : Res Nat :=
  if m.code = lit "M" then fixedBe 2 m.raw
  else if m.code = lit "0H" then fixedBe 4 m.raw
  else if m.code = lit "N" then fixedBe 8 m.raw
  else if m.code = lit "0A" then fixedBe 16 m.raw
  else .err .unexpectedCode

/-- `src/core/number.rs` 149-152 `numh`. -/
def numh (m : Matter) : Res Str := do
  let n ← num m
  .ok (hexStr n)

/-- `src/core/number.rs` 154-156 `positive`. -/
def positive (m : Matter) : Res Bool := do
  let n ← num m
  .ok (decide (0 < n))

end Number

namespace Seqner

/-- `src/core/seqner.rs` 26-55 `new` with `validate_code` 17-23. -/
def new (E : Env) (sn : Option Nat) (snh : Option Str) (code : Option Str) (raw : Option (List UInt8))
    (qb64b : Option (List UInt8)) (qb64 : Option Str) (qb2 : Option (List UInt8)) : Res Matter := do
  let code := code.getD (lit "0A")
  let raw ←
    (if raw.isNone ∧ qb64b.isNone ∧ qb64.isNone ∧ qb2.isNone then do
      let sn ←
        (match sn with
        | some sn => .ok sn
        | none =>
          match snh with
          | some h => u128FromHex h
          | none => .ok 0 : Res Nat)
      .ok (some (toBe 16 sn))
    else .ok raw : Res (Option (List UInt8)))
  let m ← Matter.new E (some code) raw qb64b qb64 qb2
  if m.code = lit "0A" then .ok m else .err .unexpectedCode

/-- `src/core/seqner.rs` 81-83 `sn`: slicing `raw[0..16]` panics on a short raw. -/
def sn (m : Matter) : Res Nat := do
  let b ← slice m.raw 0 16
  .ok (beNat b)

/-- `src/core/seqner.rs` 85-87 `snh`. -/
def snh (m : Matter) : Res Str := do
  let n ← sn m
  .ok (hexStr n)

end Seqner

namespace Bexter

/-- `src/core/bexter.rs` 13-29 `Bext::bext`. -/
def bext (m : Matter) : Res Str := do
  let szg ← Matter.sizage m.code
  let t := b64Encode (List.replicate szg.ls 0 ++ m.raw)
  let ws := if szg.ls = 0 then (if t.head? = some (ch 'A') then 1 else 0) else (szg.ls + 1) % 4
  sliceStr t ws t.length

/-- `src/core/bexter.rs` 57-62 `has_code`. -/
def hasCode (code : Str) : Bool :=
  [lit "4A", lit "5A", lit "6A", lit "7AAA", lit "8AAA", lit "9AAA"].contains code

/-- `REB64_STRING` `^[A-Za-z0-9\-_]*$` (`src/core/util.rs` 3), matched on the whole text. -/
def reB64 (s : Str) : Bool :=
  s.all fun c => (ch 'A' ≤ c && c ≤ ch 'Z') || (ch 'a' ≤ c && c ≤ ch 'z') || (ch '0' ≤ c && c ≤ ch '9') || c == ch '-' || c == ch '_'

/-- `src/core/bexter.rs` 74-80 `rawify`. -/
def rawify (bext : Str) : Res (List UInt8) := do
  let ts := bext.length % 4
  let ws := (4 - ts) % 4
  let ls := (3 - ts) % 3
  let base := List.replicate ws (ch 'A') ++ bext
  let b ← b64Decode base
  slice b ls b.length

/-- `src/core/bexter.rs` 83-119 `new`. -/
def new (E : Env) (bext : Option Str) (code : Option Str) (raw : Option (List UInt8))
    (qb64b : Option (List UInt8)) (qb64 : Option Str) (qb2 : Option (List UInt8)) : Res Matter :=
  let code := code.getD (lit "4A")
  if bext.isNone ∧ raw.isNone ∧ qb64b.isNone ∧ qb64.isNone ∧ qb2.isNone then .err .emptyMaterial
  else do
    let m ←
      (match bext with
      | some t =>
        if reB64 t = false then .err .value
        else do
          let raw ← rawify t
          Matter.new E (some code) (some raw) none none none
      | none => Matter.new E (some code) raw qb64b qb64 qb2 : Res Matter)
    if hasCode m.code then .ok m else .err .unexpectedCode

end Bexter

namespace Dater

/-- `src/core/dater.rs` 25-27 `iso_8601_to_b64`: three character replacements in sequence. -/
def isoToB64 (s : Str) : Str :=
  ((s.map fun c => if c = ch ':' then ch 'c' else c).map fun c => if c = ch '.' then ch 'd' else c).map
    fun c => if c = ch '+' then ch 'p' else c

/-- `src/core/dater.rs` 29-31 `b64_to_iso_8601`. -/
def b64ToIso (s : Str) : Str :=
  ((s.map fun c => if c = ch 'c' then ch ':' else c).map fun c => if c = ch 'd' then ch '.' else c).map
    fun c => if c = ch 'p' then ch '+' else c

/-- `src/core/dater.rs` 44-64 `new` with `validate_code` 17-23. `now` is the clock reading of 33-36. -/
def new (E : Env) (now : Str) (dts : Option Str) (code : Option Str) (raw : Option (List UInt8))
    (qb64b : Option (List UInt8)) (qb64 : Option Str) (qb2 : Option (List UInt8)) : Res Matter := do
  let code := some (code.getD (lit "1AAG"))
  let m ←
    (if raw.isNone ∧ qb64b.isNone ∧ qb64.isNone ∧ qb2.isNone then
      let b64 := isoToB64 (dts.getD now)
      Matter.new E code raw qb64b (some (lit "1AAG" ++ b64)) qb2
    else Matter.new E code raw qb64b qb64 qb2 : Res Matter)
  if m.code = lit "1AAG" then .ok m else .err .unexpectedCode

/-- `src/core/dater.rs` 86-90 `dts`. -/
def dts (E : Env) (m : Matter) : Res Str := do
  let szg ← Matter.sizage m.code
  let qb64 ← m.qb64 E
  let t ← sliceStr qb64 szg.hs qb64.length
  .ok (b64ToIso t)

end Dater
end Cesride
