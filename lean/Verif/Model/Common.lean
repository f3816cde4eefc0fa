import Verif.Model.Json

/-! # Model of `src/core/common.rs`: version strings and sized serializations -/

namespace Cesride.Common

/-- Rust `u8::from_str_radix(s, 16)?` / `u32::from_str_radix(s, 16)?`: an optional plus sign, at least one digit, range checked. -/
def uintFromHex (max : Nat) (s : Str) : Res Nat :=
  let digits := if s.head? = some (ch '+') then s.tail else s
  if digits = [] then .err .parseInt
  else match hexLoop max 0 digits with
    | some n => .ok n
    | none => .err .parseInt

/-- `src/core/common.rs` 32-36 `Version` (two `u8`). -/
structure Version where
  major : Nat
  minor : Nat
  deriving DecidableEq, Repr

/-- `src/core/common.rs` 108 `CURRENT_VERSION`. -/
def currentVersion : Version := { major := 1, minor := 0 }

/-- `src/core/common.rs` 103 `IDENTS` (44-47 `Identage`). -/
def idents : List Str := [lit "ACDC", lit "KERI"]
/-- `src/core/common.rs` 104 `SERIALS` (39-41 `Serialage`). -/
def serials : List Str := [lit "JSON"]

/-- Character class `[A-Z]`. -/
def isUpper (c : UInt8) : Bool := ch 'A' ≤ c && c ≤ ch 'Z'
/-- Character class `[0-9a-f]`. -/
def isLowHex (c : UInt8) : Bool := (ch '0' ≤ c && c ≤ ch '9') || (ch 'a' ≤ c && c ≤ ch 'f')

/-- `src/core/common.rs` 102 `REVER_STRING`: four upper-case letters (`ident`, offsets 0-3), a hex digit (`major`, 4), a hex
digit (`minor`, 5), four upper-case letters (`kind`, 6-9), six hex digits (`size`, 10-15), an underscore. Every match has
17 bytes, all ASCII, so matching on bytes and on characters agree. -/
def rever : List (UInt8 → Bool) :=
  List.replicate 4 isUpper ++ [isLowHex, isLowHex] ++ List.replicate 4 isUpper ++ List.replicate 6 isLowHex ++ [fun c => c == ch '_']

/-- The regex matches at the start of the text. -/
def matchHere : List (UInt8 → Bool) → Str → Bool
  | [], _ => true
  | _ :: _, [] => false
  | p :: ps, c :: s => p c && matchHere ps s

/-- Start of the leftmost match. `Regex::shortest_match` gives its end, 17 bytes further (all matches have the same length, so
the earliest end belongs to the leftmost start); `Regex::is_match` tells whether there is one. -/
def find : Str → Option Nat
  | [] => none
  | c :: s => if matchHere rever (c :: s) then some 0 else (find s).map (· + 1)

/-- `Regex::replace_all(s, "$group")` where the group covers offsets `a` to `b` of a match: every match (leftmost, not overlapping)
is replaced by its group, all other text stays. The first number counts bytes of the current match still to skip. -/
def replaceAll (a b : Nat) : Nat → Str → Str
  | _, [] => []
  | k + 1, _ :: s => replaceAll a b k s
  | 0, c :: s => if matchHere rever (c :: s) then ((c :: s).take b).drop a ++ replaceAll a b 16 s else c :: replaceAll a b 0 s

/-- `$ident`. -/
def gIdent (s : Str) : Str := replaceAll 0 4 0 s
/-- `$major`. -/
def gMajor (s : Str) : Str := replaceAll 4 5 0 s
/-- `$minor`. -/
def gMinor (s : Str) : Str := replaceAll 5 6 0 s
/-- `$kind`. -/
def gKind (s : Str) : Str := replaceAll 6 10 0 s
/-- `$size`. -/
def gSize (s : Str) : Str := replaceAll 10 16 0 s

/-- `src/core/common.rs` 16-22 `DeversifyResult` and 24-30 `SniffResult` (same fields). -/
structure Versioned where
  ident : Str
  kind : Str
  version : Version
  size : Nat
  deriving DecidableEq, Repr

/-- `src/core/common.rs` 114-138 `deversify`. -/
def deversify (vs : Str) : Res Versioned :=
  if (find vs).isSome then do
    let ident := gIdent vs
    let major ← uintFromHex 255 (gMajor vs)
    let minor ← uintFromHex 255 (gMinor vs)
    let kind := gKind vs
    let size ← uintFromHex (2 ^ 32 - 1) (gSize vs)
    if !idents.contains ident then .err .validation
    else if !serials.contains kind then .err .validation
    else .ok { ident := ident, kind := kind, version := { major := major, minor := minor }, size := size }
  else .err .validation

/-- Rust `{n:06x}`: lower-case hexadecimal, padded with zeros to at least six digits. -/
def hex6 (n : Nat) : Str := List.replicate (6 - (hexStr n).length) (ch '0') ++ hexStr n

/-- `src/core/common.rs` 197-221 `versify`. -/
def versify (ident : Option Str) (version : Option Version) (kind : Option Str) (size : Option Nat) : Res Str :=
  let ident := ident.getD (lit "KERI")
  let version := version.getD currentVersion
  let kind := kind.getD (lit "JSON")
  let size := size.getD 0
  if !idents.contains ident then .err .validation
  else if !serials.contains kind then .err .validation
  else .ok (ident ++ hexStr version.major ++ hexStr version.minor ++ kind ++ hex6 size ++ lit "_")

/-- `src/core/common.rs` 246-252 `dumps`. -/
def dumps (ked : Value) (kind : Option Str) : Res (List UInt8) :=
  if kind.getD (lit "JSON") = lit "JSON" then .ok ked.toJson else .err .value

/-- `src/core/common.rs` 223-244 `loads`. `F` is how the floats of a document print (`Model/Json.lean`). -/
def loads (F : Str → Option Str) (raw : List UInt8) (size : Option Nat) (kind : Option Str) : Res Value :=
  if kind.getD (lit "JSON") = lit "JSON" then do
    let bytes ←
      (match size with
      | some size => slice raw 0 size
      | none => .ok raw : Res (List UInt8))
    let text ← fromUtf8 bytes
    Json.fromStr F text
  else .err .validation

/-- `src/core/common.rs` 7-14 `SizeifyResult`. -/
structure Sized where
  raw : List UInt8
  ident : Str
  kind : Str
  ked : Value
  version : Version

/-- `src/core/common.rs` 140-195 `sizeify`. Line 166 `String::from_utf8` is omitted: the bytes come from a `String`. `size as u32`
(180) wraps. -/
def sizeify (ked : Value) (kind : Option Str) : Res Sized := do
  let map ← ked.toMap
  if !Value.hasKey map (lit "v") then .err .value
  else do
    let v ← ked.index (lit "v")
    let vs ← v.toStr
    let result ← deversify vs
    if result.version ≠ currentVersion then .err .value
    else
      let kind := kind.getD result.kind
      if !serials.contains kind then .err .value
      else do
        let raw ← dumps ked (some kind)
        let size := raw.length
        match find raw with
        | none => .err .value
        | some start =>
          if 12 < start then .err .value
          else do
            let fore ← slice raw 0 start
            let back ← slice raw (start + 17) raw.length
            let vs ← versify (some result.ident) (some result.version) (some kind) (some (size % 2 ^ 32))
            let raw := fore ++ vs ++ back
            if raw.length ≠ size then .err .value
            else do
              let ked ← ked.set (lit "v") (.str vs)
              .ok { raw := raw, ident := result.ident, kind := kind, ked := ked, version := result.version }

/-- `src/core/common.rs` 254-292 `sniff`. -/
def sniff (raw : List UInt8) : Res Versioned :=
  if raw.length < 29 then .err .value
  else do
    let raw ← fromUtf8 raw
    match find raw with
    | none => .err .value
    | some start =>
      if 12 < start then .err .value
      else do
        let vs ← sliceStr raw start (start + 17)
        let ident := gIdent vs
        let major ← uintFromHex 255 (gMajor vs)
        let minor ← uintFromHex 255 (gMinor vs)
        let kind := gKind vs
        let size ← uintFromHex (2 ^ 32 - 1) (gSize vs)
        if !serials.contains kind then .err .validation
        else .ok { ident := ident, kind := kind, version := { major := major, minor := minor }, size := size }

end Cesride.Common
