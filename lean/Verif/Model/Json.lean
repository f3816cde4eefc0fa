import Verif.Model.Value

/-! # Model of `serde_json::from_str` as the code uses it (`src/core/common.rs` 230, 238; `src/core/tholder.rs` 310),
followed by `Value::from(&serde_json::Value)` (`src/data.rs` 281-310)

`F token` is the text `serde_json` prints for the `f64` nearest to the number token, `none` when the token is out of
range. Input is valid UTF-8 (a Rust `&str`). -/

namespace Cesride
namespace Json

/-- JSON white space. -/
def isWs (c : UInt8) : Bool := c == 32 || c == 9 || c == 10 || c == 13

/-- Skip white space. -/
def skipWs : Str → Str
  | [] => []
  | c :: rest => if isWs c then skipWs rest else c :: rest

/-- UTF-8 bytes of a code point. -/
def utf8Encode (n : Nat) : Str :=
  if n < 0x80 then [UInt8.ofNat n]
  else if n < 0x800 then [UInt8.ofNat (0xC0 + n / 64), UInt8.ofNat (0x80 + n % 64)]
  else if n < 0x10000 then [UInt8.ofNat (0xE0 + n / 4096), UInt8.ofNat (0x80 + n / 64 % 64), UInt8.ofNat (0x80 + n % 64)]
  else [UInt8.ofNat (0xF0 + n / 262144), UInt8.ofNat (0x80 + n / 4096 % 64), UInt8.ofNat (0x80 + n / 64 % 64), UInt8.ofNat (0x80 + n % 64)]

/-- Four hexadecimal digits. -/
def hex4 (a b c d : UInt8) : Option Nat :=
  match hexDigit a, hexDigit b, hexDigit c, hexDigit d with
  | some a, some b, some c, some d => some (a * 4096 + b * 256 + c * 16 + d)
  | _, _, _, _ => none

/-- One-character escapes. -/
def simpleEscape (c : UInt8) : Option UInt8 :=
  if c = ch '"' then some (ch '"')
  else if c = ch '\\' then some (ch '\\')
  else if c = ch '/' then some (ch '/')
  else if c = ch 'b' then some 8
  else if c = ch 'f' then some 12
  else if c = ch 'n' then some 10
  else if c = ch 'r' then some 13
  else if c = ch 't' then some 9
  else none

/-- The body of a string up to and including the closing quote. Control characters and lone surrogates are errors.
`fuel` bounds the number of steps (the length of the input suffices). -/
def parseStr : Nat → Str → Option (Str × Str)
  | 0, _ => none
  | _ + 1, [] => none
  | fuel + 1, c :: rest =>
    if c = ch '"' then some ([], rest)
    else if c = ch '\\' then
      match rest with
      | [] => none
      | e :: rest =>
        if e = ch 'u' then
          match rest with
          | a :: b :: c :: d :: rest =>
            match hex4 a b c d with
            | none => none
            | some n =>
              if 0xDC00 ≤ n ∧ n ≤ 0xDFFF then none
              else if 0xD800 ≤ n ∧ n ≤ 0xDBFF then
                match rest with
                | s :: u :: a :: b :: c :: d :: rest =>
                  if s = ch '\\' ∧ u = ch 'u' then
                    match hex4 a b c d with
                    | none => none
                    | some m =>
                      if 0xDC00 ≤ m ∧ m ≤ 0xDFFF then do
                        let (t, rest) ← parseStr fuel rest
                        some (utf8Encode ((n - 0xD800) * 1024 + (m - 0xDC00) + 0x10000) ++ t, rest)
                      else none
                  else none
                | _ => none
              else do
                let (t, rest) ← parseStr fuel rest
                some (utf8Encode n ++ t, rest)
          | _ => none
        else
          match simpleEscape e with
          | none => none
          | some b => do
            let (t, rest) ← parseStr fuel rest
            some (b :: t, rest)
    else if c < 32 then none
    else do
      let (t, rest) ← parseStr fuel rest
      some (c :: t, rest)

/-- Longest run of decimal digits. -/
def spanDigits : Str → Str × Str
  | [] => ([], [])
  | c :: rest => if ch '0' ≤ c ∧ c ≤ ch '9' then let (d, r) := spanDigits rest; (c :: d, r) else ([], c :: rest)

/-- Number written by decimal digits. -/
def digitsVal (s : Str) : Nat := s.foldl (fun a c => a * 10 + (c.toNat - 48)) 0

/-- Optional fraction: `.` and at least one digit. -/
def parseFrac (s : Str) : Option (Str × Str) :=
  match s with
  | c :: rest =>
    if c = ch '.' then
      let (d, r) := spanDigits rest
      if d = [] then none else some (c :: d, r)
    else some ([], s)
  | [] => some ([], s)

/-- Optional exponent. -/
def parseExp (s : Str) : Option (Str × Str) :=
  match s with
  | c :: rest =>
    if c = ch 'e' ∨ c = ch 'E' then
      match rest with
      | g :: rest' =>
        if g = ch '+' ∨ g = ch '-' then
          let (d, r) := spanDigits rest'
          if d = [] then none else some (c :: g :: d, r)
        else
          let (d, r) := spanDigits rest
          if d = [] then none else some (c :: d, r)
      | [] => none
    else some ([], s)
  | [] => some ([], s)

/-- Optional minus sign. -/
def splitSign : Str → Bool × Str
  | c :: rest => if c = ch '-' then (true, rest) else (false, c :: rest)
  | [] => (false, [])

/-- A number, `serde_json::de::parse_any_number`: integers that fit `u64` (or `i64` when negative, but not `-0`) stay
integers, everything else is a float. -/
def parseNum (F : Str → Option Str) (s : Str) : Option (Value × Str) := do
  let (neg, s) := splitSign s
  let (d, s) := spanDigits s
  if d = [] then none
  else if d.head? = some (ch '0') ∧ 1 < d.length then none
  else do
    let (frac, s) ← parseFrac s
    let (exp, s) ← parseExp s
    let n := digitsVal d
    if frac = [] ∧ exp = [] ∧ neg = false ∧ n < 2 ^ 64 then some (.int n, s)
    else if frac = [] ∧ exp = [] ∧ neg = true ∧ 0 < n ∧ n ≤ 2 ^ 63 then some (.int (-n), s)
    else do
      let t ← F ((if neg then [ch '-'] else []) ++ d ++ frac ++ exp)
      some (.float t, s)

/-- The expected text, at the start of the input. -/
def expect (p s : Str) : Option Str := if p.isPrefixOf s then some (s.drop p.length) else none

mutual
/-- A value, white space before it allowed. `depth` is serde's `remaining_depth` (128 at the top); `fuel` bounds the
number of steps. -/
def parseValue (F : Str → Option Str) : Nat → Nat → Str → Option (Value × Str)
  | 0, _, _ => none
  | fuel + 1, depth, s =>
    match skipWs s with
    | [] => none
    | c :: rest =>
      if c = ch 'n' then do let r ← expect (lit "ull") rest; some (.null, r)
      else if c = ch 't' then do let r ← expect (lit "rue") rest; some (.bool true, r)
      else if c = ch 'f' then do let r ← expect (lit "alse") rest; some (.bool false, r)
      else if c = ch '"' then do let (t, r) ← parseStr (rest.length + 1) rest; some (.str t, r)
      else if c = ch '[' then
        if depth ≤ 1 then none
        else
          match skipWs rest with
          | [] => none
          | c' :: r =>
            if c' = ch ']' then some (.arr [], r)
            else do let (a, r) ← parseElems F fuel (depth - 1) rest; some (.arr a, r)
      else if c = ch '{' then
        if depth ≤ 1 then none
        else
          match skipWs rest with
          | [] => none
          | c' :: r =>
            if c' = ch '}' then some (.obj [], r)
            else do let (o, r) ← parseFields F fuel (depth - 1) [] rest; some (.obj o, r)
      else parseNum F (c :: rest)
/-- Array elements up to and including the closing bracket. -/
def parseElems (F : Str → Option Str) : Nat → Nat → Str → Option (List Value × Str)
  | 0, _, _ => none
  | fuel + 1, depth, s => do
    let (v, r) ← parseValue F fuel depth s
    match skipWs r with
    | [] => none
    | c :: r =>
      if c = ch ']' then some ([v], r)
      else if c = ch ',' then do
        let (a, r) ← parseElems F fuel depth r
        some (v :: a, r)
      else none
/-- Object entries up to and including the closing brace, inserted one after the other into `acc`: a repeated key keeps
its first position and takes the last value. -/
def parseFields (F : Str → Option Str) : Nat → Nat → List (Str × Value) → Str → Option (List (Str × Value) × Str)
  | 0, _, _, _ => none
  | fuel + 1, depth, acc, s =>
    match skipWs s with
    | [] => none
    | q :: s =>
      if q = ch '"' then do
        let (k, r) ← parseStr (s.length + 1) s
        match skipWs r with
        | [] => none
        | c :: r =>
          if c = ch ':' then do
            let (v, r) ← parseValue F fuel depth r
            match skipWs r with
            | [] => none
            | c :: r =>
              if c = ch '}' then some (Value.insert acc k v, r)
              else if c = ch ',' then parseFields F fuel depth (Value.insert acc k v) r
              else none
          else none
      else none
end

/-- A whole document: a value and nothing but white space after it. -/
def parseDoc (F : Str → Option Str) (s : Str) : Option Value := do
  let (v, r) ← parseValue F (2 * s.length + 2) 128 s
  if skipWs r = [] then some v else none

mutual
/-- `src/data.rs` 281-310: whether the conversion from `serde_json::Value` does not panic: integers fit `i64`, floats
print with a point (a float that prints without one, like `1e300`, is taken for an integer and `unwrap` panics). -/
def convertible : Value → Bool
  | .int i => decide (i < 2 ^ 63)
  | .float t => t.contains (ch '.')
  | .arr a => convertibleElems a
  | .obj o => convertibleFields o
  | _ => true
/-- All elements. -/
def convertibleElems : List Value → Bool
  | [] => true
  | v :: rest => convertible v && convertibleElems rest
/-- All entries. -/
def convertibleFields : List (Str × Value) → Bool
  | [] => true
  | (_, v) :: rest => convertible v && convertibleFields rest
end

/-- `serde_json::from_str(s)?` then `Value::from`. -/
def fromStr (F : Str → Option Str) (s : Str) : Res Value :=
  match parseDoc F s with
  | none => .err .json
  | some v => if convertible v then .ok v else .panic

end Json
end Cesride
