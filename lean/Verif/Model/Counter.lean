import Verif.Model.Util

/-! # Model of `src/core/counter/tables.rs` and `src/core/counter/mod.rs` -/

namespace Cesride

/-- `src/core/counter/tables.rs` 3-9. -/
structure CSizage where
  hs : Nat
  ss : Nat
  ls : Nat
  fs : Nat
  deriving DecidableEq, Repr

/-- `src/core/counter/mod.rs` 6-10. -/
structure Counter where
  code : Str
  count : Nat
  deriving DecidableEq, Repr

/-- Rust `s.split(c)` for an ASCII character: always at least one piece, separators dropped. -/
def splitOn (c : UInt8) : Str → List Str
  | [] => [[]]
  | x :: xs =>
    if x = c then [] :: splitOn c xs
    else match splitOn c xs with
      | [] => [[x]]
      | p :: ps => (x :: p) :: ps

/-- Value of an ASCII decimal digit, `char::to_digit(10)` on a byte. -/
def decDigit (c : UInt8) : Option Nat :=
  if ch '0' ≤ c ∧ c ≤ ch '9' then some (c.toNat - 48) else none

/-- The digit loop of Rust's integer `from_str_radix(_, 10)`: every step is checked against `max`. -/
def decLoop (max : Nat) : Nat → Str → Option Nat
  | acc, [] => some acc
  | acc, c :: rest =>
    match decDigit c with
    | some d => if max < acc * 10 + d then none else decLoop max (acc * 10 + d) rest
    | none => none

/-- Rust `s.parse::<i8>()`: optional sign, at least one digit, range checked. The value is (negative?, magnitude). -/
def parseI8 (s : Str) : Option (Bool × Nat) :=
  match s with
  | [] => none
  | c :: rest =>
    if c = ch '+' then (if rest = [] then none else (decLoop 127 0 rest).map fun n => (false, n))
    else if c = ch '-' then (if rest = [] then none else (decLoop 128 0 rest).map fun n => (true, n))
    else (decLoop 127 0 s).map fun n => (false, n)

namespace Counter

/-- The arms of `src/core/counter/tables.rs` 13-27. -/
def sizes : List (Str × CSizage) := [
  (lit "-A", { hs := 2, ss := 2, fs := 4, ls := 0 }),
  (lit "-B", { hs := 2, ss := 2, fs := 4, ls := 0 }),
  (lit "-C", { hs := 2, ss := 2, fs := 4, ls := 0 }),
  (lit "-D", { hs := 2, ss := 2, fs := 4, ls := 0 }),
  (lit "-E", { hs := 2, ss := 2, fs := 4, ls := 0 }),
  (lit "-F", { hs := 2, ss := 2, fs := 4, ls := 0 }),
  (lit "-G", { hs := 2, ss := 2, fs := 4, ls := 0 }),
  (lit "-H", { hs := 2, ss := 2, fs := 4, ls := 0 }),
  (lit "-I", { hs := 2, ss := 2, fs := 4, ls := 0 }),
  (lit "-J", { hs := 2, ss := 2, fs := 4, ls := 0 }),
  (lit "-K", { hs := 2, ss := 2, fs := 4, ls := 0 }),
  (lit "-L", { hs := 2, ss := 2, fs := 4, ls := 0 }),
  (lit "-V", { hs := 2, ss := 2, fs := 4, ls := 0 }),
  (lit "-0V", { hs := 3, ss := 5, fs := 8, ls := 0 }),
  (lit "--AAA", { hs := 5, ss := 3, fs := 8, ls := 0 })]

/-- `src/core/counter/tables.rs` 11-30 `sizage`. -/
def sizage (s : Str) : Res CSizage :=
  match sizes.lookup s with
  | some z => .ok z
  | none => .err .unknownSizage

/-- `src/core/counter/tables.rs` 32-40 `hardage`. -/
def hardage (s : Str) : Res Nat :=
  if [lit "-A", lit "-B", lit "-C", lit "-D", lit "-E", lit "-F", lit "-G", lit "-H", lit "-I", lit "-J", lit "-K",
      lit "-L", lit "-V"].contains s then .ok 2
  else if s = lit "-0" then .ok 3
  else if s = lit "--" then .ok 5
  else .err .unknownHardage

/-- `src/core/counter/tables.rs` 42-50 `bardage`, on the two sextets (`b'>' = 0x3e`, `b'4' = 0x34`). -/
def bardage (b : List Nat) : Res Nat :=
  if [[0x3e, 0], [0x3e, 1], [0x3e, 2], [0x3e, 3], [0x3e, 4], [0x3e, 5], [0x3e, 6], [0x3e, 7], [0x3e, 8], [0x3e, 9],
      [0x3e, 0xa], [0x3e, 0xb], [0x3e, 0x15]].contains b then .ok 2
  else if b = [0x3e, 0x34] then .ok 3
  else if b = [0x3e, 0x3e] then .ok 5
  else .err .unknownBardage

/-- `src/core/counter/mod.rs` 109-132 `new_with_code_and_count`. `64_u32.pow(ss)` fits because `ss ≤ 5`. -/
def newWithCodeAndCount (code : Str) (count : Nat) : Res Counter :=
  if code = [] then .err .emptyMaterial
  else do
    let szg ← sizage code
    let cs := szg.hs + szg.ss
    if szg.fs ≠ cs ∨ cs % 4 ≠ 0 then .err .invalidCodeSize
    else if 64 ^ szg.ss - 1 < count then .err .invalidVarIndex
    else .ok { code := code, count := count }

/-- `src/core/counter/mod.rs` 175-208 `infil`. -/
def infil (E : Env) (x : Counter) : Res Str := do
  let szg ← sizage x.code
  let cs := szg.hs + szg.ss
  if szg.fs ≠ cs ∨ cs % 4 ≠ 0 then .err .invalidCodeSize
  else if 64 ^ szg.ss - 1 < x.count then .err .invalidVarIndex
  else do
    let c ← uintToB64 E x.count szg.ss
    let both := x.code ++ c
    if both.length ≠ cs then .err .invalidCodeSize else .ok both

/-- `src/core/counter/mod.rs` 210-213 `binfil`. -/
def binfil (E : Env) (x : Counter) : Res (List UInt8) := do
  let both ← infil E x
  codeB64ToB2 both

/-- `src/core/counter/mod.rs` 215-250 `exfil`. `as u32` truncates. -/
def exfil (qb64 : Str) : Res Counter :=
  if qb64 = [] then .err .emptyMaterial
  else do
    let first ← sliceStr qb64 0 2
    let hs ← hardage first
    if qb64.length < hs then .err .shortage
    else do
      let hard ← sliceStr qb64 0 hs
      let szg ← sizage hard
      let cs := szg.hs + szg.ss
      if qb64.length < cs then .err .shortage
      else do
        let countB64 ← sliceStr qb64 szg.hs cs
        let count ← b64ToU64 countB64
        .ok { code := hard, count := count % 2 ^ 32 }

/-- `src/core/counter/mod.rs` 252-304 `bexfil`. The loop at 294-298 is the one of `b64_to_u32`. -/
def bexfil (E : Env) (qb2 : List UInt8) : Res Counter :=
  if qb2 = [] then .err .emptyMaterial
  else do
    let first ← nabSextets qb2 2
    match first with
    | [] => .panic
    | f0 :: _ =>
      if 0x3e < f0 then
        if f0 = 0x3f then .err .unexpectedOpCode else .err .unexpectedCode
      else do
        let hs ← bardage first
        let bhs := (hs + 1) * 3 / 4
        if qb2.length < bhs then .err .shortage
        else do
          let hard ← codeB2ToB64 E qb2 hs
          let szg ← sizage hard
          let cs := szg.hs + szg.ss
          let bcs := (cs + 1) * 3 / 4
          if qb2.length < bcs then .err .shortage
          else do
            let both ← codeB2ToB64 E qb2 cs
            let digits ← sliceStr both hs cs
            let count ← b64ToU32 digits
            .ok { code := hard, count := count }

/-- `src/core/counter/mod.rs` 140-146 `new_with_qb64b`. -/
def newWithQb64b (qb64b : List UInt8) : Res Counter := do
  let qb64 ← fromUtf8 qb64b
  exfil qb64

/-- `src/core/counter/mod.rs` 13-40 `new` (and 135-139, 149-153). -/
def new (E : Env) (count : Option Nat) (countB64 : Option Str) (code : Option Str)
    (qb64b : Option (List UInt8)) (qb64 : Option Str) (qb2 : Option (List UInt8)) : Res Counter :=
  match code with
  | some code => do
    let count ←
      (match count with
      | some count => .ok count
      | none =>
        match countB64 with
        | some t => b64ToU32 t
        | none => .ok 1 : Res Nat)
    newWithCodeAndCount code count
  | none =>
    match qb64b with
    | some b => newWithQb64b b
    | none =>
      match qb64 with
      | some t => exfil t
      | none =>
        match qb2 with
        | some b => bexfil E b
        | none => .err .validation

/-- `src/core/counter/mod.rs` 50-53 `count_as_b64`. -/
def countAsB64 (E : Env) (x : Counter) (length : Nat) : Res Str := do
  let length ← (if length = 0 then do let szg ← sizage x.code; .ok szg.ss else .ok length : Res Nat)
  uintToB64 E x.count length

/-- `src/core/counter/mod.rs` 55-57. -/
def qb64 (E : Env) (x : Counter) : Res Str := infil E x
/-- `src/core/counter/mod.rs` 59-61. -/
def qb64b (E : Env) (x : Counter) : Res (List UInt8) := qb64 E x
/-- `src/core/counter/mod.rs` 63-65. -/
def qb2 (E : Env) (x : Counter) : Res (List UInt8) := binfil E x
/-- `src/core/counter/mod.rs` 306-308 `full_size`. -/
def fullSize (x : Counter) : Res Nat := do
  let szg ← sizage x.code
  .ok szg.fs

/-- `src/core/counter/mod.rs` 154-173 `sem_ver_parts_to_b64`. -/
def semVerPartsToB64 (E : Env) (parts : List Nat) : Res Str :=
  if parts.any (fun p => decide (63 < p)) then .err .parsing
  else go parts
where
  /-- `.map(..).collect().join("")` at 163-172; the `Err` arm is `unreachable!()`, a panic. -/
  go : List Nat → Res Str
    | [] => .ok []
    | p :: ps =>
      match uintToB64 E p 1 with
      | .ok s => do let r ← go ps; .ok (s ++ r)
      | _ => .panic

/-- `src/core/counter/mod.rs` 77-99: one component of the version text. -/
def semVerPart (s : Str) : Res Nat :=
  match parseI8 s with
  | some (neg, n) => if neg = true ∧ 0 < n then .err .conversion else .ok n
  | none => if s = [] then .ok 0 else .err .conversion

/-- The loop at `src/core/counter/mod.rs` 77-99. -/
def semVerParts : List Str → Res (List Nat)
  | [] => .ok []
  | s :: rest => do
    let n ← semVerPart s
    let ns ← semVerParts rest
    .ok (n :: ns)

/-- `src/core/counter/mod.rs` 67-102 `sem_ver_str_to_b64`. -/
def semVerStrToB64 (E : Env) (version : Str) : Res Str :=
  let strings := splitOn (ch '.') version
  if 3 < strings.length then .err .conversion
  else do
    let ns ← semVerParts strings
    semVerPartsToB64 E (ns ++ List.replicate (3 - ns.length) 0)

/-- `src/core/counter/mod.rs` 104-107 `sem_ver_to_b64`. -/
def semVerToB64 (E : Env) (major minor patch : Nat) : Res Str := semVerPartsToB64 E [major, minor, patch]

end Counter
end Cesride
