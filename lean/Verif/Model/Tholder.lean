import Verif.Model.Json

/-! # Model of `src/core/tholder.rs` and of the parts of `num-rational` 0.4 it uses

`oc` is whether arithmetic overflow is checked (debug profile: panic) or wraps (release profile). -/

namespace Cesride

/-- Result of an `i32` operation whose exact value is `x`. -/
def i32 (oc : Bool) (x : Int) : Res Int :=
  if -2 ^ 31 ≤ x ∧ x < 2 ^ 31 then .ok x else if oc then .panic else .ok (x.bmod (2 ^ 32))

/-- `num_rational::Rational32`. -/
structure R32 where
  numer : Int
  denom : Int
  deriving DecidableEq, Repr

namespace R32

/-- `num_integer::Integer::gcd` for `i32` (Stein's algorithm: the non-negative gcd; `2^31` overflows). -/
def gcd32 (oc : Bool) (a b : Int) : Res Int := i32 oc (Int.gcd a b)

/-- `num_integer::Integer::lcm` for `i32`: `(a * (b / gcd)).abs()`. -/
def lcm32 (oc : Bool) (a b : Int) : Res Int :=
  if a = 0 ∧ b = 0 then .ok 0
  else do
    let g ← gcd32 oc a b
    let p ← i32 oc (a * b.tdiv g)
    i32 oc p.natAbs

/-- `Ratio::new`, that is `Ratio::reduce`: panics on a zero denominator. -/
def new (oc : Bool) (numer denom : Int) : Res R32 :=
  if denom = 0 then .panic
  else if numer = 0 then .ok ⟨0, 1⟩
  else if numer = denom then .ok ⟨1, 1⟩
  else do
    let g ← gcd32 oc numer denom
    let n := numer.tdiv g
    let d := denom.tdiv g
    if d < 0 then do
      let n ← i32 oc (0 - n)
      let d ← i32 oc (0 - d)
      .ok ⟨n, d⟩
    else .ok ⟨n, d⟩

/-- `AddAssign for Ratio`. -/
def add (oc : Bool) (a b : R32) : Res R32 :=
  if a.denom = b.denom then do
    let n ← i32 oc (a.numer + b.numer)
    new oc n a.denom
  else do
    let l ← lcm32 oc a.denom b.denom
    let x ← i32 oc (a.numer * l.tdiv a.denom)
    let y ← i32 oc (b.numer * l.tdiv b.denom)
    let n ← i32 oc (x + y)
    new oc n l

/-- `a < Ratio::new(1, 1)`, by `Ratio`'s `Ord`: equal denominators, equal numerators, else floors. -/
def ltOne (a : R32) : Bool :=
  if a.denom = 1 then decide (a.numer < 1)
  else if a.numer = 1 then decide (1 < a.denom)
  else decide (a.numer.fdiv a.denom < 1)

end R32

/-- Rust `s.parse::<i32>()?`: optional sign, at least one decimal digit, range checked. -/
def parseI32 (s : Str) : Res Int :=
  match s with
  | [] => .err .parseInt
  | c :: rest =>
    if c = ch '+' then pos rest
    else if c = ch '-' then
      (if rest = [] then .err .parseInt
      else match decLoop (2 ^ 31) 0 rest with
        | some n => .ok (-(n : Int))
        | none => .err .parseInt)
    else pos s
where
  /-- Digits of a non-negative number. -/
  pos (s : Str) : Res Int :=
    if s = [] then .err .parseInt
    else match decLoop (2 ^ 31 - 1) 0 s with
      | some n => .ok n
      | none => .err .parseInt

/-- Rust `i64::from_str_radix(s, 16)?`. -/
def i64FromHex (s : Str) : Res Int :=
  match s with
  | [] => .err .parseInt
  | c :: rest =>
    if c = ch '+' then pos rest
    else if c = ch '-' then
      (if rest = [] then .err .parseInt
      else match hexLoop (2 ^ 63) 0 rest with
        | some n => .ok (-(n : Int))
        | none => .err .parseInt)
    else pos s
where
  /-- Digits of a non-negative number. -/
  pos (s : Str) : Res Int :=
    if s = [] then .err .parseInt
    else match hexLoop (2 ^ 63 - 1) 0 s with
      | some n => .ok n
      | none => .err .parseInt

/-- `src/core/tholder.rs` 14-21 `Tholder`. `size` is unbounded here (a `u32` in the code: the count of weights). -/
structure Tholder where
  thold : Value
  weighted : Bool
  size : Nat
  number : Option Matter
  bexter : Option Matter

namespace Tholder

/-- `src/core/tholder.rs` 24-26 `default`. -/
def default : Tholder := { thold := .int 1, weighted := false, size := 1, number := none, bexter := none }

/-- `src/core/tholder.rs` 38-59: one weight. -/
def weight (oc : Bool) (s : Str) : Res R32 :=
  match splitOn (ch '/') s with
  | [p, q] => do
    let n ← parseI32 p
    let d ← parseI32 q
    if n < 0 ∨ d < 0 then .err .value
    else if d < n then .err .value
    else R32.new oc n d
  | p :: _ =>
    if p = lit "0" then .ok ⟨0, 1⟩
    else if p = lit "1" then .ok ⟨1, 1⟩
    else .err .value
  | [] => .panic

/-- `src/core/tholder.rs` 36-60: the weights of one clause. -/
def weights (oc : Bool) : List Value → Res (List R32)
  | [] => .ok []
  | v :: rest => do
    let s ← v.toStr
    let w ← weight oc s
    let ws ← weights oc rest
    .ok (w :: ws)

/-- `src/core/tholder.rs` 34-62: all clauses. -/
def clausesOf (oc : Bool) : List Value → Res (List (List R32))
  | [] => .ok []
  | v :: rest => do
    let a ← v.toVec
    let c ← weights oc a
    let cs ← clausesOf oc rest
    .ok (c :: cs)

/-- `src/core/tholder.rs` 65-69: the sum of a clause, from `sum`. -/
def sumFrom (oc : Bool) : R32 → List R32 → Res R32
  | sum, [] => .ok sum
  | sum, w :: ws => do
    let sum ← R32.add oc sum w
    sumFrom oc sum ws

/-- `src/core/tholder.rs` 64-77: every clause sums to at least one. -/
def checkSums (oc : Bool) : List (List R32) → Res Unit
  | [] => .ok ()
  | c :: rest => do
    let s ← sumFrom oc ⟨0, 1⟩ c
    if s.ltOne then .err .value else checkSums oc rest

/-- `src/core/tholder.rs` 29-80 `values_to_rationals`. -/
def valuesToRationals (oc : Bool) (v : Value) : Res (List (List R32)) := do
  let a ← v.toVec
  let cs ← clausesOf oc a
  checkSums oc cs
  .ok cs

/-- Text of a weight (`src/core/tholder.rs` 87-91 and 373-377), `sep` between numerator and denominator. -/
def weightText (sep : UInt8) (w : R32) : Str :=
  if w.denom = 1 then intDec w.numer else intDec w.numer ++ sep :: intDec w.denom

/-- Rust `join` with a one-character separator. -/
def join (sep : UInt8) : List Str → Str
  | [] => []
  | s :: rest => s ++ (match rest with | [] => [] | _ :: _ => sep :: join sep rest)

/-- `src/core/tholder.rs` 82-96 `rationals_to_bext`. -/
def rationalsToBext (cs : List (List R32)) : Str :=
  join (ch 'a') (cs.map fun c => join (ch 'c') (c.map (weightText (ch 's'))))

/-- `src/core/tholder.rs` 369-382: the stored threshold value. -/
def storedValue (cs : List (List R32)) : Value :=
  .arr (cs.map fun c => .arr (c.map fun w => .str (weightText (ch '/') w)))

/-- `src/core/tholder.rs` 363-390 `process_weighted` (it overwrites every field). -/
def processWeighted (E : Env) (v : Value) : Res Tholder := do
  let cs ← valuesToRationals E.overflowChecks v
  let bexter ← Bexter.new E (some (rationalsToBext cs)) none none none none none
  .ok { thold := storedValue cs, weighted := true, size := (cs.map List.length).sum, number := none, bexter := some bexter }

/-- `src/core/tholder.rs` 349-361 `process_unweighted` (it overwrites every field). -/
def processUnweighted (E : Env) (n : Int) : Res Tholder :=
  if n < 0 then .err .value
  else if 2 ^ 32 ≤ n then .err .tryFrom
  else do
    let number ← Number.new E (some n.toNat) none none none none none none
    .ok { thold := .int n, weighted := false, size := n.toNat, number := some number, bexter := none }

/-- `src/core/tholder.rs` 249-259 `process_thold`. -/
def processThold (E : Env) (v : Value) : Res Tholder :=
  match v.toI64 with
  | .ok n => processUnweighted E n
  | _ => processWeighted E v

/-- `src/core/tholder.rs` 278-289: the threshold value of a Base64 text. -/
def bextValue (t : Str) : Value :=
  .arr ((splitOn (ch 'a') (t.map fun c => if c = ch 's' then ch '/' else c)).map fun clause =>
    .arr ((splitOn (ch 'c') clause).map .str))

/-- `src/core/tholder.rs` 261-295 `process_limen`, on a non-empty limen. -/
def processLimen (E : Env) (limen : List UInt8) : Res Tholder := do
  let limen ← fromUtf8 limen
  match limen with
  | [] => .panic
  | c :: _ => do
    let hs ← Matter.hardage c
    let code ← sliceStr limen 0 hs
    if Number.hasCode code then do
      let number ← Number.new E none none none none none (some limen) none
      let n ← Number.num number
      if n < 2 ^ 63 then processUnweighted E n else .err .tryFrom
    else if Bexter.hasCode code then do
      let bexter ← Bexter.new E none none none none (some limen) none
      let t ← Bexter.bext bexter
      processWeighted E (bextValue t)
    else .err .unexpectedCode

/-- `src/core/tholder.rs` 329-340: every weight of every clause is a text. -/
def checkTexts : List Value → Res Unit
  | [] => .ok ()
  | v :: rest => do
    let a ← v.toVec
    if a.all (fun w => w.toStr.isOk) then checkTexts rest else .err .value

/-- `src/core/tholder.rs` 319-344: a list of weights or of clauses. -/
def processSithArray (E : Env) (v : Value) : Res Tholder := do
  let a ← v.toVec
  if a = [] then .err .value
  else do
    let v := if a.all (fun c => c.toVec.isOk) then v else .arr [v]
    let a ← v.toVec
    checkTexts a
    processWeighted E v

/-- `src/core/tholder.rs` 297-347 `process_sith`. `F`: see `Verif.Model.Json`. -/
def processSith (E : Env) (F : Str → Option Str) (v : Value) : Res Tholder :=
  match v with
  | .int n => processUnweighted E n
  | .str s =>
    if s.head? = some (ch '[') then do
      let v ← Json.fromStr F s
      processSithArray E v
    else do
      let n ← i64FromHex s
      processUnweighted E n
  | v => processSithArray E v

/-- `src/core/tholder.rs` 99-119 `new`. The comparison with the default value (114) holds exactly when nothing was
processed, since every `process_…` sets `number` or `bexter`. -/
def new (E : Env) (F : Str → Option Str) (thold : Option Value) (limen : Option (List UInt8)) (sith : Option Value) : Res Tholder := do
  let t := default
  let t ← (match thold with
    | some v => processThold E v
    | none => .ok t : Res Tholder)
  let t ← (match limen with
    | some l => if l = [] then .ok t else processLimen E l
    | none => .ok t : Res Tholder)
  let t ← (match sith with
    | some v => processSith E F v
    | none => .ok t : Res Tholder)
  if t.number.isNone ∧ t.bexter.isNone then .err .emptyMaterial else .ok t

/-- `src/core/tholder.rs` 121-123. -/
def ofThold (E : Env) (F : Str → Option Str) (v : Value) : Res Tholder := new E F (some v) none none
/-- `src/core/tholder.rs` 125-127. -/
def ofLimen (E : Env) (F : Str → Option Str) (l : List UInt8) : Res Tholder := new E F none (some l) none
/-- `src/core/tholder.rs` 129-131. -/
def ofSith (E : Env) (F : Str → Option Str) (v : Value) : Res Tholder := new E F none none (some v)

/-- `src/core/tholder.rs` 145-151 `num`. -/
def num (t : Tholder) : Res (Option Nat) :=
  if t.weighted = false then do
    let n ← t.thold.toI64
    if 0 ≤ n ∧ n < 2 ^ 32 then .ok (some n.toNat) else .err .tryFrom
  else .ok none

/-- `src/core/tholder.rs` 161-175 `limen`. -/
def limen (E : Env) (t : Tholder) : Res (List UInt8) :=
  if t.weighted then
    match t.bexter with
    | some b => b.qb64b E
    | none => .err .value
  else
    match t.number with
    | some n => n.qb64b E
    | none => .err .value

/-- Rust `format!("{n:x}")` of an `i64` (two's complement). -/
def i64Hex (n : Int) : Str := hexStr (n % 2 ^ 64).toNat

/-- `src/core/tholder.rs` 177-190 `sith`. -/
def sith (t : Tholder) : Res Value :=
  if t.weighted then do
    let a ← t.thold.toVec
    if a.length = 1 then t.thold.indexNat 0 else .ok t.thold
  else do
    let n ← t.thold.toI64
    .ok (.str (i64Hex n))

/-- `src/core/tholder.rs` 192-194 `to_json`. -/
def toJson (t : Tholder) : Res Str := do
  let s ← t.sith
  .ok s.toJson

/-- `src/core/tholder.rs` 206-214 `satisfy_numeric`. -/
def satisfyNumeric (t : Tholder) (indices : List Nat) : Res Bool := do
  let n ← t.thold.toI64
  .ok (decide (0 < n ∧ n ≤ indices.length))

/-- Rust `Vec::dedup`: drops consecutive repetitions. -/
def dedup : List Nat → List Nat
  | [] => []
  | a :: rest =>
    match dedup rest with
    | [] => [a]
    | b :: r => if a = b then b :: r else a :: b :: r

/-- `src/core/tholder.rs` 225-228: mark the given positions; panics out of range. -/
def mark : List Bool → List Nat → Res (List Bool)
  | sats, [] => .ok sats
  | sats, i :: rest => if i < sats.length then mark (sats.set i true) rest else .panic

/-- `src/core/tholder.rs` 234-240: the weight of a clause that starts at position `wio`. -/
def clauseWeight (oc : Bool) (sats : List Bool) : R32 → Nat → List R32 → Res R32
  | cw, _, [] => .ok cw
  | cw, wio, w :: ws =>
    match sats[wio]? with
    | none => .panic
    | some true => do
      let cw ← R32.add oc cw w
      clauseWeight oc sats cw (wio + 1) ws
    | some false => clauseWeight oc sats cw (wio + 1) ws

/-- `src/core/tholder.rs` 232-246: every clause reaches one. -/
def clausesReach (oc : Bool) (sats : List Bool) : Nat → List (List R32) → Res Bool
  | _, [] => .ok true
  | wio, c :: rest => do
    let cw ← clauseWeight oc sats ⟨0, 1⟩ wio c
    if cw.ltOne then .ok false else clausesReach oc sats (wio + c.length) rest

/-- `src/core/tholder.rs` 216-247 `satisfy_weighted`. -/
def satisfyWeighted (oc : Bool) (t : Tholder) (indices : List Nat) : Res Bool := do
  let indices := dedup (indices.mergeSort)
  let sats ← mark (List.replicate t.size false) indices
  let cs ← valuesToRationals oc t.thold
  clausesReach oc sats 0 cs

/-- `src/core/tholder.rs` 196-204 `satisfy`. -/
def satisfy (E : Env) (t : Tholder) (indices : List Nat) : Res Bool :=
  if t.number.isSome then satisfyNumeric t indices
  else if t.bexter.isSome then satisfyWeighted E.overflowChecks t indices
  else .ok false

end Tholder
end Cesride
