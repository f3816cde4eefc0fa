/-!
# Base conventions of the model

Outcome type, build environment, Rust strings as UTF-8 byte lists, slicing.
-/

namespace Cesride

/-- Kinds of errors (`src/error.rs` 3-69), without their message payloads.
`decode`, `utf8`, `encodeSlice`, `parseInt`, `json`, `tryFrom`, `crypto` stand for errors of foreign crates that
are converted by `anyhow` (`src/error.rs` 1). -/
inductive Err where
  | matter | emptyMaterial | unexpectedCode | unexpectedOpCode | invalidVarSize | invalidVarRawSize | invalidVarIndex
  | invalidCodeSize | invalidBase64Character | invalidBase64Index | shortage | unknownSizage
  | unknownHardage | unknownBardage | tooSmall | prepad | nonZeroedLeadByte | nonZeroedLeadBytes
  | nonZeroedPadBits | parsing | parseQb64 | parseQb2 | conversion | value | validation | derivation
  | decode | utf8 | encodeSlice | parseInt | json | tryFrom | crypto
  deriving DecidableEq, Repr

/-- Outcome of a Rust call: `Ok a`, `Err e`, or a panic.
Models `src/error.rs` 1 (`Result<T> = anyhow::Result<T>`) extended with the panic outcome. -/
inductive Res (α : Type) where
  | ok (a : α)
  | err (e : Err)
  | panic
  deriving DecidableEq, Repr

namespace Res

/-- Rust `?` sequencing. A panic aborts like an error but stays distinguishable. -/
def bind {α β : Type} (x : Res α) (f : α → Res β) : Res β :=
  match x with
  | ok a => f a
  | err e => err e
  | panic => panic

instance : Monad Res where
  pure := ok
  bind := Res.bind

@[simp] theorem pure_eq {α : Type} (a : α) : (pure a : Res α) = ok a := rfl
@[simp] theorem ok_bind {α β : Type} (a : α) (f : α → Res β) : (ok a >>= f) = f a := rfl
@[simp] theorem err_bind {α β : Type} (e : Err) (f : α → Res β) : ((err e : Res α) >>= f) = err e := rfl
@[simp] theorem panic_bind {α β : Type} (f : α → Res β) : ((panic : Res α) >>= f) = panic := rfl

/-- `Result::is_ok` on a non-panicking computation. -/
def isOk {α : Type} : Res α → Bool
  | ok _ => true
  | _ => false

theorem bind_eq_ok {α β : Type} {x : Res α} {f : α → Res β} {b : β} :
    (x >>= f) = ok b ↔ ∃ a, x = ok a ∧ f a = ok b := by
  cases x <;> simp

theorem bind_eq_panic {α β : Type} {x : Res α} {f : α → Res β} :
    (x >>= f) = panic ↔ x = panic ∨ ∃ a, x = ok a ∧ f a = panic := by
  cases x <;> simp

theorem bind_eq_err {α β : Type} {x : Res α} {f : α → Res β} {e : Err} :
    (x >>= f) = err e ↔ x = err e ∨ ∃ a, x = ok a ∧ f a = err e := by
  cases x <;> simp

end Res

/-- What may differ between builds and platforms.

* `overflowChecks`: `true` in the debug profile (integer overflow panics), `false` in release (wraps).
* `drop n len`: how many least-significant base-64 digits the `f32` logarithm test of
  `u32_to_b64`/`u64_to_b64` (`src/core/util.rs` 173-181, 198-206) skips. Only law: nothing is skipped when
  `n` fits in `len` digits (conversion to `f32` is monotone, `log2` is monotone and exact on powers of two,
  so `len - log2(n)/6 ≥ 0`).
* `usizeBits`: 64 on the usual platforms, 32 for the JavaScript bindings (wasm32). -/
structure Env where
  overflowChecks : Bool
  usizeBits : Nat
  usizeBits_ge : 32 ≤ usizeBits
  drop : Nat → Nat → Nat
  drop_fits : ∀ n len, n < 64 ^ len → drop n len = 0

/-- Number of base-64 digits of `n` (at most 11 for a `u64`). -/
def digitCount (n : Nat) : Nat → Nat
  | 0 => 0
  | fuel + 1 => if n = 0 then 0 else digitCount (n / 64) fuel + 1

theorem digitCount_le {len : Nat} : ∀ {fuel n : Nat}, n < 64 ^ len → digitCount n fuel ≤ len := by
  induction len with
  | zero =>
    intro fuel n h
    have : n = 0 := by simpa using h
    subst this
    cases fuel <;> simp [digitCount]
  | succ len ih =>
    intro fuel n h
    cases fuel with
    | zero => simp [digitCount]
    | succ fuel =>
      unfold digitCount
      split
      · omega
      · have : n / 64 < 64 ^ len := by
          rw [Nat.div_lt_iff_lt_mul (by decide)]; rw [Nat.pow_succ] at h; omega
        have := ih (fuel := fuel) this
        omega

/-- The environment with exact real-number logarithms (`⌈log64 n⌉ - len` digits skipped), used for
concrete examples only. -/
def Env.exact (overflowChecks : Bool) : Env where
  overflowChecks := overflowChecks
  usizeBits := 64
  usizeBits_ge := by decide
  drop n len := digitCount (n - 1) 11 - len
  drop_fits n len h := by
    have : digitCount (n - 1) 11 ≤ len := digitCount_le (by omega)
    omega

/-- Debug profile. -/
abbrev Env.debug : Env := Env.exact true
/-- Release profile. -/
abbrev Env.release : Env := Env.exact false
/-- Release profile of the JavaScript bindings. -/
def Env.wasm : Env := { Env.release with usizeBits := 32, usizeBits_ge := by decide }

/-- `u32` subtraction `a - b` of two `u32` values under the profile of `E`. -/
def Env.subU32 (E : Env) (a b : Nat) : Res Nat :=
  if b ≤ a then .ok (a - b) else if E.overflowChecks then .panic else .ok (a + 2 ^ 32 - b)

/-- A sum and products of `u32` values, evaluated in `u32` under the profile of `E`. -/
def Env.fitU32 (E : Env) (n : Nat) : Res Nat :=
  if n < 2 ^ 32 then .ok n else if E.overflowChecks then .panic else .ok (n % 2 ^ 32)

/-- A Rust `&str`/`String`: its UTF-8 bytes. -/
abbrev Str := List UInt8

/-- A string literal (ASCII). -/
def lit (s : String) : Str := s.toList.map (fun c => UInt8.ofNat c.toNat)

/-- A single ASCII character as a byte. -/
def ch (c : Char) : UInt8 := UInt8.ofNat c.toNat

/-- UTF-8 continuation byte `10xxxxxx`. -/
def isCont (b : UInt8) : Bool := b.toNat / 64 == 2

/-- Rust `str::is_char_boundary` on a valid UTF-8 byte list. -/
def isBoundary (s : Str) (i : Nat) : Bool :=
  match s[i]? with
  | some b => i == 0 || !isCont b
  | none => i == s.length

/-- Rust `&s[a..b]` on a string: panics when out of range or off a char boundary. -/
def sliceStr (s : Str) (a b : Nat) : Res Str :=
  if a ≤ b ∧ b ≤ s.length ∧ isBoundary s a = true ∧ isBoundary s b = true then .ok ((s.take b).drop a)
  else .panic

/-- Rust `&v[a..b]` on a slice/vector: panics when out of range. -/
def slice {α : Type} (v : List α) (a b : Nat) : Res (List α) :=
  if a ≤ b ∧ b ≤ v.length then .ok ((v.take b).drop a) else .panic

/-- UTF-8 validity as checked by Rust's `String::from_utf8`
(Unicode 15 table 3-7: no overlong forms, no surrogates, at most U+10FFFF). -/
def utf8Valid : Str → Bool
  | [] => true
  | a :: r =>
    if a < 0x80 then utf8Valid r
    else if 0xC2 ≤ a && a ≤ 0xDF then
      match r with
      | b :: r => isCont b && utf8Valid r
      | _ => false
    else if 0xE0 ≤ a && a ≤ 0xEF then
      match r with
      | b :: c :: r =>
        (if a = 0xE0 then 0xA0 ≤ b && b ≤ 0xBF
         else if a = 0xED then 0x80 ≤ b && b ≤ 0x9F
         else isCont b) && isCont c && utf8Valid r
      | _ => false
    else if 0xF0 ≤ a && a ≤ 0xF4 then
      match r with
      | b :: c :: d :: r =>
        (if a = 0xF0 then 0x90 ≤ b && b ≤ 0xBF
         else if a = 0xF4 then 0x80 ≤ b && b ≤ 0x8F
         else isCont b) && isCont c && isCont d && utf8Valid r
      | _ => false
    else false

/-- Rust `String::from_utf8(v)?`. -/
def fromUtf8 (v : List UInt8) : Res Str := if utf8Valid v then .ok v else .err .utf8

/-- Big-endian value of a byte list. -/
def beNat (l : List UInt8) : Nat := l.foldl (fun a b => a * 256 + b.toNat) 0

/-- `n` bytes big-endian of `v` (the low `8 n` bits, as in `to_be_bytes` of a wrapping integer). -/
def toBe : Nat → Nat → List UInt8
  | 0, _ => []
  | n + 1, v => toBe n (v / 256) ++ [UInt8.ofNat (v % 256)]

end Cesride
