import Verif.Model.Signer

/-! # What secrets leave in memory: the `zeroize` calls of `src/core/matter/mod.rs`, `src/core/signer.rs` and `src/core/salter.rs`

The same functions as in `Model.Matter` and `Model.Signer`, with one more effect: the contents of each buffer at the moment its memory
is given back to the allocator (or its stack frame is left). Only buffers this crate fills with raw material or with its text are followed.
Not followed: buffers that hold codes and sizes only, what the libraries (`base64`, `ed25519_dalek`, `k256`, `p256`, `argon2`) keep for themselves,
registers and moved-from stack slots, and what the caller does with the values it passes in or gets back.
The order of the list has no meaning. A panic unwinds, so it gives buffers back like an error. -/

namespace Cesride

/-- A call with its outcome and the buffers it has given back. -/
structure Mem (α : Type) where
  res : Res α
  freed : List (List UInt8)

namespace Mem

/-- A call that touches no buffer with secret contents. -/
def lift {α : Type} (r : Res α) : Mem α := ⟨r, []⟩

/-- Sequencing with `?`. -/
def bind {α β : Type} (x : Mem α) (f : α → Mem β) : Mem β :=
  match x.res with
  | .ok a => ⟨(f a).res, x.freed ++ (f a).freed⟩
  | .err e => ⟨.err e, x.freed⟩
  | .panic => ⟨.panic, x.freed⟩

instance : Monad Mem where
  pure a := lift (.ok a)
  bind := Mem.bind

/-- A buffer after `zeroize()`. -/
def zeros (b : List UInt8) : List UInt8 := List.replicate b.length 0

/-- A buffer that goes out of scope after the body as it is, whatever the outcome (no `zeroize`). -/
def dropped {α : Type} (b : List UInt8) (body : Mem α) : Mem α := ⟨body.res, body.freed ++ [b]⟩

/-- A buffer that is in scope during the body and used afterwards: when the body fails it goes out of scope as it is. -/
def during {α : Type} (b : List UInt8) (body : Mem α) : Mem α :=
  ⟨body.res, body.freed ++ (if body.res.isOk then [] else [b])⟩

/-- A buffer on which `zeroize()` is called after the body: when the body fails the call is not reached. -/
def wiped {α : Type} (b : List UInt8) (body : Mem α) : Mem α :=
  ⟨body.res, body.freed ++ [if body.res.isOk then zeros b else b]⟩

/-- A buffer inside `Zeroizing`, or inside an object that derives `ZeroizeOnDrop`, that goes out of scope after the body. -/
def zeroizing {α : Type} (n : Nat) (body : Mem α) : Mem α := ⟨body.res, body.freed ++ [List.replicate n 0]⟩

/-- An object that derives `ZeroizeOnDrop` and holds `n` bytes, in scope during the body and used afterwards. -/
def guarding {α : Type} (n : Nat) (body : Mem α) : Mem α :=
  ⟨body.res, body.freed ++ (if body.res.isOk then [] else [List.replicate n 0])⟩

end Mem

open Mem

namespace Matter

/-- `src/core/matter/mod.rs` 184-247 `infil`: `raw` is a copy of the material (187), wiped on 221 or 240; `buffer` and `b64_vec` are `Zeroizing`
(219, 223, 238, 242). The text returned is written by `format!`: the code first, then the material in one piece, so that no grown buffer holds material. -/
def infilMem (E : Env) (m : Matter) : Mem Str := do
  let ps := (3 - m.raw.length % 3) % 3
  let szg ← during m.raw (lift (sizage m.code))
  if szg.fs = u32Max then
    let cs := szg.hs + szg.ss
    let both ← wiped m.raw (lift (
      if cs % 4 ≠ 0 then .err .invalidCodeSize
      else if 64 ^ szg.ss - 1 < m.size then .err .invalidVarSize
      else do
        let soft ← uintToB64 E m.size szg.ss
        let both := m.code ++ soft
        if (szg.ls ≤ ps ∧ both.length % 4 ≠ ps - szg.ls) ∨ (ps < szg.ls ∧ both.length % 4 ≠ szg.ls - ps) then
          .err .invalidCodeSize
        else .ok both : Res Str))
    let buffer := List.replicate szg.ls 0 ++ m.raw
    zeroizing buffer.length (zeroizing (buffer.length * 4 / 3) (lift (do
      let b64 ← b64EncodeSlice buffer (buffer.length * 4 / 3)
      .ok (both ++ b64))))
  else
    let both := m.code
    let cs := both.length
    wiped m.raw (lift (do
      let d ← E.subU32 ps szg.ls
      if cs % 4 ≠ d then .err .invalidCodeSize else .ok () : Res Unit))
    let buffer := List.replicate ps 0 ++ m.raw
    zeroizing buffer.length (zeroizing (buffer.length * 4 / 3) (lift (do
      let b64 ← b64EncodeSlice buffer (buffer.length * 4 / 3)
      let tail ← sliceStr b64 (cs % 4) b64.length
      .ok (both ++ tail))))

/-- `src/core/matter/mod.rs` 303-317: `buffer` is returned, or given back as it is when the size check fails. -/
def binfilFinishMem (ls fs : Nat) (bcode raw : List UInt8) : Mem (List UInt8) :=
  let buffer := bcode ++ List.replicate ls 0 ++ raw
  let bfs := buffer.length
  during buffer (lift (if bfs % 3 ≠ 0 ∨ bfs * 4 / 3 ≠ fs then .err .invalidCodeSize else .ok buffer))

/-- `src/core/matter/mod.rs` 249-318 `binfil`: `raw` is a copy of the material (252), wiped on 316. -/
def binfilMem (E : Env) (m : Matter) : Mem (List UInt8) :=
  wiped m.raw (do
    let szg ← lift (sizage m.code)
    let cs := szg.hs + szg.ss
    let (fs, both) ← lift (
      (if szg.fs = u32Max then
        if cs % 4 ≠ 0 then .err .invalidCodeSize
        else if 64 ^ szg.ss - 1 < m.size then .err .invalidVarSize
        else do
          let soft ← uintToB64 E m.size szg.ss
          .ok (cs + m.size * 4, m.code ++ soft)
      else .ok (szg.fs, m.code) : Res (Nat × Str)))
    if both.length ≠ cs then lift (.err .invalidCodeSize)
    else
      let n := (cs + 1) * 3 / 4
      if n ≤ 3 then do
        let v ← lift (b64ToU32 both)
        let full := toBe 4 (v * 2 ^ (2 * (cs % 4)) % 2 ^ 32)
        binfilFinishMem szg.ls fs (full.drop (4 - n)) m.raw
      else if n ≤ 6 then do
        let v ← lift (b64ToU64 both)
        let full := toBe 8 (v * 2 ^ (2 * (cs % 4)) % 2 ^ 64)
        binfilFinishMem szg.ls fs (full.drop (8 - n)) m.raw
      else lift (.err .invalidCodeSize))

/-- `src/core/matter/mod.rs` 320-421 `exfil` on a fresh object (whose raw vector is empty and owns no memory). `buf` is wiped on 380, `paw` on 393
or 411, `raw` on 418. `junk text` is what the library has written into `paw` when it refuses `text`. -/
def exfilMem (junk : Str → List UInt8) (qb64 : Str) : Mem Matter :=
  match qb64 with
  | [] => lift (.err .emptyMaterial)
  | first :: _ => do
    let hs ← lift (hardage first)
    if qb64.length < hs then lift (.err .shortage)
    else do
      let hard ← lift (sliceStr qb64 0 hs)
      let szg ← lift (sizage hard)
      let cs := szg.hs + szg.ss
      let (fs, size) ← lift (
        (if szg.fs = u32Max then
          if cs % 4 ≠ 0 then .err .invalidCodeSize
          else if qb64.length < cs then .err .shortage
          else do
            let soft ← sliceStr qb64 szg.hs cs
            let size ← b64ToU32 soft
            .ok (size * 4 + cs, size)
        else .ok (szg.fs, 0) : Res (Nat × Nat)))
      if qb64.length < fs then lift (.err .shortage)
      else do
        let trim ← lift (sliceStr qb64 0 fs)
        let ps := cs % 4
        let pbs := 2 * (if ps ≠ 0 then ps else szg.ls)
        let material ← lift (sliceStr trim cs trim.length)
        if ps ≠ 0 then do
          let buf := List.replicate ps (ch 'A') ++ material
          let paw ← wiped buf (during (junk buf) (lift (b64Decode buf)))
          let raw ← wiped paw (do
            let pad ← lift (slice paw 0 ps)
            if beNat pad % 2 ^ pbs ≠ 0 then lift (.err .prepad)
            else lift (slice paw ps paw.length))
          wiped raw (lift (.ok { code := hard, size := size, raw := raw }))
        else do
          let paw ← during (junk material) (lift (b64Decode material))
          let raw ← wiped paw (do
            let lead ← lift (slice paw 0 szg.ls)
            if beNat lead ≠ 0 then
              if szg.ls = 1 then lift (.err .nonZeroedLeadByte) else lift (.err .nonZeroedLeadBytes)
            else lift (slice paw szg.ls paw.length))
          wiped raw (lift (.ok { code := hard, size := size, raw := raw }))

/-- `src/core/matter/mod.rs` 423-509 `bexfil` on a fresh object: `trim` (471) is wiped on 501, `raw` (491) on 506. -/
def bexfilMem (E : Env) (qb2 : List UInt8) : Mem Matter :=
  if qb2 = [] then lift (.err .emptyMaterial)
  else do
    let firsts ← lift (nabSextets qb2 1)
    match firsts with
    | [] => lift .panic
    | first :: _ => do
      let hs ← lift (bardage first)
      let bhs := (hs * 3 + 3) / 4
      if qb2.length < bhs then lift (.err .shortage)
      else do
        let hard ← lift (codeB2ToB64 E qb2 hs)
        let szg ← lift (sizage hard)
        let cs := szg.hs + szg.ss
        let bcs := (cs + 1) * 3 / 4
        let (fs, size) ← lift (
          (if szg.fs = u32Max then
            if cs % 4 ≠ 0 then .err .parseQb2
            else if qb2.length < bcs then .err .shortage
            else do
              let both ← codeB2ToB64 E qb2 cs
              let soft ← sliceStr both szg.hs cs
              let size ← b64ToU32 soft
              .ok (size * 4 + cs, size)
          else .ok (szg.fs, 0) : Res (Nat × Nat)))
        let bfs := (fs + 1) * 3 / 4
        if qb2.length < bfs then lift (.err .shortage)
        else do
          let trim := qb2.take bfs
          let ps := cs % 4
          let pbs := 2 * (if ps ≠ 0 then ps else szg.ls)
          let raw ← wiped trim (
            if ps ≠ 0 then
              match trim[bcs - 1]? with
              | none => lift .panic
              | some b =>
                if b.toNat % 2 ^ pbs ≠ 0 then lift (.err .nonZeroedPadBits)
                else lift (slice trim (bcs + szg.ls) trim.length)
            else if ((trim.take (bcs + szg.ls)).drop bcs).any (fun v => v ≠ 0) then
              if szg.ls = 1 then lift (.err .nonZeroedLeadByte) else lift (.err .nonZeroedLeadBytes)
            else lift (slice trim (bcs + szg.ls) trim.length))
          wiped raw (lift (.ok { code := hard, size := size, raw := raw }))

/-- `src/core/matter/mod.rs` 125-134 `new_with_qb64b`: the text is copied into a `String` (129) that is never wiped. (When it is not UTF-8 the copy
goes into the error and is given back with it.) -/
def newWithQb64bMem (junk : Str → List UInt8) (qb64b : List UInt8) : Mem Matter :=
  dropped qb64b (do
    let qb64 ← lift (fromUtf8 qb64b)
    exfilMem junk qb64)

/-- `src/core/matter/mod.rs` 17-41 `new`. `new_with_code_and_raw` (43-114) copies the material only into the object. -/
def newMem (E : Env) (junk : Str → List UInt8) (code : Option Str) (raw : Option (List UInt8)) (qb64b : Option (List UInt8))
    (qb64 : Option Str) (qb2 : Option (List UInt8)) : Mem Matter :=
  match raw with
  | some raw =>
    match code with
    | some code => lift (newWithCodeAndRaw code raw)
    | none => lift (.err .emptyMaterial)
  | none =>
    match qb64b with
    | some qb64b => newWithQb64bMem junk qb64b
    | none =>
      match qb64 with
      | some qb64 => exfilMem junk qb64
      | none =>
        match qb2 with
        | some qb2 => bexfilMem E qb2
        | none => lift (.err .validation)

/-- `src/core/matter/mod.rs` 149-151 `qb64b`: the `String` of `qb64` is a temporary, copied and not wiped. -/
def qb64bMem (E : Env) (m : Matter) : Mem (List UInt8) := do
  let s ← infilMem E m
  dropped s (lift (.ok s))

end Matter

namespace Signer

/-- `src/core/signer.rs` 95-120 `new` with `derive_and_assign_verfer` 223-226: the copy of `raw` is wiped on 110; the temporary `self.raw()` on 224 is
not wiped; the signer itself derives `ZeroizeOnDrop` (37-46). -/
def newMem (E : Env) (C : Crypto) (junk : Str → List UInt8) (r : Nat) (transferable : Option Bool) (code : Option Str) (raw : Option (List UInt8))
    (qb64b : Option (List UInt8)) (qb64 : Option Str) (qb2 : Option (List UInt8)) : Mem Signer := do
  let transferable := transferable.getD true
  let m ←
    (if qb64b.isNone ∧ qb64.isNone ∧ qb2.isNone then do
      let code := code.getD (lit "A")
      lift (validateCode code)
      let raw ← lift
        (match raw with
        | some raw => .ok raw
        | none => Sign.generate C code r : Res (List UInt8))
      wiped raw (Matter.newMem E junk (some code) (some raw) none none none)
    else do
      let m ← Matter.newMem E junk code raw qb64b qb64 qb2
      guarding m.raw.length (lift (validateCode m.code))
      lift (.ok m) : Mem Matter)
  let verfer ← guarding m.raw.length (dropped m.raw (lift (deriveVerfer E C m.code m.raw transferable)))
  lift (.ok { matter := m, verfer := verfer })

/-- `src/core/signer.rs` 146-156 `sign_unindexed`: the temporary `self.raw()` on 154 is not wiped. -/
def signUnindexedMem (E : Env) (C : Crypto) (s : Signer) (ser : List UInt8) (r : Nat) : Mem Cigar := do
  let code ← lift
    (if s.matter.code = lit "A" then .ok (lit "0B")
    else if s.matter.code = lit "J" then .ok (lit "0C")
    else if s.matter.code = lit "Q" then .ok (lit "0I")
    else .err .unexpectedCode : Res Str)
  let sig ← dropped s.matter.raw (lift (Sign.sign C s.matter.code s.matter.raw ser r))
  lift (Cigar.new E (some s.verfer) (some code) (some sig) none none none)

/-- `src/core/signer.rs` 158-217 `sign_indexed`: the temporary `self.raw()` on 206 is not wiped. -/
def signIndexedMem (E : Env) (C : Crypto) (s : Signer) (ser : List UInt8) (only : Bool) (index : Nat) (ondex : Option Nat) (r : Nat) : Mem Siger := do
  let (code, ondex) ← lift
    (if only then do
      let code ←
        (if index < 64 then pick s.matter.code (lit "B") (lit "D") (lit "F")
        else pick s.matter.code (lit "2B") (lit "2D") (lit "2F") : Res Str)
      .ok (code, none)
    else do
      let ondex := ondex.getD index
      let code ←
        (if index = ondex ∧ index < 64 then pick s.matter.code (lit "A") (lit "C") (lit "E")
        else pick s.matter.code (lit "2A") (lit "2C") (lit "2E") : Res Str)
      .ok (code, some ondex) : Res (Str × Option Nat))
  let sig ← dropped s.matter.raw (lift (Sign.sign C s.matter.code s.matter.raw ser r))
  lift (Siger.new E (some s.verfer) (some index) ondex (some code) (some sig) none none none)

/-- Dropping a signer: `ZeroizeOnDrop` (`src/core/signer.rs` 37-46), the field `raw` is not skipped. -/
def dropMem (s : Signer) : Mem Unit := zeroizing s.matter.raw.length (lift (.ok ()))

/-- `src/core/signer.rs` 246-248 `set_raw`: the assignment gives the old vector back as it is. -/
def setRawMem (s : Signer) (raw : List UInt8) : Mem Signer :=
  dropped s.matter.raw (lift (.ok { s with matter := { s.matter with raw := raw } }))

end Signer

namespace Salter

/-- `src/core/salter.rs` 35-59 `new`: the array of random bytes (48) is wiped on 51. -/
def newMem (E : Env) (junk : Str → List UInt8) (rnd : List UInt8) (tier code : Option Str) (raw : Option (List UInt8)) (qb64b : Option (List UInt8))
    (qb64 : Option Str) (qb2 : Option (List UInt8)) : Mem Salter := do
  let code := code.getD (lit "0A")
  if code ≠ lit "0A" then lift (.err .unexpectedCode)
  else do
    let m ←
      (if raw.isNone ∧ qb64b.isNone ∧ qb64.isNone ∧ qb2.isNone then
        wiped rnd (Matter.newMem E junk (some code) (some rnd) none none none)
      else Matter.newMem E junk (some code) raw qb64b qb64 qb2 : Mem Matter)
    lift (.ok { matter := m, tier := tier.getD (lit "low") })

/-- `src/core/salter.rs` 81-97 `stretch`: the temporary `self.raw()` on 94 is not wiped. The output vector (`src/crypto/salt.rs` 29) is returned; when
Argon2 refuses its arguments nothing has been written into it. -/
def stretchMem (C : Crypto) (s : Salter) (size : Option Nat) (path tier : Option Str) (temp : Option Bool) : Mem (List UInt8) :=
  dropped s.matter.raw (lift (stretch C s size path tier temp))

/-- `src/core/salter.rs` 103-123 `signer`: the stretched seed is wiped on 120. -/
def signerMem (E : Env) (C : Crypto) (junk : Str → List UInt8) (s : Salter) (code : Option Str) (transferable : Option Bool) (path tier : Option Str)
    (temp : Option Bool) : Mem Signer := do
  let code := code.getD (lit "A")
  let transferable := transferable.getD true
  let path := path.getD []
  let temp := temp.getD false
  let size ← lift (Matter.rawSize code)
  let seed ← stretchMem C s (some size) (some path) tier (some temp)
  wiped seed (Signer.newMem E C junk 0 (some transferable) (some code) (some seed) none none none)

/-- The loop `src/core/salter.rs` 141-144: the signers made so far are dropped, and so wiped, when a later one fails. -/
def signersLoopMem (E : Env) (C : Crypto) (junk : Str → List UInt8) (s : Salter) (start : Nat) (path : Str) (code : Option Str)
    (transferable : Option Bool) (tier : Option Str) (temp : Option Bool) : List Nat → Mem (List Signer)
  | [] => lift (.ok [])
  | i :: is => do
    let n ← lift (addUsize E i start)
    let x ← signerMem E C junk s code transferable (some (path ++ hexStr n)) tier temp
    let xs ← guarding x.matter.raw.length (signersLoopMem E C junk s start path code transferable tier temp is)
    lift (.ok (x :: xs))

/-- `src/core/salter.rs` 126-147 `signers`. -/
def signersMem (E : Env) (C : Crypto) (junk : Str → List UInt8) (s : Salter) (count start : Option Nat) (path code : Option Str)
    (transferable : Option Bool) (tier : Option Str) (temp : Option Bool) : Mem (List Signer) :=
  signersLoopMem E C junk s (start.getD 0) (path.getD []) code transferable tier temp (List.range (count.getD 1))

/-- Dropping a salter: `ZeroizeOnDrop` (`src/core/salter.rs` 13-22), the field `raw` is not skipped. -/
def dropMem (s : Salter) : Mem Unit := zeroizing s.matter.raw.length (lift (.ok ()))

end Salter
end Cesride
