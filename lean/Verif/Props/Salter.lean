import Verif.Props.Signer
import Verif.Lemmas.Prims

/-!
# Property C56: key derivation

Statements use the public methods of `Salter`. `Spec.CanonicalHex p n` says that `p` is `n` in lower-case hexadecimal without leading zeros.
-/

namespace Cesride.Spec

/-- The memory and time costs of the security tiers. -/
def tierCosts : List (Str × Nat × Nat) := [
  (lit "min", 8, 1), (lit "low", 65536, 2), (lit "med", 262144, 3), (lit "high", 1048576, 4)]

end Cesride.Spec

namespace Cesride
open Salter

section loop
variable {E : Env} {C : Crypto} {s : Salter} {start : Nat} {path : Str} {code : Option Str} {tr : Option Bool} {tier : Option Str} {temp : Option Bool}

theorem signersLoop_append (a b : List Nat) : signersLoop E C s start path code tr tier temp (a ++ b) =
    (do
      let x ← signersLoop E C s start path code tr tier temp a
      let y ← signersLoop E C s start path code tr tier temp b
      .ok (x ++ y)) := by
  induction a with
  | nil =>
    simp only [List.nil_append, signersLoop, Res.ok_bind]
    cases signersLoop E C s start path code tr tier temp b <;> rfl
  | cons i a ih =>
    simp only [List.cons_append, signersLoop, ih]
    cases addUsize E i start with
    | panic => rfl
    | err _ => rfl
    | ok n =>
      simp only [Res.ok_bind]
      cases signer E C s code tr (some (path ++ hexStr n)) tier temp with
      | panic => rfl
      | err _ => rfl
      | ok x =>
        simp only [Res.ok_bind]
        cases signersLoop E C s start path code tr tier temp a with
        | panic => rfl
        | err _ => rfl
        | ok xs =>
          simp only [Res.ok_bind]
          cases signersLoop E C s start path code tr tier temp b with
          | panic => rfl
          | err _ => rfl
          | ok ys => rfl

theorem signersLoop_ok {is : List Nat} {l : List Signer} (hi : ∀ i ∈ is, i + start < 2 ^ E.usizeBits) : signersLoop E C s start path code tr tier temp is = .ok l ↔
    l.length = is.length ∧ ∀ k (hk : k < is.length) (hl : k < l.length), signer E C s code tr (some (path ++ hexStr (start + is[k]))) tier temp = .ok l[k] := by
  induction is generalizing l with
  | nil =>
    simp only [signersLoop, List.length_nil, List.length_eq_zero_iff]
    constructor
    · intro h; injection h with h; exact ⟨h.symm, fun k hk => absurd hk (by simp)⟩
    · rintro ⟨h, _⟩; rw [h]
  | cons i is ih =>
    have h0 := hi i (List.mem_cons_self ..)
    have ih := fun l => ih (l := l) (fun j hj => hi j (List.mem_cons_of_mem _ hj))
    simp only [signersLoop, addUsize, if_pos h0, Res.ok_bind, Res.bind_eq_ok]
    rw [Nat.add_comm i start]
    constructor
    · rintro ⟨x, hx, xs, hxs, h⟩
      injection h with h
      subst h
      obtain ⟨h1, h2⟩ := (ih xs).mp hxs
      refine ⟨by simp [h1], ?_⟩
      intro k hk hl
      cases k with
      | zero => exact hx
      | succ k => exact h2 k (by simpa using hk) (by simpa using hl)
    · rintro ⟨h1, h2⟩
      cases l with
      | nil => simp at h1
      | cons x xs =>
        refine ⟨x, h2 0 (by simp) (by simp), xs, (ih xs).mpr ⟨by simpa using h1, ?_⟩, rfl⟩
        intro k hk hl
        exact h2 (k + 1) (by simpa using hk) (by simpa using hl)

theorem signersLoop_shift {n k m : Nat} (h : start + (n + k) ≤ 2 ^ E.usizeBits) : signersLoop E C s start path code tr tier temp (List.range' (m + n) k) =
    signersLoop E C s (start + n) path code tr tier temp (List.range' m k) := by
  induction k generalizing m with
  | zero => rfl
  | succ k ih =>
    rw [List.range'_succ, List.range'_succ]
    unfold signersLoop
    have e1 : addUsize E (m + n) start = addUsize E m (start + n) := by
      unfold addUsize
      rw [show m + n + start = m + (start + n) by omega]
    rw [e1, show m + n + 1 = (m + 1) + n by omega, ih (by omega)]

end loop

/-- C56 (positions). When the positions fit `usize` (64 bits, for the JavaScript bindings 32), `signers` gives `count` signers (1 by default), and the one at place `i` is the one that `signer`
derives for the path followed by the position `start + i` in hexadecimal (`start` is 0 and the path is empty by default). -/
theorem C56_positions (E : Env) (C : Crypto) (s : Salter) (count start : Option Nat) (path code : Option Str) (tr : Option Bool) (tier : Option Str)
    (temp : Option Bool) (hfit : start.getD 0 + count.getD 1 ≤ 2 ^ E.usizeBits) (l : List Signer) :
    Salter.signers E C s count start path code tr tier temp = .ok l ↔
      l.length = count.getD 1 ∧ ∀ i (hi : i < l.length), ∃ p, Spec.CanonicalHex p (start.getD 0 + i) ∧
        Salter.signer E C s code tr (some (path.getD [] ++ p)) tier temp = .ok l[i] := by
  unfold Salter.signers
  rw [signersLoop_ok (fun i hi => by simp only [List.mem_range] at hi; omega)]
  simp only [List.length_range, List.getElem_range]
  constructor
  · rintro ⟨h1, h2⟩
    exact ⟨h1, fun i hi => ⟨_, hexStr_canonical _, h2 i (by omega) hi⟩⟩
  · rintro ⟨h1, h2⟩
    refine ⟨h1, fun i _ hi => ?_⟩
    obtain ⟨p, hp, h⟩ := h2 i hi
    rw [canonicalHex_unique (hexStr_canonical _) hp]
    exact h

/-- C56 (distinct). Different positions have different derivation paths. -/
theorem C56_distinct_paths {path p q : Str} {a b : Nat} (hp : Spec.CanonicalHex p a) (hq : Spec.CanonicalHex q b) (h : path ++ p = path ++ q) : a = b := by
  have := List.append_cancel_left h
  subst this
  exact hp.2.2.1.symm.trans hq.2.2.1

/-- C56 (extension). Asking for more signers gives the same signers followed by those of the next positions. -/
theorem C56_extension (E : Env) (C : Crypto) (s : Salter) (n k start : Nat) (path code : Option Str) (tr : Option Bool) (tier : Option Str)
    (temp : Option Bool) (hfit : start + (n + k) ≤ 2 ^ E.usizeBits) :
    Salter.signers E C s (some (n + k)) (some start) path code tr tier temp =
      (do
        let a ← Salter.signers E C s (some n) (some start) path code tr tier temp
        let b ← Salter.signers E C s (some k) (some (start + n)) path code tr tier temp
        .ok (a ++ b)) := by
  unfold Salter.signers
  simp only [Option.getD_some]
  rw [List.range_eq_range', ← List.range'_append_1, signersLoop_append, ← List.range_eq_range', show (0 + n) = 0 + n from rfl, signersLoop_shift hfit,
    ← List.range_eq_range']

/-- C56 (failure). The first position that cannot be derived decides the failure of the whole. -/
theorem C56_first_failure (E : Env) (C : Crypto) (s : Salter) (n k start : Nat) (path code : Option Str) (tr : Option Bool) (tier : Option Str)
    (temp : Option Bool) (hfit : start + (n + k + 1) ≤ 2 ^ E.usizeBits) {l : List Signer}
    (hok : Salter.signers E C s (some n) (some start) path code tr tier temp = .ok l) {p : Str} (hp : Spec.CanonicalHex p (start + n)) :
    (∀ e, Salter.signer E C s code tr (some (path.getD [] ++ p)) tier temp = .err e →
      Salter.signers E C s (some (n + k + 1)) (some start) path code tr tier temp = .err e) ∧
    (Salter.signer E C s code tr (some (path.getD [] ++ p)) tier temp = .panic →
      Salter.signers E C s (some (n + k + 1)) (some start) path code tr tier temp = .panic) := by
  have hx := C56_extension E C s n (k + 1) start path code tr tier temp (by omega)
  rw [show n + (k + 1) = n + k + 1 by omega, hok, Res.ok_bind] at hx
  rw [canonicalHex_unique hp (hexStr_canonical _), hx]
  have h0 : ∀ r : Res Signer, Salter.signer E C s code tr (some (path.getD [] ++ hexStr (start + n))) tier temp = r →
      Salter.signers E C s (some (k + 1)) (some (start + n)) path code tr tier temp = (do
        let x ← r
        let xs ← signersLoop E C s (start + n) (path.getD []) code tr tier temp (List.range' 1 k)
        .ok (x :: xs)) := by
    intro r hr
    unfold Salter.signers
    simp only [Option.getD_some]
    rw [List.range_eq_range', List.range'_succ]
    simp only [signersLoop, addUsize, Nat.zero_add]
    rw [if_pos (by omega), Res.ok_bind, hr]
  constructor
  · intro e he
    rw [h0 _ he]
    rfl
  · intro he
    rw [h0 _ he]
    rfl

/-- C56 (overflow, a defect). Beyond the range of `usize` (64 bits, for the JavaScript bindings 32) a build with overflow checks panics, and one without wraps around to position 0. -/
theorem C56_overflow (E : Env) (C : Crypto) (s : Salter) (n start : Nat) (path code : Option Str) (tr : Option Bool) (tier : Option Str)
    (temp : Option Bool) (hend : start + n = 2 ^ E.usizeBits) {l : List Signer}
    (hok : Salter.signers E C s (some n) (some start) path code tr tier temp = .ok l) :
    Salter.signers E C s (some (n + 1)) (some start) path code tr tier temp =
      if E.overflowChecks then .panic
      else (do
        let x ← Salter.signer E C s code tr (some (path.getD [] ++ lit "0")) tier temp
        .ok (l ++ [x])) := by
  unfold Salter.signers at hok ⊢
  simp only [Option.getD_some] at hok ⊢
  rw [List.range_succ, signersLoop_append, hok]
  simp only [Res.ok_bind, signersLoop, addUsize]
  rw [if_neg (by omega), show n + start = 2 ^ E.usizeBits by omega]
  cases E.overflowChecks
  · simp only [Bool.false_eq_true, if_false, Nat.mod_self, Res.ok_bind]
    have : hexStr 0 = lit "0" := by
      unfold hexStr
      decide +kernel
    rw [this]
    cases signer E C s code tr (some (path.getD [] ++ lit "0")) tier temp <;> rfl
  · rfl

/-- C56 (derivation). The private key of a derived signer is Argon2id over the path with the salt, at the costs of the tier: the `min` tier for
temporary keys, otherwise the tier asked for or by default that of the salter; unknown tiers are refused. -/
theorem C56_derivation (E : Env) (C : Crypto) (s : Salter) (c : Curve) (tr : Option Bool) (path tier : Option Str) (temp : Option Bool) :
    (∀ name m t, (name, m, t) ∈ Spec.tierCosts → name = (if temp = some true then lit "min" else tier.getD s.tier) →
      Salter.signer E C s (some (schemeOf c).seed) tr path tier temp =
        match C.argon m t (path.getD []) s.matter.raw 32 with
        | none => .err .derivation
        | some key => if C.valid c key then .ok (signerOf C c (tr.getD true) key) else .err .crypto) ∧
    ((∀ e ∈ Spec.tierCosts, e.1 ≠ (if temp = some true then lit "min" else tier.getD s.tier)) →
      Salter.signer E C s (some (schemeOf c).seed) tr path tier temp = .err .value) ∧
    Salter.signer E C s none tr path tier temp = Salter.signer E C s (some (schemeOf .ed25519).seed) tr path tier temp := by
  have hr : Matter.rawSize (schemeOf c).seed = .ok 32 := by cases c <;> decide +kernel
  have ht : ∀ x y : Str, (if (temp.getD false) = true then x else y) = (if temp = some true then x else y) := by
    intro x y
    cases temp with
    | none => simp
    | some b => simp
  have hsig : Salter.signer E C s (some (schemeOf c).seed) tr path tier temp = (do
      let seed ← stretchSalt C (path.getD []) s.matter.raw 32 (if temp = some true then lit "min" else tier.getD s.tier)
      Signer.new E C 0 (some (tr.getD true)) (some (schemeOf c).seed) (some seed) none none none) := by
    unfold Salter.signer Salter.stretch
    simp only [Option.getD_some, hr, Res.ok_bind, ht]
  generalize (if temp = some true then lit "min" else tier.getD s.tier) = nm at hsig
  refine ⟨?_, ?_, rfl⟩
  · rintro name m t hmem rfl
    have hstr : stretchSalt C (path.getD []) s.matter.raw 32 name = (match C.argon m t (path.getD []) s.matter.raw 32 with
        | some out => .ok out
        | none => .err .derivation) := by
      unfold stretchSalt
      simp only [Spec.tierCosts, List.mem_cons, Prod.mk.injEq, List.not_mem_nil, or_false] at hmem
      rcases hmem with ⟨rfl, rfl, rfl⟩ | ⟨rfl, rfl, rfl⟩ | ⟨rfl, rfl, rfl⟩ | ⟨rfl, rfl, rfl⟩
      · rfl
      · rw [if_neg (by decide +kernel), if_pos rfl]; rfl
      · rw [if_neg (by decide +kernel), if_neg (by decide +kernel), if_pos rfl]; rfl
      · rw [if_neg (by decide +kernel), if_neg (by decide +kernel), if_neg (by decide +kernel), if_pos rfl]; rfl
    rw [hsig, hstr]
    cases ha : C.argon m t (path.getD []) s.matter.raw 32 with
    | none => rfl
    | some key =>
      have hl := C.argon_length _ _ _ _ _ _ ha
      simp only [Res.ok_bind]
      rw [C65_from_raw, if_neg (by omega), List.take_of_length_le (by omega)]
      rfl
  · intro hno
    rw [hsig]
    unfold stretchSalt
    simp only [Spec.tierCosts, List.mem_cons, List.not_mem_nil, or_false, forall_eq_or_imp, forall_eq] at hno
    rw [if_neg (Ne.symm hno.1), if_neg (Ne.symm hno.2.1), if_neg (Ne.symm hno.2.2.1), if_neg (Ne.symm hno.2.2.2)]
    rfl

/-- C56 (defect). Paths and positions are joined without a separator, so different ones can give the same keys: position 0 of path `1` is position 16
of the empty path. -/
theorem C56_paths_collide (E : Env) (C : Crypto) (s : Salter) (code : Option Str) (tr : Option Bool) (tier : Option Str) (temp : Option Bool) :
    Salter.signers E C s (some 1) (some 0) (some (lit "1")) code tr tier temp = Salter.signers E C s (some 1) (some 16) (some []) code tr tier temp := by
  unfold Salter.signers
  simp only [Option.getD_some, List.range_one, signersLoop, addUsize, Nat.zero_add]
  have h0 : lit "1" ++ hexStr 0 = [] ++ hexStr 16 := by
    have h1 : hexStr 0 = lit "0" := by unfold hexStr; decide +kernel
    have h2 : hexStr 16 = lit "10" := by unfold hexStr; unfold hexStr; decide +kernel
    rw [h1, h2]
    decide +kernel
  have hw : 2 ^ 5 ≤ 2 ^ E.usizeBits := Nat.pow_le_pow_right (by decide) (Nat.le_trans (by decide) E.usizeBits_ge)
  rw [if_pos (by omega), if_pos (by omega)]
  simp only [Res.ok_bind, h0]

/-- The premises are met: three signers from position 9. -/
def exampleSalter : Salter := { matter := { code := lit "0A", size := 0, raw := List.replicate 16 1 }, tier := lit "low" }

example : (Salter.new Env.debug [] none none (some (List.replicate 16 1)) none none none) = .ok exampleSalter := by decide +kernel
example : ∃ l, Salter.signers Env.debug toy exampleSalter (some 3) (some 9) none none none none none = .ok l ∧ l.length = 3 := by
  have key : ∀ p, Salter.signer Env.debug toy exampleSalter none none (some p) none none = .ok (signerOf toy .ed25519 true (List.replicate 32 7)) := by
    intro p
    rw [(C56_derivation Env.debug toy exampleSalter .ed25519 none (some p) none none).2.2,
      (C56_derivation Env.debug toy exampleSalter .ed25519 none (some p) none none).1 (lit "low") 65536 2 (by simp [Spec.tierCosts]) rfl]
    rfl
  refine ⟨List.replicate 3 (signerOf toy .ed25519 true (List.replicate 32 7)), (C56_positions _ _ _ _ _ _ _ _ _ _ (by decide) _).mpr ⟨rfl, ?_⟩, rfl⟩
  intro i hi
  exact ⟨_, hexStr_canonical _, by rw [key, List.getElem_replicate]⟩

end Cesride
