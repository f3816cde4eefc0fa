import Verif.Props.Altered

/-! # Property C84, the reserved codes of indexed signatures -/

namespace Cesride
open Spec

namespace Indexer

/-- The text encoder, for a row whose code takes a multiple of four characters. -/
theorem infil_outcome {x : Indexer} {z : ISizage} (hz : sizage x.code = .ok z) (h4 : (z.hs + z.ss) % 4 = 0) (hle : z.ls ≤ 1) (E : Env) {fs : Nat}
    (hfs : (if z.fs = u32Max then (if (z.hs + z.ss) % 4 ≠ 0 then .err .invalidCodeSize else if z.os ≠ 0 then .err .invalidCodeSize
      else E.fitU32 (x.index * 4 + (z.hs + z.ss))) else .ok z.fs : Res Nat) = .ok fs) :
    ((∃ t, x.infil E = .ok t) ↔ x.index < 64 ^ (z.ss - z.os) ∧ (0 < z.os → x.ondex < 64 ^ z.os) ∧ (x.raw.length + z.ls) % 3 = 0 ∧
      z.hs + z.ss + (x.raw.length + z.ls) / 3 * 4 = fs) ∧
    (x.infil E = .panic ↔ E.overflowChecks = true ∧ x.index < 64 ^ (z.ss - z.os) ∧ (0 < z.os → x.ondex < 64 ^ z.os) ∧ z.ls = 1 ∧ x.raw.length % 3 = 0) := by
  have hp : 0 < 64 ^ (z.ss - z.os) := Nat.pos_of_ne_zero (by simp)
  have hp' : 0 < 64 ^ z.os := Nat.pos_of_ne_zero (by simp)
  unfold Indexer.infil
  simp only [hz, Res.ok_bind, hfs]
  by_cases h1 : 64 ^ (z.ss - z.os) - 1 < x.index
  · rw [if_pos h1]
    constructor
    · constructor
      · rintro ⟨t, h⟩; cases h
      · rintro ⟨h, _⟩; omega
    · constructor
      · intro h; cases h
      · rintro ⟨_, h, _⟩; omega
  rw [if_neg h1]
  by_cases h2 : 0 < z.os ∧ 64 ^ z.os - 1 < x.ondex
  · rw [if_pos h2]
    constructor
    · constructor
      · rintro ⟨t, h⟩; cases h
      · rintro ⟨_, h, _⟩; have := h h2.1; omega
    · constructor
      · intro h; cases h
      · rintro ⟨_, _, h, _⟩; have := h h2.1; omega
  rw [if_neg h2]
  have hw : HeadOk x z := ⟨hz, by omega, fun h0 => by
    have : ¬ 64 ^ z.os - 1 < x.ondex := fun h => h2 ⟨h0, h⟩
    omega⟩
  have hi : x.index < 64 ^ (z.ss - z.os) := hw.index
  have ho : 0 < z.os → x.ondex < 64 ^ z.os := hw.ondex
  obtain ⟨s1, s2⟩ := hw.soft E
  rw [s1, Res.ok_bind, s2, Res.ok_bind, ← encD_headD hz, encD_length, headD_length hz, if_neg (by omega)]
  unfold Env.subU32
  by_cases h3 : z.ls ≤ (3 - x.raw.length % 3) % 3
  · rw [if_pos h3, Res.ok_bind]
    by_cases h5 : (z.hs + z.ss) % 4 ≠ (3 - x.raw.length % 3) % 3 - z.ls
    · rw [if_pos h5]
      constructor
      · constructor
        · rintro ⟨t, h⟩; cases h
        · rintro ⟨_, _, h, _⟩; omega
      · constructor
        · intro h; cases h
        · rintro ⟨_, _, _, h, h'⟩; omega
    · rw [if_neg h5, b64Encode_eq (by simp; omega)]
      rw [sliceStr_ascii_to_end (ascii_encD (sextets_lt _)) (by rw [encD_length, sextets_length]; simp; omega), Res.ok_bind]
      have hl : ∀ a b : List Nat, (encD a ++ (encD b).drop ((3 - x.raw.length % 3) % 3 - z.ls)).length = a.length + (b.length - ((3 - x.raw.length % 3) % 3 - z.ls)) := by
        intro a b
        rw [List.length_append, List.length_drop, encD_length, encD_length]
      rw [hl, headD_length hz, sextets_length]
      simp only [List.length_append, List.length_replicate]
      have e : (3 - x.raw.length % 3) % 3 = z.ls := by omega
      rw [e]
      constructor
      · constructor
        · rintro ⟨t, h⟩
          split at h
          · cases h
          · exact ⟨hi, ho, by omega, by omega⟩
        · rintro ⟨_, _, ha, hb⟩
          rw [if_neg (by omega)]
          exact ⟨_, rfl⟩
      · constructor
        · intro h
          split at h <;> cases h
        · rintro ⟨_, _, _, h, h'⟩; omega
  · rw [if_neg h3]
    by_cases hE : E.overflowChecks = true
    · rw [if_pos hE, Res.panic_bind]
      constructor
      · constructor
        · rintro ⟨t, h⟩; cases h
        · rintro ⟨_, _, ha, hb⟩; omega
      · exact ⟨fun _ => ⟨hE, hi, ho, by omega, by omega⟩, fun _ => rfl⟩
    · rw [if_neg hE, Res.ok_bind, if_pos (by omega)]
      constructor
      · constructor
        · rintro ⟨t, h⟩; cases h
        · rintro ⟨_, _, ha, hb⟩; omega
      · constructor
        · intro h; cases h
        · rintro ⟨h, _⟩; exact absurd h hE

end Indexer

open Indexer in
/-- C84 (the three reserved codes of indexed signatures, text). Under `0z` the index is the number of raw triples; under `1z` and `4z` there are 53 bytes of
raw and one lead byte. Encoding succeeds exactly when the fields are so. (Defects: with overflow checks it panics for an index of `0z` whose size in characters does not fit
32 bits, and under `1z` and `4z` for a raw that leaves no room for the lead byte.) -/
theorem C84_reserved (E : Env) (x : Indexer) :
    (x.code = lit "0z" →
      ((∃ t, x.qb64 E = .ok t) ↔ x.index < 64 ^ 2 ∧ x.raw.length = 3 * x.index) ∧
      (x.qb64 E = .panic ↔ E.overflowChecks = true ∧ 2 ^ 32 ≤ 4 * x.index + 4)) ∧
    (x.code = lit "1z" →
      ((∃ t, x.qb64 E = .ok t) ↔ x.index < 64 ∧ x.ondex < 64 ∧ x.raw.length = 53) ∧
      (x.qb64 E = .panic ↔ E.overflowChecks = true ∧ x.index < 64 ∧ x.ondex < 64 ∧ x.raw.length % 3 = 0)) ∧
    (x.code = lit "4z" →
      ((∃ t, x.qb64 E = .ok t) ↔ x.index < 64 ^ 3 ∧ x.ondex < 64 ^ 3 ∧ x.raw.length = 53) ∧
      (x.qb64 E = .panic ↔ E.overflowChecks = true ∧ x.index < 64 ^ 3 ∧ x.ondex < 64 ^ 3 ∧ x.raw.length % 3 = 0)) := by
  refine ⟨fun hc => ?_, fun hc => ?_, fun hc => ?_⟩
  · have hz : sizage x.code = .ok ⟨2, 2, 0, 0, u32Max⟩ := by rw [hc]; decide +kernel
    have small : ∀ fs, E.fitU32 (x.index * 4 + 4) = .ok fs → ((∃ t, x.qb64 E = .ok t) ↔ x.index < 64 ^ 2 ∧ 4 + x.raw.length / 3 * 4 = fs ∧ x.raw.length % 3 = 0) := by
      intro fs h
      have := (infil_outcome hz rfl (by decide) E (fs := fs) (by simpa using h)).1
      dsimp only at this
      rw [show x.qb64 E = x.infil E from rfl, this]
      simp only [Nat.lt_irrefl, false_imp_iff, true_and, Nat.add_zero, Nat.sub_zero]
      constructor
      · rintro ⟨a, b, c⟩; exact ⟨a, by omega, b⟩
      · rintro ⟨a, b, c⟩; exact ⟨a, c, by omega⟩
    by_cases h : x.index * 4 + 4 < 2 ^ 32
    · have hfit : E.fitU32 (x.index * 4 + 4) = .ok (x.index * 4 + 4) := by rw [Env.fitU32, if_pos h]
      refine ⟨?_, ?_⟩
      · rw [small _ hfit]
        constructor
        · rintro ⟨a, b, c⟩; exact ⟨a, by omega⟩
        · rintro ⟨a, b⟩; exact ⟨a, by omega, by omega⟩
      · have := (infil_outcome hz rfl (by decide) E (fs := x.index * 4 + 4) (by simpa using hfit)).2
        dsimp only at this
        rw [show x.qb64 E = x.infil E from rfl, this]
        constructor
        · rintro ⟨_, _, _, h, _⟩; omega
        · rintro ⟨_, h⟩; omega
    · by_cases hE : E.overflowChecks = true
      · have hp : x.qb64 E = .panic := by
          show x.infil E = .panic
          unfold Indexer.infil
          simp only [hz, Res.ok_bind]
          rw [if_pos trivial, if_neg (by decide), if_neg (by decide), Env.fitU32, if_neg h, if_pos hE]
          rfl
        rw [hp]
        refine ⟨⟨?_, ?_⟩, ⟨fun _ => ⟨hE, by omega⟩, fun _ => rfl⟩⟩
        · rintro ⟨t, h⟩; cases h
        · rintro ⟨a, b⟩; omega
      · have hfit : E.fitU32 (x.index * 4 + 4) = .ok ((x.index * 4 + 4) % 2 ^ 32) := by rw [Env.fitU32, if_neg h, if_neg hE]
        refine ⟨?_, ?_⟩
        · rw [small _ hfit]
          constructor
          · rintro ⟨a, b, c⟩; omega
          · rintro ⟨a, b⟩; omega
        · have := (infil_outcome hz rfl (by decide) E (fs := (x.index * 4 + 4) % 2 ^ 32) (by simpa using hfit)).2
          dsimp only at this
          rw [show x.qb64 E = x.infil E from rfl, this]
          constructor
          · rintro ⟨h, _⟩; exact absurd h hE
          · rintro ⟨h, _⟩; exact absurd h hE
  · have hz : sizage x.code = .ok ⟨2, 2, 1, 1, 76⟩ := by rw [hc]; decide +kernel
    have := infil_outcome hz rfl (by decide) E (fs := 76) (by simp [u32Max])
    dsimp only at this
    rw [show x.qb64 E = x.infil E from rfl, this.1, this.2]
    refine ⟨⟨?_, ?_⟩, ⟨?_, ?_⟩⟩
    · rintro ⟨a, b, c, d⟩; exact ⟨a, b (by decide), by omega⟩
    · rintro ⟨a, b, c⟩; exact ⟨a, fun _ => b, by omega, by omega⟩
    · rintro ⟨a, b, c, _, d⟩; exact ⟨a, b, c (by decide), d⟩
    · rintro ⟨a, b, c, d⟩; exact ⟨a, b, fun _ => c, rfl, d⟩
  · have hz : sizage x.code = .ok ⟨2, 6, 3, 1, 80⟩ := by rw [hc]; decide +kernel
    have := infil_outcome hz rfl (by decide) E (fs := 80) (by simp [u32Max])
    dsimp only at this
    rw [show x.qb64 E = x.infil E from rfl, this.1, this.2]
    refine ⟨⟨?_, ?_⟩, ⟨?_, ?_⟩⟩
    · rintro ⟨a, b, c, d⟩; exact ⟨a, b (by decide), by omega⟩
    · rintro ⟨a, b, c⟩; exact ⟨a, fun _ => b, by omega, by omega⟩
    · rintro ⟨a, b, c, _, d⟩; exact ⟨a, b, c (by decide), d⟩
    · rintro ⟨a, b, c, d⟩; exact ⟨a, b, fun _ => c, rfl, d⟩

/-- Both sides occur. -/
example : (∃ t, Indexer.qb64 Env.debug ⟨lit "0z", [1, 2, 3], 1, 0⟩ = .ok t) ∧ Indexer.qb64 Env.debug ⟨lit "0z", [], 2 ^ 31, 0⟩ = .panic ∧
    Indexer.qb64 Env.release ⟨lit "0z", [], 2 ^ 31, 0⟩ = .err .invalidVarIndex ∧
    Indexer.qb64 Env.debug ⟨lit "1z", List.replicate 54 0, 3, 4⟩ = .panic :=
  ⟨⟨lit "0zABAQID", by decide +kernel⟩, by decide +kernel, by decide +kernel, by decide +kernel⟩

end Cesride
