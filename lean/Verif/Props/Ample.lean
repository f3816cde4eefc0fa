import Verif.Model.Incept
import Mathlib.Data.Finset.Card
import Mathlib.Order.Interval.Finset.Nat

/-!
# Property C107: default witness thresholds

`ample n f weak` proposes how many of `n` witnesses have to confirm an event. The two requirements on such a number `m`, when `f` witnesses may be faulty, are
stated on sets of witnesses (`Agreement`, `Progress`), not on the formula.
-/

namespace Cesride
namespace Spec

/-- Any two sets of at least `m` of `n` witnesses have more than `f` witnesses in common, so that one that is not faulty is in both. -/
def Agreement (n f m : Nat) : Prop := ∀ A B : Finset (Fin n), m ≤ A.card → m ≤ B.card → f < (A ∩ B).card

/-- When any `f` of the `n` witnesses do not answer, the others are still enough. -/
def Progress (n f m : Nat) : Prop := ∀ A : Finset (Fin n), A.card = n - f → m ≤ A.card

end Spec

namespace Builder
open Spec

theorem agreement_of {n f m : Nat} (h : n + f < 2 * m) (_ : m ≤ n) : Agreement n f m := by
  intro A B hA hB
  have h1 := Finset.card_inter_add_card_union A B
  have h2 : (A ∪ B).card ≤ n := by simpa using Finset.card_le_univ (A ∪ B)
  omega

theorem not_agreement {n f m : Nat} (h : 2 * m ≤ n + f) (hm : m ≤ n) (_ : f ≤ n) : ¬ Agreement n f m := by
  intro hag
  -- the first `m` and the last `m`
  let A : Finset (Fin n) := Finset.univ.filter fun i => i.val < m
  let B : Finset (Fin n) := Finset.univ.filter fun i => n - m ≤ i.val
  have cA : A.card = m := by
    rw [show A.card = (A.map Fin.valEmbedding).card from (Finset.card_map _).symm,
      show A.map Fin.valEmbedding = Finset.range m from ?_, Finset.card_range]
    ext i
    simp only [A, Finset.mem_map, Finset.mem_filter, Finset.mem_univ, true_and, Fin.valEmbedding_apply, Finset.mem_range]
    exact ⟨fun ⟨a, h, e⟩ => e ▸ h, fun h => ⟨⟨i, by omega⟩, h, rfl⟩⟩
  have cB : B.card = m := by
    rw [show B.card = (B.map Fin.valEmbedding).card from (Finset.card_map _).symm,
      show B.map Fin.valEmbedding = Finset.Ico (n - m) n from ?_, Nat.card_Ico]
    · omega
    ext i
    simp only [B, Finset.mem_map, Finset.mem_filter, Finset.mem_univ, true_and, Fin.valEmbedding_apply, Finset.mem_Ico]
    exact ⟨fun ⟨a, h, e⟩ => e ▸ ⟨h, a.isLt⟩, fun h => ⟨⟨i, h.2⟩, h.1, rfl⟩⟩
  have cI : (A ∩ B).card ≤ 2 * m - n := by
    rw [show (A ∩ B).card = ((A ∩ B).map Fin.valEmbedding).card from (Finset.card_map _).symm]
    refine (Finset.card_le_card (t := Finset.Ico (n - m) m) ?_).trans (by rw [Nat.card_Ico]; omega)
    intro i hi
    simp only [A, B, Finset.mem_map, Finset.mem_inter, Finset.mem_filter, Finset.mem_univ, true_and, Fin.valEmbedding_apply] at hi
    obtain ⟨a, ⟨h1, h2⟩, rfl⟩ := hi
    exact Finset.mem_Ico.mpr ⟨h2, h1⟩
  have := hag A B cA.ge cB.ge
  omega

theorem progress_iff {n f m : Nat} : Progress n f m ↔ m ≤ n - f := by
  constructor
  · intro h
    obtain ⟨A, -, hA⟩ := Finset.exists_subset_card_eq (s := (Finset.univ : Finset (Fin n))) (n := n - f) (by simp)
    exact hA ▸ h A hA
  · intro h A hA
    omega

theorem add_small {E : Env} {a b : Nat} (h : a + b < 2 ^ 128) : E.addU128 a b = .ok (a + b) := by
  rw [Env.addU128, if_pos h]

theorem sub_le {E : Env} {a b : Nat} (h : b ≤ a) : E.subU128 a b = .ok (a - b) := by
  rw [Env.subU128, if_pos h]

/-- The value with no number of faulty witnesses given. -/
theorem ample_default (E : Env) {n : Nat} (h1 : 1 ≤ n) (hn : n < 2 ^ 126) (weak : Option Bool) :
    ample E n none weak = .ok (if weak.getD true then min n ((n + max 1 ((n - 1) / 3) + 3) / 2)
      else min n (max (n - max 1 ((n - 1) / 3)) ((n + max 1 ((n - 1) / 3) + 3) / 2))) := by
  simp only [ample]
  rw [sub_le h1, Res.ok_bind]
  simp only [Nat.zero_max]
  rw [add_small (by omega), Res.ok_bind]
  have a1 : n + max 1 ((n - 1) / 3) < 2 ^ 128 := by omega
  have a2 : n + max 1 ((n - 1) / 3) + 3 < 2 ^ 128 := by omega
  have b1 : n + max 1 ((n - 1 + 2) / 3) < 2 ^ 128 := by omega
  have b2 : n + max 1 ((n - 1 + 2) / 3) + 3 < 2 ^ 128 := by omega
  have c1 : max 1 ((n - 1) / 3) ≤ n := by omega
  split
  · rw [add_small a1, Res.ok_bind, add_small a2, Res.ok_bind, add_small b1, Res.ok_bind, add_small b2, Res.ok_bind]
    congr 1
    omega
  · rw [sub_le c1, Res.ok_bind, add_small a1, Res.ok_bind, add_small a2, Res.ok_bind]

/-- C107, safety of the default: of `n` witnesses, of which one third (without one) may be faulty, any two sets that reach it share a witness that is not
faulty; and it can be reached. -/
theorem C107_agreement (E : Env) {n : Nat} (h1 : 1 ≤ n) (hn : n < 2 ^ 126) (weak : Option Bool) :
    ∃ m, ample E n none weak = .ok m ∧ 1 ≤ m ∧ m ≤ n ∧ Agreement n ((n - 1) / 3) m := by
  refine ⟨_, ample_default E h1 hn weak, ?_, ?_, agreement_of ?_ ?_⟩ <;> split <;> omega

/-- C107, progress of the default: exactly when `n` is not one of 4, 7, 10, … the threshold is still reached when one third (without one) of the witnesses do
not answer. -/
theorem C107_progress (E : Env) {n : Nat} (h1 : 1 ≤ n) (hn : n < 2 ^ 126) (weak : Option Bool) :
    ∃ m, ample E n none weak = .ok m ∧ (Progress n ((n - 1) / 3) m ↔ n < 4 ∨ n % 3 ≠ 1) := by
  refine ⟨_, ample_default E h1 hn weak, ?_⟩
  rw [progress_iff]
  split <;> omega

/-- C107, the defect: for `n = 3 f + 1` witnesses the default is one more than the number that has both properties. So of four witnesses all four are needed. -/
theorem C107_default_defect (E : Env) {f : Nat} (h1 : 1 ≤ f) (hn : f < 2 ^ 120) (weak : Option Bool) :
    ∃ m, ample E (3 * f + 1) none weak = .ok (m + 1) ∧ Agreement (3 * f + 1) f m ∧ Progress (3 * f + 1) f m ∧
      ¬ Progress (3 * f + 1) f (m + 1) := by
  refine ⟨2 * f + 1, ?_, agreement_of (by omega) (by omega), progress_iff.mpr (by omega), fun h => ?_⟩
  · rw [ample_default E (by omega) (by omega)]
    congr 1
    split <;> omega
  · have := progress_iff.mp h
    omega

/-- C107, a number of faulty witnesses is given: it is accepted exactly when it is less than a third of the witnesses, and the threshold then has both
properties; the weak one is the smallest that has, the strong one the largest. -/
theorem C107_given (E : Env) {n f : Nat} (h1 : 1 ≤ n) (hn : n < 2 ^ 126) (hf : f ≤ n) (weak : Option Bool) :
    (3 * f < n → ∃ m, ample E n (some f) weak = .ok m ∧ ∀ k, k ≤ n → (Agreement n f k ∧ Progress n f k → if weak.getD true then m ≤ k else k ≤ m)) ∧
    (3 * f < n → ∃ m, ample E n (some f) weak = .ok m ∧ m ≤ n ∧ Agreement n f m ∧ Progress n f m) ∧
    (n ≤ 3 * f → ample E n (some f) weak = .err .value ∧ ∀ k, k ≤ n → ¬ (Agreement n f k ∧ Progress n f k)) := by
  have e : ample E n (some f) weak = if n - f < (n + f + 2) / 2 then .err .value
      else if weak.getD true then .ok (min n (min ((n + f + 2) / 2) (n - f))) else .ok (min n (max ((n + f + 2) / 2) (n - f))) := by
    simp only [ample]
    rw [add_small (by omega), Res.ok_bind, add_small (by omega), Res.ok_bind, sub_le hf, Res.ok_bind]
    rw [show (if n - f > 0 then n - f else 0) = n - f by split <;> omega]
    by_cases hlt : n - f < (n + f + 2) / 2
    · rw [if_pos ⟨hlt, by omega⟩, if_pos hlt]
    · rw [if_neg (fun h => hlt h.1), if_neg hlt]
  refine ⟨fun h => ?_, fun h => ?_, fun h => ⟨?_, fun k hk hb => ?_⟩⟩
  · rw [e, if_neg (by omega)]
    split
    · refine ⟨_, rfl, fun k hk hb => ?_⟩
      have : ¬ (2 * k ≤ n + f) := fun hlt => not_agreement hlt hk hf hb.1
      omega
    · refine ⟨_, rfl, fun k hk hb => ?_⟩
      have := progress_iff.mp hb.2
      omega
  · rw [e, if_neg (by omega)]
    split
    · exact ⟨_, rfl, by omega, agreement_of (by omega) (by omega), progress_iff.mpr (by omega)⟩
    · exact ⟨_, rfl, by omega, agreement_of (by omega) (by omega), progress_iff.mpr (by omega)⟩
  · rw [e, if_pos (by omega)]
  · have h1 : ¬ (2 * k ≤ n + f) := fun hlt => not_agreement hlt hk hf hb.1
    have h2 := progress_iff.mp hb.2
    omega

/-- C107, the defects at the ends: no witnesses, or more faulty ones than there are, make builds with overflow checks panic; others answer, in the second case with
all witnesses although no number is safe. -/
theorem C107_ends_defect (E : Env) {n f : Nat} (weak : Option Bool) (hn : n < 2 ^ 126) (hf : n < f) (hs : f < 2 ^ 126) :
    (E.overflowChecks = true → ample E 0 none weak = .panic ∧ ample E n (some f) weak = .panic) ∧
    (E.overflowChecks = false → ample E 0 none weak = .ok 0 ∧ ample E n (some f) weak = .ok n ∧ ∀ k, k ≤ n → ¬ Agreement n f k) := by
  have s0 : E.addU128 n f = .ok (n + f) := add_small (by omega)
  have s1 : E.addU128 (n + f) 2 = .ok (n + f + 2) := add_small (by omega)
  refine ⟨fun hE => ⟨?_, ?_⟩, fun hE => ⟨?_, ?_, ?_⟩⟩
  · simp only [ample, Env.subU128, hE]
    rfl
  · simp only [ample]
    rw [s0, Res.ok_bind, s1, Res.ok_bind, Env.subU128, if_neg (by omega), if_pos hE]
    rfl
  · have hs : E.subU128 0 1 = .ok (2 ^ 128 - 1) := by rw [Env.subU128, if_neg (by omega), hE, if_neg (by decide), Nat.zero_add]
    simp only [ample]
    rw [hs, Res.ok_bind]
    rw [Nat.zero_max]
    have h2 : E.addU128 (2 ^ 128 - 1) 2 = .ok 1 := by
      rw [Env.addU128, if_neg (by omega), hE, if_neg (by decide)]
      congr 1
    rw [h2, Res.ok_bind]
    have h3 : max 1 ((2 ^ 128 - 1) / 3) = (2 ^ 128 - 1) / 3 := by omega
    rw [h3]
    have h4 : E.addU128 0 ((2 ^ 128 - 1) / 3) = .ok ((2 ^ 128 - 1) / 3) := by rw [add_small (by omega), Nat.zero_add]
    have h5 : E.addU128 ((2 ^ 128 - 1) / 3) 3 = .ok ((2 ^ 128 - 1) / 3 + 3) := add_small (by omega)
    have h6 : E.addU128 0 (max 1 (1 / 3)) = .ok 1 := add_small (by omega)
    have h7 : E.addU128 1 3 = .ok 4 := add_small (by omega)
    have h8 : E.subU128 0 ((2 ^ 128 - 1) / 3) = .ok (0 + 2 ^ 128 - (2 ^ 128 - 1) / 3) := by rw [Env.subU128, if_neg (by omega), hE, if_neg (by decide)]
    simp only [h4, h5, h6, h7, h8, Res.ok_bind, Nat.zero_min, ite_self]
  · simp only [ample]
    rw [s0, Res.ok_bind, s1, Res.ok_bind, Env.subU128, if_neg (by omega), hE, if_neg (by decide), Res.ok_bind]
    have : (if n + 2 ^ 128 - f > 0 then n + 2 ^ 128 - f else 0) = n + 2 ^ 128 - f := if_pos (by omega)
    rw [this, if_neg (by omega)]
    split
    · congr 1; omega
    · congr 1; omega
  · intro k hk hag
    have := hag Finset.univ Finset.univ (by simpa using hk) (by simpa using hk)
    simp at this
    omega

/-- Concrete cases: five witnesses (the default is right), four (the defect), and one faulty witness given. -/
example : ample Env.debug 5 none none = .ok 4 ∧ ample Env.debug 4 none none = .ok 4 ∧ ample Env.debug 4 (some 1) none = .ok 3 ∧
    ample Env.debug 4 (some 1) (some false) = .ok 3 ∧ ample Env.debug 4 (some 2) none = .err .value := by decide +kernel

end Builder
end Cesride
