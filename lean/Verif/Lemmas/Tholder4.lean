import Verif.Lemmas.Tholder3

/-! # Thresholds: wrapping arithmetic never overestimates a sum below one -/

namespace Cesride
namespace R32

theorem lcm_release_nat {a b : Rat} (ha : Small a) (hb : Small b) : ∃ l : Nat, lcm32 false a.den b.den = .ok l ∧ 0 < l ∧ l < 2 ^ 31 := by
  have h1 := a.den_pos
  have h2 := b.den_pos
  obtain ⟨l, h, h3, h4⟩ := lcm_release (a := a.den) (b := b.den) (by omega) ha.2.2 (by omega) hb.2.2
  refine ⟨l.toNat, ?_, by omega, by omega⟩
  rw [h, Int.toNat_of_nonneg (by omega)]

/-- Numerator over a (possibly wrong) common denominator never exceeds the exact one. -/
theorem scaled_le {a : Rat} (ha : 0 ≤ a) (l : Nat) : ((a.num.toNat * (l / a.den) : Nat) : Rat) ≤ a * l := by
  have hd : (0 : Rat) < (a.den : Rat) := by exact_mod_cast a.den_pos
  have hn : ((a.num.toNat : Nat) : Rat) = a * a.den := by
    rw [Rat.mul_den_eq_num]
    have : ((a.num.toNat : Nat) : Int) = a.num := Int.toNat_of_nonneg (num_nonneg ha)
    exact_mod_cast this
  have hq : (((l / a.den : Nat) : Rat)) * (a.den : Rat) ≤ (l : Rat) := by
    exact_mod_cast Nat.div_mul_le_self l a.den
  push_cast
  rw [hn]
  calc a * a.den * ((l / a.den : Nat) : Rat) = a * (((l / a.den : Nat) : Rat) * a.den) := by ring
    _ ≤ a * l := mul_le_mul_of_nonneg_left hq ha

theorem add_release_le {a b : Rat} (ha : Small a) (hb : Small b) (hlt : a + b < 1) :
    ∃ r, add false (rep a) (rep b) = .ok (rep r) ∧ Small r ∧ r ≤ a + b := by
  by_cases he : a.den = b.den
  · have h := add_rep ha hb
    have hL : lcd a b = a.den := by simp [lcd, ← he]
    have hS := Tholder.sumNum_cast ha.1 hb.1
    have h3 := ha.2.2
    have hlt' : sumNum a b < lcd a b := by
      have hl : (0 : Rat) < ((lcd a b : Nat) : Rat) := by exact_mod_cast (Nat.lcm_pos a.den_pos b.den_pos : 0 < lcd a b)
      have : ((sumNum a b : Nat) : Rat) < ((lcd a b : Nat) : Rat) := by
        rw [hS]
        calc (a + b) * ((lcd a b : Nat) : Rat) < 1 * ((lcd a b : Nat) : Rat) := mul_lt_mul_of_pos_right hlt hl
          _ = _ := one_mul _
      exact_mod_cast this
    have hf : lcd a b < 2 ^ 31 ∧ sumNum a b < 2 ^ 31 := by omega
    exact ⟨a + b, h.1 hf false, add_small ha hb hf, le_refl _⟩
  · obtain ⟨l, hl, hl0, hl1⟩ := lcm_release_nat ha hb
    obtain ⟨n, hn⟩ : ∃ n : Nat, a.num = n := ⟨a.num.toNat, (Int.toNat_of_nonneg (num_nonneg ha.1)).symm⟩
    obtain ⟨m, hm⟩ : ∃ m : Nat, b.num = m := ⟨b.num.toNat, (Int.toNat_of_nonneg (num_nonneg hb.1)).symm⟩
    have hx := scaled_le ha.1 l
    have hy := scaled_le hb.1 l
    rw [hn, Int.toNat_natCast] at hx
    rw [hm, Int.toNat_natCast] at hy
    have hlr : (0 : Rat) < (l : Rat) := by exact_mod_cast hl0
    have hsum : ((n * (l / a.den) + m * (l / b.den) : Nat) : Rat) ≤ (a + b) * l := by
      rw [Nat.cast_add, add_mul]; exact add_le_add hx hy
    have hltl : n * (l / a.den) + m * (l / b.den) < l := by
      have : ((n * (l / a.den) + m * (l / b.den) : Nat) : Rat) < (l : Rat) := by
        calc _ ≤ (a + b) * (l : Rat) := hsum
          _ < 1 * (l : Rat) := mul_lt_mul_of_pos_right hlt hlr
          _ = l := one_mul _
      exact_mod_cast this
    have hne : ¬ ((a.den : Int) = (b.den : Int)) := by omega
    have hX : ((n : Int) * (l : Int).tdiv a.den) = ((n * (l / a.den) : Nat) : Int) := by
      rw [← natCast_tdiv, ← Int.natCast_mul]
    have hY : ((m : Int) * (l : Int).tdiv b.den) = ((m * (l / b.den) : Nat) : Int) := by
      rw [← natCast_tdiv, ← Int.natCast_mul]
    have hsm := Tholder.frac_small (n := n * (l / a.den) + m * (l / b.den)) (d := l) (by omega) (by omega) (by omega)
    refine ⟨mkRat ((n * (l / a.den) + m * (l / b.den) : Nat) : Int) l, ?_, hsm.2.2, ?_⟩
    · have hadd : add false (rep a) (rep b) = (do
        let l ← lcm32 false a.den b.den
        let x ← i32 false ((n : Int) * l.tdiv a.den)
        let y ← i32 false ((m : Int) * l.tdiv b.den)
        let k ← i32 false (x + y)
        new false k l) := by simp only [add, rep, hn, hm, if_neg hne]
      rw [hadd, hl, Res.ok_bind, hX, hY, i32_fits (by omega) (by omega), Res.ok_bind, i32_fits (by omega) (by omega), Res.ok_bind,
        ← Int.natCast_add, i32_fits (by omega) (by omega), Res.ok_bind, new_rep false (by omega) (by omega) (by omega)]
    · rw [Rat.mkRat_eq_div]
      rw [show (((n * (l / a.den) + m * (l / b.den) : Nat) : Int) : Rat) = ((n * (l / a.den) + m * (l / b.den) : Nat) : Rat) by push_cast; rfl]
      rw [div_le_iff₀ hlr]
      exact hsum

theorem add_mono_small {a a' b : Rat} (h : a' ≤ a) (hab : a + b < 1) : a' + b < 1 := by linarith

end R32

namespace Tholder
open R32

theorem good_sum_nonneg : ∀ {c : List Rat}, Good c → 0 ≤ c.sum
  | [], _ => by simp
  | q :: c, h => by
    rw [List.sum_cons]
    exact add_nonneg (h q (by simp)).2.1 (good_sum_nonneg (fun x hx => h x (by simp [hx])))

theorem sumFrom_release_le : ∀ (c : List Rat) {s s' : Rat}, Small s' → s' ≤ s → Good c → s + c.sum < 1 →
    ∃ r, sumFrom false (rep s') (c.map rep) = .ok (rep r) ∧ r ≤ s + c.sum
  | [], s, s', _, h, _, _ => ⟨s', rfl, by simpa using h⟩
  | q :: c, s, s', hs, h, hg, hlt => by
    have hq := hg q (by simp)
    have hgc : Good c := fun x hx => hg x (by simp [hx])
    have hc := good_sum_nonneg hgc
    rw [List.sum_cons] at hlt ⊢
    obtain ⟨r, h1, h2, h3⟩ := add_release_le hs hq.2 (by linarith)
    obtain ⟨r', h4, h5⟩ := sumFrom_release_le c (s := s + q) (s' := r) h2 (by linarith) hgc (by linarith)
    refine ⟨r', ?_, by linarith⟩
    simp only [List.map_cons, sumFrom, h1, Res.ok_bind, h4]

/-- In every profile, a sum below one is never taken for one or more. -/
theorem sumFrom_sound (oc : Bool) {c : List Rat} (hg : Good c) {r : R32} (h : sumFrom oc ⟨0, 1⟩ (c.map rep) = .ok r) (hr : r.ltOne = false) : 1 ≤ c.sum := by
  by_contra hlt
  rw [not_le] at hlt
  have h0 : rep 0 = ⟨0, 1⟩ := rfl
  cases oc with
  | true =>
    rcases sumFrom_exact c zero_small hg with hs | ⟨hs, _⟩
    · rw [h0, h] at hs; simp at hs
    · have := hs true
      rw [h0, h, zero_add] at this
      simp only [Res.ok.injEq] at this
      subst this
      rw [(ltOne_rep _).mpr hlt] at hr; simp at hr
  | false =>
    obtain ⟨r', h1, h2⟩ := sumFrom_release_le c zero_small (le_refl 0) hg (by rwa [zero_add])
    rw [h0, h] at h1
    simp only [Res.ok.injEq] at h1
    subst h1
    rw [zero_add] at h2
    rw [(ltOne_rep _).mpr (lt_of_le_of_lt h2 hlt)] at hr; simp at hr

theorem checkSums_sound (oc : Bool) : ∀ {cs : List (List Rat)}, (∀ c ∈ cs, Good c) → checkSums oc (reps cs) = .ok () → ∀ c ∈ cs, 1 ≤ c.sum
  | [], _, _, c, hc => by simp at hc
  | d :: cs, hg, h, c, hc => by
    simp only [reps, List.map_cons, checkSums] at h
    obtain ⟨r, hr, h⟩ := Res.bind_eq_ok.mp h
    split at h
    · simp at h
    · rename_i hl
      rcases List.mem_cons.mp hc with rfl | hc
      · exact sumFrom_sound oc (hg c (by simp)) hr (by simpa using hl)
      · exact checkSums_sound oc (fun x hx => hg x (by simp [hx])) h c hc

theorem clausesReach_sound (oc : Bool) {sats : List Bool} {is : List Nat} (h : ∀ i, i < sats.length → (sats[i]? = some true ↔ i ∈ is)) :
    ∀ (cs : List (List Rat)) (o : Nat), (∀ c ∈ cs, Good c) → o + (cs.map List.length).sum ≤ sats.length →
    clausesReach oc sats o (reps cs) = .ok true → Spec.SatisfiedFrom is o cs
  | [], _, _, _, _ => trivial
  | c :: cs, o, hg, hl, hr => by
    simp only [List.map_cons, List.sum_cons] at hl
    have hgh : Good (held sats o c) := fun q hq => hg c (by simp) q (held_sub sats o c q hq)
    have hlen : (c.map rep).length = c.length := by simp
    simp only [reps, List.map_cons, clausesReach, clauseWeight_eq oc sats c _ o (by omega : o + c.length ≤ sats.length), hlen] at hr
    obtain ⟨r, h1, h2⟩ := Res.bind_eq_ok.mp hr
    split at h2
    · simp at h2
    · rename_i hl'
      refine ⟨?_, clausesReach_sound oc h cs (o + c.length) (fun x hx => hg x (by simp [hx])) (by omega) h2⟩
      rw [← held_sum h c o (by omega)]
      exact sumFrom_sound oc hgh h1 (by simpa using hl')

theorem bools_ext {a b : List Bool} (hl : a.length = b.length) (h : ∀ i, i < a.length → (a[i]? = some true ↔ b[i]? = some true)) : a = b := by
  apply List.ext_getElem hl
  intro i h1 h2
  have := h i h1
  rw [List.getElem?_eq_getElem h1, List.getElem?_eq_getElem h2] at this
  simp only [Option.some.injEq] at this
  cases ha : a[i] <;> cases hb : b[i] <;> simp_all

end Tholder
end Cesride
