import Mathlib.Algebra.Ring.Parity
import Verif.Lemmas.Tholder

/-! # Thresholds: bounds against overflow, and wrapping arithmetic never panics -/

namespace Cesride

theorem i32_release (x : Int) : ∃ y, i32 false x = .ok y ∧ -2 ^ 31 ≤ y ∧ y < 2 ^ 31 := by
  unfold i32
  split
  · rename_i h; exact ⟨x, rfl, h.1, h.2⟩
  · refine ⟨_, rfl, ?_, ?_⟩
    · have := Int.le_bmod (x := x) (m := 2 ^ 32) (by decide); omega
    · have := Int.bmod_lt (x := x) (m := 2 ^ 32) (by decide); omega

namespace R32

/-- Components in range, positive denominator. -/
def Ranged (r : R32) : Prop := -2 ^ 31 ≤ r.numer ∧ r.numer < 2 ^ 31 ∧ 0 < r.denom ∧ r.denom < 2 ^ 31

theorem rep_ranged {q : Rat} (h : Small q) : Ranged (rep q) := by
  have h1 := num_nonneg h.1
  have h2 := h.2.1
  have h3 := h.2.2
  have h4 := q.den_pos
  refine ⟨?_, h2, ?_, h3⟩
  · show -2 ^ 31 ≤ q.num; omega
  · show (0 : Int) < q.den; omega

theorem new_release (oc : Bool) {n d : Int} (h1 : -2 ^ 31 ≤ n) (h2 : n < 2 ^ 31) (h3 : 0 < d) (h4 : d < 2 ^ 31) :
    ∃ r, new oc n d = .ok r ∧ Ranged r := by
  unfold new
  rw [if_neg (by omega)]
  by_cases h0 : n = 0
  · rw [if_pos h0]; exact ⟨_, rfl, by simp [Ranged]⟩
  rw [if_neg h0]
  by_cases he : n = d
  · rw [if_pos he]; exact ⟨_, rfl, by simp [Ranged]⟩
  rw [if_neg he]
  have hgd : ((Int.gcd n d : Nat) : Int) ∣ d := Int.gcd_dvd_right n d
  have hgpos : 0 < Int.gcd n d := Int.gcd_pos_of_ne_zero_left d h0
  have hgne : ((Int.gcd n d : Nat) : Int) ≠ 0 := by omega
  have hgle : ((Int.gcd n d : Nat) : Int) ≤ d := Int.le_of_dvd h3 hgd
  unfold gcd32
  rw [i32_fits (by omega) (by omega)]
  simp only [Res.ok_bind]
  obtain ⟨k, hk⟩ := hgd
  have hkd : d.tdiv (Int.gcd n d : Nat) = k := by
    generalize ((Int.gcd n d : Nat) : Int) = g at *
    rw [hk]
    exact Int.mul_tdiv_cancel_left k hgne
  have hkpos : 0 < k := by
    rcases Int.lt_trichotomy k 0 with h | h | h
    · have : (Int.gcd n d : Int) * k < 0 := Int.mul_neg_of_pos_of_neg (by omega) h
      omega
    · subst h; simp at hk; omega
    · exact h
  have hkle : k ≤ d := by
    rw [hk]
    have : (1 : Int) * k ≤ (Int.gcd n d : Int) * k := Int.mul_le_mul_of_nonneg_right (by omega) (by omega)
    omega
  rw [hkd, if_neg (by omega)]
  have hn : (n.tdiv (Int.gcd n d : Nat)).natAbs ≤ n.natAbs := by
    rw [Int.natAbs_tdiv]; exact Nat.div_le_self _ _
  obtain ⟨j, hj⟩ : ((Int.gcd n d : Nat) : Int) ∣ n := Int.gcd_dvd_left n d
  have hjd : n.tdiv (Int.gcd n d : Nat) = j := by
    generalize ((Int.gcd n d : Nat) : Int) = g at *
    rw [hj]
    exact Int.mul_tdiv_cancel_left j hgne
  refine ⟨_, rfl, ?_, ?_, hkpos, by show k < 2 ^ 31; omega⟩
  · show -2 ^ 31 ≤ n.tdiv (Int.gcd n d : Nat)
    omega
  · show n.tdiv (Int.gcd n d : Nat) < 2 ^ 31
    by_cases hneg : n < 0
    · have : j < 0 := by
        by_contra hc
        have : 0 ≤ (Int.gcd n d : Int) * j := Int.mul_nonneg (by omega) (by omega)
        omega
      omega
    · omega

theorem two_pow_mul_odd : ∀ a : Nat, 0 < a → ∃ i a', a = 2 ^ i * a' ∧ Odd a' := by
  intro a
  induction a using Nat.strongRecOn with
  | _ a ih =>
    intro h
    rcases Nat.even_or_odd a with ⟨k, hk⟩ | ho
    · obtain ⟨i, a', h1, h2⟩ := ih k (by omega) (by omega)
      refine ⟨i + 1, a', ?_, h2⟩
      rw [hk, pow_succ]
      conv_lhs => rw [h1]
      ring
    · exact ⟨0, a, by simp, ho⟩

/-- The least common multiple of two positive `i32` is never divisible by `2^31`. -/
theorem lcm_not_dvd {a b : Nat} (ha : 0 < a) (ha' : a < 2 ^ 31) (hb : 0 < b) (hb' : b < 2 ^ 31) : ¬ (2 ^ 31 ∣ Nat.lcm a b) := by
  have key : ∀ a : Nat, 0 < a → a < 2 ^ 31 → ∃ a', Odd a' ∧ a ∣ 2 ^ 30 * a' := by
    intro a h1 h2
    obtain ⟨i, a', he, ho⟩ := two_pow_mul_odd a h1
    refine ⟨a', ho, ?_⟩
    have hpos : 0 < a' := by rcases ho with ⟨k, rfl⟩; omega
    have hi : i ≤ 30 := by
      by_contra hc
      have : 2 ^ 31 ≤ 2 ^ i := Nat.pow_le_pow_right (by decide) (by omega)
      have : 2 ^ i * 1 ≤ 2 ^ i * a' := Nat.mul_le_mul_left _ hpos
      omega
    rw [he]
    exact Nat.mul_dvd_mul_right (Nat.pow_dvd_pow 2 hi) a'
  obtain ⟨a', hoa, hda⟩ := key a ha ha'
  obtain ⟨b', hob, hdb⟩ := key b hb hb'
  intro h
  have hl : Nat.lcm a b ∣ 2 ^ 30 * (a' * b') := by
    apply Nat.lcm_dvd
    · rw [← Nat.mul_assoc]; exact hda.mul_right b'
    · rw [Nat.mul_comm a' b', ← Nat.mul_assoc]; exact hdb.mul_right a'
  have h2 := h.trans hl
  rw [show (2 : Nat) ^ 31 = 2 ^ 30 * 2 by decide] at h2
  have h3 := Nat.dvd_of_mul_dvd_mul_left (by decide) h2
  have ho : Odd (a' * b') := hoa.mul hob
  rcases ho with ⟨k, hk⟩
  omega

theorem lcm_release {a b : Int} (ha : 0 < a) (ha' : a < 2 ^ 31) (hb : 0 < b) (hb' : b < 2 ^ 31) :
    ∃ l, lcm32 false a b = .ok l ∧ 0 < l ∧ l < 2 ^ 31 := by
  obtain ⟨a, rfl⟩ : ∃ n : Nat, a = n := ⟨a.toNat, by omega⟩
  obtain ⟨b, rfl⟩ : ∃ n : Nat, b = n := ⟨b.toNat, by omega⟩
  have hnd := lcm_not_dvd (a := a) (b := b) (by omega) (by omega) (by omega) (by omega)
  have hg : 0 < Nat.gcd a b := Nat.gcd_pos_of_pos_left b (by omega)
  have hgl : Nat.gcd a b ≤ b := Nat.gcd_le_right a (by omega)
  have hgcd : gcd32 false a b = .ok ((Nat.gcd a b : Nat) : Int) := by
    unfold gcd32
    rw [show ((Int.gcd (a : Int) (b : Int) : Nat) : Int) = ((Nat.gcd a b : Nat) : Int) by simp [Int.gcd]]
    exact i32_fits (by omega) (by omega)
  have hp : ((a : Int) * (b : Int).tdiv (Nat.gcd a b : Nat)) = (Nat.lcm a b : Nat) := by
    rw [← natCast_tdiv, ← Int.natCast_mul, Nat.lcm, Nat.mul_div_assoc a (Nat.gcd_dvd_right a b)]
  unfold lcm32
  rw [if_neg (by omega), hgcd, Res.ok_bind, hp]
  have hy : ∃ y, i32 false ((Nat.lcm a b : Nat) : Int) = .ok y ∧ -2 ^ 31 < y ∧ y < 2 ^ 31 ∧ y ≠ 0 := by
    unfold i32
    split
    · rename_i h
      refine ⟨_, rfl, by omega, h.2, ?_⟩
      have : 0 < Nat.lcm a b := Nat.lcm_pos (by omega) (by omega)
      omega
    · have h1 := Int.le_bmod (x := ((Nat.lcm a b : Nat) : Int)) (m := 2 ^ 32) (by decide)
      have h2 := Int.bmod_lt (x := ((Nat.lcm a b : Nat) : Int)) (m := 2 ^ 32) (by decide)
      have hmod : ((Nat.lcm a b : Nat) : Int) % ((2 ^ 32 : Nat) : Int) = (((Nat.lcm a b : Nat) : Int).bmod (2 ^ 32)) % ((2 ^ 32 : Nat) : Int) :=
        (Int.bmod_emod).symm
      refine ⟨_, rfl, ?_, by omega, ?_⟩
      · have : (((Nat.lcm a b : Nat) : Int).bmod (2 ^ 32)) ≠ -2 ^ 31 := by
          intro he
          apply hnd
          rw [he] at hmod
          omega
        omega
      · intro he
        apply hnd
        rw [he] at hmod
        omega
  obtain ⟨y, h1, h2, h3, h4⟩ := hy
  rw [h1, Res.ok_bind, i32_fits (by omega) (by omega)]
  exact ⟨_, rfl, by omega, by omega⟩

theorem add_release {a b : R32} (ha : Ranged a) (hb : Ranged b) : ∃ r, add false a b = .ok r ∧ Ranged r := by
  unfold add
  split
  · obtain ⟨y, h1, h2, h3⟩ := i32_release (a.numer + b.numer)
    rw [h1, Res.ok_bind]
    exact new_release false h2 h3 ha.2.2.1 ha.2.2.2
  · obtain ⟨l, h1, h2, h3⟩ := lcm_release ha.2.2.1 ha.2.2.2 hb.2.2.1 hb.2.2.2
    obtain ⟨x, hx, _⟩ := i32_release (a.numer * l.tdiv a.denom)
    obtain ⟨y, hy, _⟩ := i32_release (b.numer * l.tdiv b.denom)
    obtain ⟨k, hk, hk1, hk2⟩ := i32_release (x + y)
    rw [h1, Res.ok_bind, hx, Res.ok_bind, hy, Res.ok_bind, hk, Res.ok_bind]
    exact new_release false hk1 hk2 h2 h3

end R32

namespace Tholder
open R32

theorem sumFrom_release : ∀ (ws : List R32) {s : R32}, Ranged s → (∀ w ∈ ws, Ranged w) → ∃ r, sumFrom false s ws = .ok r ∧ Ranged r
  | [], s, hs, _ => ⟨s, rfl, hs⟩
  | w :: ws, s, hs, hw => by
    obtain ⟨r, h1, h2⟩ := add_release hs (hw w (by simp))
    simp only [sumFrom, h1, Res.ok_bind]
    exact sumFrom_release ws h2 (fun x hx => hw x (by simp [hx]))

theorem ranged_zero : Ranged ⟨0, 1⟩ := by simp [Ranged]

theorem ranged_of_good {c : List Rat} (h : Good c) : ∀ w ∈ c.map rep, Ranged w := by
  intro w hw
  obtain ⟨q, hq, rfl⟩ := List.mem_map.mp hw
  exact rep_ranged (h q hq).2

theorem checkSums_release : ∀ (cs : List (List Rat)), (∀ c ∈ cs, Good c) → checkSums false (reps cs) ≠ .panic
  | [], _ => by simp [checkSums, reps]
  | c :: cs, h => by
    obtain ⟨r, h1, _⟩ := sumFrom_release (c.map rep) ranged_zero (ranged_of_good (h c (by simp)))
    have ih := checkSums_release cs (fun x hx => h x (by simp [hx]))
    simp only [reps] at ih
    simp only [reps, List.map_cons, checkSums, h1, Res.ok_bind]
    split
    · simp
    · exact ih

theorem clausesReach_release {sats : List Bool} : ∀ (cs : List (List Rat)) (o : Nat), (∀ c ∈ cs, Good c) →
    o + (cs.map List.length).sum ≤ sats.length → ∃ b, clausesReach false sats o (reps cs) = .ok b
  | [], _, _, _ => ⟨true, rfl⟩
  | c :: cs, o, h, hl => by
    simp only [List.map_cons, List.sum_cons] at hl
    have hgh : Good (held sats o c) := fun q hq => h c (by simp) q (held_sub sats o c q hq)
    obtain ⟨r, h1, _⟩ := sumFrom_release ((held sats o c).map rep) ranged_zero (ranged_of_good hgh)
    obtain ⟨b, ih⟩ := clausesReach_release cs (o + c.length) (fun x hx => h x (by simp [hx])) (by omega : o + c.length + (cs.map List.length).sum ≤ sats.length)
    have hlen : (c.map rep).length = c.length := by simp
    simp only [reps] at ih
    simp only [reps, List.map_cons, clausesReach, clauseWeight_eq false sats c _ o (by omega : o + c.length ≤ sats.length), h1, Res.ok_bind, hlen, ih]
    split
    · exact ⟨_, rfl⟩
    · exact ⟨_, rfl⟩

/-! ## No overflow under a bound -/

theorem sumNum_cast {a b : Rat} (ha : 0 ≤ a) (hb : 0 ≤ b) : ((sumNum a b : Nat) : Rat) = (a + b) * (lcd a b : Nat) := by
  have h := sumNum_eq ha hb
  have hl : 0 < lcd a b := Nat.lcm_pos a.den_pos b.den_pos
  have hl' : ((lcd a b : Nat) : Rat) ≠ 0 := by exact_mod_cast (by omega : lcd a b ≠ 0)
  rw [Rat.mkRat_eq_div] at h
  rw [← h]
  push_cast
  field_simp

theorem den_sum_dvd {a b : Rat} (ha : 0 ≤ a) (hb : 0 ≤ b) : (a + b).den ∣ lcd a b := by
  have h := sumNum_eq ha hb
  have hl : 0 < lcd a b := Nat.lcm_pos a.den_pos b.den_pos
  rw [← h, Rat.den_mkRat, if_neg (by omega)]
  exact Nat.div_dvd_of_dvd (Nat.gcd_dvd_left _ _)

theorem sumFrom_bounded {D : Nat} (hD : 0 < D) : ∀ (c : List Rat) {s : Rat} {k : Nat}, Small s → Good c → s.den ∣ D → (∀ q ∈ c, q.den ∣ D) →
    s ≤ k → (k + c.length) * D < 2 ^ 31 → ∀ oc, sumFrom oc (rep s) (c.map rep) = .ok (rep (s + c.sum))
  | [], s, k, _, _, _, _, _, _, oc => by simp [sumFrom]
  | q :: c, s, k, hs, hg, hsD, hqD, hk, hb, oc => by
    have hq := hg q (by simp)
    have hlD : lcd s q ∣ D := Nat.lcm_dvd hsD (hqD q (by simp))
    have hlle : lcd s q ≤ D := Nat.le_of_dvd hD hlD
    simp only [List.length_cons] at hb
    have hD1 : 1 * D ≤ (k + (c.length + 1)) * D := Nat.mul_le_mul_right D (by omega)
    have hD2 : (k + 1) * D ≤ (k + (c.length + 1)) * D := Nat.mul_le_mul_right D (by omega)
    have hS : sumNum s q ≤ (k + 1) * D := by
      have h1 := sumNum_cast hs.1 hq.2.1
      have h2 : s + q ≤ (k : Rat) + 1 := by have := hq.1; linarith
      have h3 : ((lcd s q : Nat) : Rat) ≤ (D : Rat) := by exact_mod_cast hlle
      have h4 : (0 : Rat) ≤ ((lcd s q : Nat) : Rat) := by positivity
      have h5 : (0 : Rat) ≤ (k : Rat) + 1 := by positivity
      have h6 : ((sumNum s q : Nat) : Rat) ≤ ((k : Rat) + 1) * (D : Rat) := by
        rw [h1]
        calc (s + q) * ((lcd s q : Nat) : Rat) ≤ ((k : Rat) + 1) * ((lcd s q : Nat) : Rat) := mul_le_mul_of_nonneg_right h2 h4
          _ ≤ ((k : Rat) + 1) * (D : Rat) := mul_le_mul_of_nonneg_left h3 h5
      exact_mod_cast h6
    have hf : lcd s q < 2 ^ 31 ∧ sumNum s q < 2 ^ 31 := by omega
    have hadd := (add_rep hs hq.2).1 hf oc
    have hsm := add_small hs hq.2 hf
    have ih := sumFrom_bounded hD c (s := s + q) (k := k + 1) hsm (fun x hx => hg x (by simp [hx])) ((den_sum_dvd hs.1 hq.2.1).trans hlD)
      (fun x hx => hqD x (by simp [hx])) (by push_cast; have := hq.1; linarith) (by rw [show k + 1 + c.length = k + (c.length + 1) by omega]; exact hb) oc
    simp only [List.map_cons, sumFrom, hadd, Res.ok_bind, ih, List.sum_cons, add_assoc]

theorem commonDenominator_pos : ∀ c : List Rat, 0 < Spec.commonDenominator c
  | [] => by simp [Spec.commonDenominator]
  | q :: c => Nat.lcm_pos q.den_pos (commonDenominator_pos c)

theorem commonDenominator_dvd : ∀ (c : List Rat), ∀ q ∈ c, q.den ∣ Spec.commonDenominator c
  | [], q, h => by simp at h
  | p :: c, q, h => by
    simp only [Spec.commonDenominator]
    rcases List.mem_cons.mp h with rfl | h
    · exact Nat.dvd_lcm_left _ _
    · exact (commonDenominator_dvd c q h).trans (Nat.dvd_lcm_right _ _)

theorem held_length (sats : List Bool) : ∀ (o : Nat) (c : List Rat), (held sats o c).length ≤ c.length
  | _, [] => by simp [held]
  | o, w :: ws => by
    have := held_length sats (o + 1) ws
    simp only [held]
    split <;> simp <;> omega

/-- The condition that excludes overflow. -/
def Bounded (cs : List (List Rat)) : Prop := ∀ c ∈ cs, c.length * Spec.commonDenominator c < 2 ^ 31

theorem sum_bounded {c d : List Rat} (hg : Good c) (hsub : ∀ q ∈ d, q ∈ c) (hlen : d.length ≤ c.length)
    (h : c.length * Spec.commonDenominator c < 2 ^ 31) (oc : Bool) : sumFrom oc ⟨0, 1⟩ (d.map rep) = .ok (rep d.sum) := by
  have hD := commonDenominator_pos c
  have hle := Nat.mul_le_mul_right (Spec.commonDenominator c) hlen
  have := sumFrom_bounded hD d (s := 0) (k := 0) zero_small (fun q hq => hg q (hsub q hq)) (by simp)
    (fun q hq => commonDenominator_dvd c q (hsub q hq)) (by simp) (by rw [Nat.zero_add]; omega) oc
  rw [zero_add] at this
  exact this

theorem checkSums_bounded : ∀ (cs : List (List Rat)), (∀ c ∈ cs, Good c) → Bounded cs → ∀ oc,
    checkSums oc (reps cs) = if ∀ c ∈ cs, 1 ≤ c.sum then .ok () else .err .value
  | [], _, _, oc => by simp [checkSums, reps]
  | c :: cs, hg, hb, oc => by
    have hs := sum_bounded (hg c (by simp)) (d := c) (fun _ h => h) (Nat.le_refl _) (hb c (by simp)) oc
    have ih := checkSums_bounded cs (fun x hx => hg x (by simp [hx])) (fun x hx => hb x (by simp [hx])) oc
    simp only [reps] at ih
    simp only [reps, List.map_cons, checkSums, hs, Res.ok_bind]
    by_cases hlt : c.sum < 1
    · rw [if_pos ((ltOne_rep _).mpr hlt), if_neg]
      intro hall
      exact absurd (hall c (by simp)) (not_le.mpr hlt)
    · rw [if_neg (fun h => hlt ((ltOne_rep _).mp h)), ih]
      simp only [List.forall_mem_cons, not_lt.mp hlt, true_and]

theorem clausesReach_bounded {sats : List Bool} : ∀ (cs : List (List Rat)) (o : Nat), (∀ c ∈ cs, Good c) → Bounded cs →
    o + (cs.map List.length).sum ≤ sats.length → ∀ oc, ∃ b, clausesReach oc sats o (reps cs) = .ok b
  | [], _, _, _, _, _ => ⟨true, rfl⟩
  | c :: cs, o, hg, hb, hl, oc => by
    simp only [List.map_cons, List.sum_cons] at hl
    have hs := sum_bounded (hg c (by simp)) (d := held sats o c) (held_sub sats o c) (held_length sats o c) (hb c (by simp)) oc
    obtain ⟨b, ih⟩ := clausesReach_bounded cs (o + c.length) (fun x hx => hg x (by simp [hx])) (fun x hx => hb x (by simp [hx])) (by omega : o + c.length + (cs.map List.length).sum ≤ sats.length) oc
    have hlen : (c.map rep).length = c.length := by simp
    simp only [reps] at ih
    simp only [reps, List.map_cons, clausesReach, clauseWeight_eq oc sats c _ o (by omega : o + c.length ≤ sats.length), hs, Res.ok_bind, hlen, ih]
    split
    · exact ⟨_, rfl⟩
    · exact ⟨_, rfl⟩

/-! ## The full set of positions -/

theorem held_full {sats : List Bool} : ∀ (c : List Rat) (o : Nat), (∀ i, o ≤ i → i < o + c.length → sats[i]? = some true) → held sats o c = c
  | [], _, _ => rfl
  | w :: c, o, h => by
    simp only [List.length_cons] at h
    simp only [held, h o (Nat.le_refl _) (by omega), if_true]
    rw [held_full c (o + 1) (fun i h1 h2 => h i (by omega) (by omega))]

theorem clausesReach_full {oc : Bool} {sats : List Bool} (hall : ∀ i, i < sats.length → sats[i]? = some true) :
    ∀ (cs : List (List Rat)) (o : Nat), o + (cs.map List.length).sum ≤ sats.length →
    checkSums oc (reps cs) = .ok () → clausesReach oc sats o (reps cs) = .ok true
  | [], _, _, _ => rfl
  | c :: cs, o, hl, hc => by
    simp only [List.map_cons, List.sum_cons] at hl
    simp only [reps, List.map_cons, checkSums] at hc
    obtain ⟨s, hs, hc⟩ := Res.bind_eq_ok.mp hc
    split at hc
    · simp at hc
    · rename_i hne
      have ih := clausesReach_full (oc := oc) hall cs (o + c.length) (by omega) hc
      have hlen : (c.map rep).length = c.length := by simp
      simp only [reps] at ih
      simp only [reps, List.map_cons, clausesReach, clauseWeight_eq oc sats c _ o (by omega), held_full c o (fun i _ h => hall i (by omega)),
        hs, Res.ok_bind, if_neg hne, hlen, ih]

end Tholder
end Cesride
