import Verif.Lemmas.Tholder4
import Mathlib.Data.Finset.Card

/-! # C34, C35, C36, C38: signing thresholds

`E` is the profile a threshold is built in, `E'` the profile it is evaluated in; `F` is the JSON number reader. -/

namespace Cesride
open Tholder

variable {E : Env} {F : Str → Option Str} {a : Option Value} {b : Option (List UInt8)} {c : Option Value} {t : Tholder}

theorem num_number {n : Nat} (hm : IsNumber E t n) : t.num = .ok (some n) := by
  have hf := hm.fits
  have h1 : t.thold.toI64 = .ok (n : Int) := by rw [hm.thold]; rfl
  unfold num
  rw [if_pos hm.weighted, h1, Res.ok_bind, if_pos (by omega), Int.toNat_natCast]

/-! ## C34 -/

/-- C34, exact: an unweighted threshold of `n` is satisfied when `0 < n` and at least `n` indices are given. -/
theorem C34_unweighted_decision (h : Tholder.new E F a b c = .ok t) {n : Nat} (hn : t.num = .ok (some n)) (E' : Env) (is : List Nat) :
    t.satisfy E' is = .ok (decide (0 < n ∧ n ≤ is.length)) := by
  rcases new_shaped h with ⟨m, hm⟩ | ⟨cs, hw⟩
  · have hf := hm.fits
    have : n = m := by
      rw [num_number hm] at hn
      simp at hn; exact hn.symm
    subst this
    obtain ⟨x, hx, _⟩ := hm.number
    simp only [satisfy, hx, Option.isSome_some, if_true, satisfyNumeric, hm.thold, Value.toI64, Res.ok_bind]
    congr 1
    simp only [decide_eq_decide]
    omega
  · simp [num, hw.weighted] at hn

/-- C34 as stated, for index lists without repetitions: decided by the number of distinct indices. -/
theorem C34_distinct_indices (h : Tholder.new E F a b c = .ok t) {n : Nat} (hn : t.num = .ok (some n)) (E' : Env) {is : List Nat}
    (hd : is.Nodup) : t.satisfy E' is = .ok (decide (0 < n ∧ n ≤ is.toFinset.card)) := by
  rw [C34_unweighted_decision h hn, List.toFinset_card_of_nodup hd]

/-- C34, defect: repetitions count. One index repeated `n` times satisfies every threshold `n`, for every index. -/
theorem C34_repetitions_count (h : Tholder.new E F a b c = .ok t) {n : Nat} (hn : t.num = .ok (some n)) (h1 : 1 < n) (E' : Env) (i : Nat) :
    t.satisfy E' (List.replicate n i) = .ok true ∧ (List.replicate n i).toFinset.card < n := by
  refine ⟨by rw [C34_unweighted_decision h hn]; simp; omega, ?_⟩
  have : (List.replicate n i).toFinset.card ≤ ({i} : Finset Nat).card := by
    apply Finset.card_le_card
    intro x hx
    simp only [List.mem_toFinset] at hx
    simp [List.eq_of_mem_replicate hx]
  simp at this
  omega

/-- C34: a number `n` is accepted exactly when `0 ≤ n < 2^32`, from both constructors, and is then the threshold. -/
theorem C34_accepted (E : Env) (F : Str → Option Str) (n : Int) :
    ofSith E F (.int n) = ofThold E F (.int n) ∧
    (0 ≤ n ∧ n < 2 ^ 32 → ∃ t, ofThold E F (.int n) = .ok t ∧ t.num = .ok (some n.toNat)) ∧
    (¬ (0 ≤ n ∧ n < 2 ^ 32) → ∃ e, ofThold E F (.int n) = .err e) := by
  rw [ofThold_eq, ofSith_eq]
  refine ⟨rfl, ?_, ?_⟩
  · rintro ⟨h1, h2⟩
    obtain ⟨k, rfl⟩ := Int.eq_ofNat_of_zero_le h1
    obtain ⟨t, ht, hm⟩ := processUnweighted_build E (n := k) (by omega)
    exact ⟨t, ht, num_number hm⟩
  · intro h
    show ∃ e, processUnweighted E n = .err e
    unfold processUnweighted
    by_cases h0 : n < 0
    · exact ⟨_, if_pos h0⟩
    · rw [if_neg h0]
      exact ⟨_, if_pos (by omega)⟩

example (E : Env) (F : Str → Option Str) : ∃ t, ofThold E F (.int 2) = .ok t ∧ t.num = .ok (some 2) ∧
    t.satisfy E [5, 9] = .ok true ∧ t.satisfy E [5] = .ok false ∧ t.satisfy E [5, 5] = .ok true := by
  obtain ⟨t, h1, h2⟩ := (C34_accepted E F 2).2.1 (by decide)
  refine ⟨t, h1, h2, ?_⟩
  have := fun is => C34_unweighted_decision h1 h2 E is
  simp only [this]
  decide

/-! ## C35 -/

theorem tholder_cases (h : Tholder.new E F a b c = .ok t) {cs : List (List Rat)} (hcs : Spec.ThresholdValue t.thold cs) :
    IsWeighted E t cs := by
  rcases new_shaped h with ⟨n, hm⟩ | ⟨cs', hw⟩
  · obtain ⟨x, hx, _⟩ := hcs
    rw [hm.thold] at hx
    cases hx
  · rw [hw.unique hcs]; exact hw

/-- C35: every threshold that is not a number stands for clauses of rational weights (the value `thold` gives), each weight
in `[0, 1]` and each clause summing to at least one. -/
theorem C35_weights (h : Tholder.new E F a b c = .ok t) (hn : t.num = .ok none) :
    ∃ cs, Spec.ThresholdValue t.thold cs ∧ (∀ c ∈ cs, (∀ w ∈ c, 0 ≤ w ∧ w ≤ 1) ∧ 1 ≤ c.sum) := by
  rcases new_shaped h with ⟨n, hm⟩ | ⟨cs, hw⟩
  · rw [num_number hm] at hn
    simp at hn
  · refine ⟨cs, hw.thold ▸ stored_value hw.good, fun c hc => ⟨fun w hwc => ⟨(hw.good c hc w hwc).2.1, (hw.good c hc w hwc).1⟩, ?_⟩⟩
    exact checkSums_sound _ hw.good hw.sums c hc

/-- C35: the weights are those that were given, as a threshold value … -/
theorem C35_weights_given {v : Value} (h : ofThold E F v = .ok t) {cs : List (List Rat)} (hv : Spec.ThresholdValue v cs) :
    Spec.ThresholdValue t.thold cs := by
  rw [ofThold_eq] at h
  obtain ⟨x, rfl, hx⟩ := hv
  obtain ⟨cs', hw, hu⟩ := processWeighted_ok (v := .arr x) h
  rw [hu cs ⟨x, rfl, hx⟩, hw.thold]
  exact stored_value hw.good

/-- … or as a signing threshold: a list of clauses, or a single clause. -/
theorem C35_weights_given_sith {x : List Value} (h : ofSith E F (.arr x) = .ok t) {cs : List (List Rat)}
    (hv : Spec.ThresholdValue (.arr x) cs ∨ ∃ c, cs = [c] ∧ Spec.ClauseTexts x c) : Spec.ThresholdValue t.thold cs := by
  rw [ofSith_eq] at h
  have harr : processSithArray E (.arr x) = .ok t := h
  unfold processSithArray at harr
  have htv : (Value.arr x).toVec = .ok x := rfl
  rw [htv, Res.ok_bind] at harr
  split at harr
  · simp at harr
  rename_i hne
  have key : ∀ {w : Value} {cs}, processWeighted E w = .ok t → Spec.ThresholdValue w cs → Spec.ThresholdValue t.thold cs := by
    intro w cs hw hv
    obtain ⟨cs', hw, hu⟩ := processWeighted_ok hw
    rw [hu cs hv, hw.thold]
    exact stored_value hw.good
  rcases hv with ⟨y, hy, hv⟩ | ⟨c, rfl, hv⟩
  · cases hy
    have hall : ∀ (x : List Value) (cs), Spec.ClausesTexts x cs → x.all (fun c => c.toVec.isOk) = true := by
      intro x
      induction x with
      | nil => intro _ _; rfl
      | cons v x ih =>
        intro cs hx
        cases cs with
        | nil => cases v <;> exact absurd hx (by simp [Spec.ClausesTexts])
        | cons c cs =>
          cases v <;> simp only [Spec.ClausesTexts] at hx
          rw [List.all_cons, ih cs hx.2]; rfl
    rw [if_pos (hall x cs hv)] at harr
    obtain ⟨_, _, harr⟩ := Res.bind_eq_ok.mp harr
    obtain ⟨_, _, harr⟩ := Res.bind_eq_ok.mp harr
    exact key harr ⟨x, rfl, hv⟩
  · have hall : ¬ x.all (fun c => c.toVec.isOk) = true := by
      cases x with
      | nil => exact absurd rfl hne
      | cons v x =>
        cases c with
        | nil => cases v <;> exact absurd hv (by simp [Spec.ClauseTexts])
        | cons q c =>
          cases v <;> simp only [Spec.ClauseTexts] at hv
          simp [Value.toVec, Res.isOk]
    rw [if_neg hall] at harr
    obtain ⟨_, _, harr⟩ := Res.bind_eq_ok.mp harr
    obtain ⟨_, _, harr⟩ := Res.bind_eq_ok.mp harr
    exact key harr ⟨[.arr x], rfl, hv, trivial⟩

theorem satisfy_exact (hw : IsWeighted E t cs) {E' : Env} (he : E'.overflowChecks = true) {is : List Nat}
    (hin : ∀ i ∈ is, i < Spec.positions cs) :
    t.satisfy E' is = .panic ∨ ∃ b, (∀ E'', t.satisfy E'' is = .ok b) ∧ (b = true ↔ Spec.Satisfied cs is) := by
  obtain ⟨sats, hl, hm, _, _⟩ := satisfy_in hw E' hin
  have hs : ∀ E'', t.satisfy E'' is = (do checkSums E''.overflowChecks (reps cs); clausesReach E''.overflowChecks sats 0 (reps cs)) := by
    intro E''
    obtain ⟨sats', hl', hm', _, h⟩ := satisfy_in hw E'' hin
    have : sats = sats' := bools_ext (by rw [hl, hl']) (fun i hi => by rw [hm i hi, hm' i (by omega)])
    rw [this]; exact h
  have hsum := checkSums_sound _ hw.good hw.sums
  rcases checkSums_exact cs hw.good with hp | hp
  · left; rw [hs, he, hp]; rfl
  · have hp' : ∀ oc, checkSums oc (reps cs) = .ok () := fun oc => by rw [hp oc, if_pos hsum]
    rcases clausesReach_exact hm cs 0 hw.good (by simp only [Spec.positions] at hl; omega) with hc | ⟨b, hb, hb'⟩
    · left; rw [hs, he, hp', Res.ok_bind, hc]
    · exact .inr ⟨b, fun E'' => by rw [hs, hp', Res.ok_bind, hb], hb'⟩

/-- C35. With overflow checks, evaluating a weighted threshold on positions it has either panics (an intermediate
fraction does not fit 32 bits) or decides exactly whether every clause reaches one; the profile without overflow checks
then decides the same. -/
theorem C35_weighted_decision (h : Tholder.new E F a b c = .ok t) {cs : List (List Rat)} (hcs : Spec.ThresholdValue t.thold cs)
    {E' : Env} (he : E'.overflowChecks = true) {is : List Nat} (hin : ∀ i ∈ is, i < Spec.positions cs) :
    t.satisfy E' is = .panic ∨ ∃ b, (∀ E'', t.satisfy E'' is = .ok b) ∧ (b = true ↔ Spec.Satisfied cs is) :=
  satisfy_exact (tholder_cases h hcs) he hin

/-- C35, every profile: a threshold is never approved unless every clause reaches one. -/
theorem C35_never_approves_short (h : Tholder.new E F a b c = .ok t) {cs : List (List Rat)} (hcs : Spec.ThresholdValue t.thold cs)
    (E' : Env) {is : List Nat} (hs : t.satisfy E' is = .ok true) : Spec.Satisfied cs is := by
  have hw := tholder_cases h hcs
  by_cases hin : ∀ i ∈ is, i < Spec.positions cs
  · obtain ⟨sats, hl, hm, _, he⟩ := satisfy_in hw E' hin
    rw [he] at hs
    obtain ⟨_, _, hs⟩ := Res.bind_eq_ok.mp hs
    exact clausesReach_sound _ hm cs 0 hw.good (by simp only [Spec.positions] at hl; omega) hs
  · have : ∃ i ∈ is, Spec.positions cs ≤ i := by
      simp only [not_forall] at hin
      obtain ⟨i, hi, hi'⟩ := hin
      exact ⟨i, hi, by omega⟩
    rw [satisfy_out hw E' this] at hs
    simp at hs

/-- C35, unconditionally exact, in every profile and without panics, when in each clause the number of weights times their
least common denominator stays below `2^31`. -/
theorem C35_exact_when_small (h : Tholder.new E F a b c = .ok t) {cs : List (List Rat)} (hcs : Spec.ThresholdValue t.thold cs)
    (hb : ∀ c ∈ cs, c.length * Spec.commonDenominator c < 2 ^ 31) {is : List Nat} (hin : ∀ i ∈ is, i < Spec.positions cs) :
    ∃ b, (∀ E', t.satisfy E' is = .ok b) ∧ (b = true ↔ Spec.Satisfied cs is) := by
  have hw := tholder_cases h hcs
  let E1 : Env := { E with overflowChecks := true }
  obtain ⟨sats, hl, hm, _, he⟩ := satisfy_in hw E1 hin
  obtain ⟨b, hcr⟩ := clausesReach_bounded (sats := sats) cs 0 hw.good hb (by simp only [Spec.positions] at hl; omega) true
  have hck : checkSums true (reps cs) = .ok () := by
    rw [checkSums_bounded cs hw.good hb, if_pos (checkSums_sound _ hw.good hw.sums)]
  have hs : t.satisfy E1 is = .ok b := by
    rw [he]
    show (do checkSums true (reps cs); clausesReach true sats 0 (reps cs)) = _
    rw [hck, Res.ok_bind, hcr]
  rcases satisfy_exact hw (E' := E1) rfl hin with hp | ⟨b', h1, h2⟩
  · rw [hs] at hp; simp at hp
  · exact ⟨b', h1, h2⟩

/-! ## C36 -/

theorem heldWeight_mono {is js : List Nat} (h : ∀ i ∈ is, i ∈ js) : ∀ (c : List Rat) (o : Nat), (∀ w ∈ c, 0 ≤ w) →
    Spec.heldWeight is o c ≤ Spec.heldWeight js o c
  | [], _, _ => le_refl _
  | w :: c, o, hw => by
    have ih := heldWeight_mono h c (o + 1) (fun x hx => hw x (by simp [hx]))
    have h0 := hw w (by simp)
    simp only [Spec.heldWeight]
    by_cases hi : o ∈ is
    · rw [if_pos hi, if_pos (h o hi)]; linarith
    · rw [if_neg hi]
      split <;> linarith

theorem satisfied_mono {is js : List Nat} (h : ∀ i ∈ is, i ∈ js) : ∀ (cs : List (List Rat)) (o : Nat), (∀ c ∈ cs, ∀ w ∈ c, 0 ≤ w) →
    Spec.SatisfiedFrom is o cs → Spec.SatisfiedFrom js o cs
  | [], _, _, _ => trivial
  | c :: cs, o, hw, hs =>
    ⟨le_trans hs.1 (heldWeight_mono h c o (hw c (by simp))), satisfied_mono h cs _ (fun x hx => hw x (by simp [hx])) hs.2⟩

/-- C36, weighted, with overflow checks: if a set of positions satisfies the threshold, no larger set fails it. -/
theorem C36_monotone_weighted (h : Tholder.new E F a b c = .ok t) {cs : List (List Rat)} (hcs : Spec.ThresholdValue t.thold cs)
    {E' : Env} (he : E'.overflowChecks = true) {is js : List Nat} (hsub : ∀ i ∈ is, i ∈ js) (hs : t.satisfy E' is = .ok true) :
    t.satisfy E' js = .ok true ∨ t.satisfy E' js = .panic := by
  have hw := tholder_cases h hcs
  have hsat := C35_never_approves_short h hcs E' hs
  have hsat' : Spec.Satisfied cs js := satisfied_mono hsub cs 0 (fun c hc w hwc => (hw.good c hc w hwc).2.1) hsat
  by_cases hin : ∀ i ∈ js, i < Spec.positions cs
  · rcases satisfy_exact hw he hin with hp | ⟨b, hb, hb'⟩
    · exact .inr hp
    · left; rw [hb E', hb'.mpr hsat']
  · right
    apply satisfy_out hw
    simp only [not_forall] at hin
    obtain ⟨i, hi, hi'⟩ := hin
    exact ⟨i, hi, by omega⟩

/-- C36, weighted, every profile, for weights whose sums fit: adding positions never un-satisfies. -/
theorem C36_monotone_small (h : Tholder.new E F a b c = .ok t) {cs : List (List Rat)} (hcs : Spec.ThresholdValue t.thold cs)
    (hb : ∀ c ∈ cs, c.length * Spec.commonDenominator c < 2 ^ 31) (E' : Env) {is js : List Nat} (hsub : ∀ i ∈ is, i ∈ js)
    (hin : ∀ i ∈ js, i < Spec.positions cs) (hs : t.satisfy E' is = .ok true) : t.satisfy E' js = .ok true := by
  have hw := tholder_cases h hcs
  have hsat := C35_never_approves_short h hcs E' hs
  have hsat' : Spec.Satisfied cs js := satisfied_mono hsub cs 0 (fun c hc w hwc => (hw.good c hc w hwc).2.1) hsat
  obtain ⟨b, h1, h2⟩ := C35_exact_when_small h hcs hb hin
  rw [h1 E', h2.mpr hsat']

/-- C36, unweighted: a longer list of indices never un-satisfies, and only the length matters. -/
theorem C36_monotone_unweighted (h : Tholder.new E F a b c = .ok t) {n : Nat} (hn : t.num = .ok (some n)) (E' : Env) {is js : List Nat} :
    (is.length ≤ js.length → t.satisfy E' is = .ok true → t.satisfy E' js = .ok true) ∧
    (is.length = js.length → t.satisfy E' is = t.satisfy E' js) := by
  rw [C34_unweighted_decision h hn, C34_unweighted_decision h hn]
  simp only [Res.ok.injEq, decide_eq_true_eq, decide_eq_decide]
  omega

/-- C36: weighted decisions depend only on the set of positions: order and repetition are irrelevant, in every profile. -/
theorem C36_set_of_positions (h : Tholder.new E F a b c = .ok t) (hn : t.num = .ok none) (E' : Env) {is js : List Nat}
    (hsame : ∀ i, i ∈ is ↔ i ∈ js) : t.satisfy E' is = t.satisfy E' js := by
  obtain ⟨cs, hcs, _⟩ := C35_weights h hn
  have hw := tholder_cases h hcs
  by_cases hin : ∀ i ∈ is, i < Spec.positions cs
  · obtain ⟨s1, l1, m1, _, e1⟩ := satisfy_in hw E' hin
    obtain ⟨s2, l2, m2, _, e2⟩ := satisfy_in hw E' (is := js) (fun i hi => hin i ((hsame i).mpr hi))
    have : s1 = s2 := bools_ext (by omega) (fun i hi => by rw [m1 i hi, m2 i (by omega), hsame])
    rw [e1, e2, this]
  · simp only [not_forall] at hin
    obtain ⟨i, hi, hi'⟩ := hin
    rw [satisfy_out hw E' ⟨i, hi, by omega⟩, satisfy_out hw E' ⟨i, (hsame i).mp hi, by omega⟩]

/-- C36: order never matters, for any threshold. -/
theorem C36_order (h : Tholder.new E F a b c = .ok t) (E' : Env) {is js : List Nat} (hp : is.Perm js) : t.satisfy E' is = t.satisfy E' js := by
  rcases new_shaped h with ⟨n, hm⟩ | ⟨cs, hw⟩
  · exact (C36_monotone_unweighted h (num_number hm) E').2 hp.length_eq
  · exact C36_set_of_positions h (by simp [num, hw.weighted]) E' (fun i => hp.mem_iff)

/-- C36: all positions together satisfy every accepted weighted threshold, in the profile it was built in and in the
profile without overflow checks when it was built with them. -/
theorem C36_full_set (h : Tholder.new E F a b c = .ok t) {cs : List (List Rat)} (hcs : Spec.ThresholdValue t.thold cs) (E' : Env)
    (he : E'.overflowChecks = E.overflowChecks ∨ E.overflowChecks = true) {is : List Nat} (hall : ∀ i, i ∈ is ↔ i < Spec.positions cs) :
    t.satisfy E' is = .ok true := by
  have hw := tholder_cases h hcs
  obtain ⟨sats, hl, hm, _, hs⟩ := satisfy_in hw E' (fun i hi => (hall i).mp hi)
  have hck : checkSums E'.overflowChecks (reps cs) = .ok () := by
    have hsums := hw.sums
    rcases he with he | he
    · rw [he]; exact hw.sums
    · rw [he] at hsums
      rcases checkSums_exact cs hw.good with hp | hp
      · rw [hsums] at hp; simp at hp
      · rw [hp, if_pos (checkSums_sound _ hw.good hw.sums)]
  rw [hs, hck, Res.ok_bind]
  exact clausesReach_full (fun i hi => (hm i hi).mpr ((hall i).mpr (by omega))) cs 0 (by simp only [Spec.positions] at hl; omega) hck

end Cesride
