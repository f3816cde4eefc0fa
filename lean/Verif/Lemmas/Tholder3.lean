import Verif.Lemmas.Tholder2
import Verif.Props.Texts
import Verif.Props.Json

/-! # Thresholds: the objects -/

namespace Cesride
namespace Tholder
open R32

/-- What an accepted weighted threshold looks like. -/
structure IsWeighted (E : Env) (t : Tholder) (cs : List (List Rat)) : Prop where
  good : ∀ c ∈ cs, Good c
  sums : checkSums E.overflowChecks (reps cs) = .ok ()
  thold : t.thold = storedValue (reps cs)
  weighted : t.weighted = true
  size : t.size = Spec.positions cs
  number : t.number = none
  bexter : ∃ b, t.bexter = some b ∧ Bexter.new E (some (rationalsToBext (reps cs))) none none none none none = .ok b

/-- What an accepted unweighted threshold looks like. -/
structure IsNumber (E : Env) (t : Tholder) (n : Nat) : Prop where
  fits : n < 2 ^ 32
  thold : t.thold = .int n
  weighted : t.weighted = false
  size : t.size = n
  bexter : t.bexter = none
  number : ∃ m, t.number = some m ∧ Number.ofNum E n = .ok m

theorem reps_inj {cs cs' : List (List Rat)} (h : reps cs = reps cs') : cs = cs' := by
  refine (List.map_injective_iff.mpr ?_) h
  refine List.map_injective_iff.mpr ?_
  intro a b hab
  exact rep_inj hab

theorem size_reps (cs : List (List Rat)) : ((reps cs).map List.length).sum = Spec.positions cs := by
  simp [reps, Spec.positions, Function.comp_def]

theorem valuesToRationals_stored (oc : Bool) {cs : List (List Rat)} (hg : ∀ c ∈ cs, Good c) :
    valuesToRationals oc (storedValue (reps cs)) = (do checkSums oc (reps cs); .ok (reps cs)) := by
  simp only [valuesToRationals, storedValue, Value.toVec, Res.ok_bind, clausesOf_stored oc hg]

theorem valuesToRationals_ok {oc : Bool} {v : Value} {ws : List (List R32)} (h : valuesToRationals oc v = .ok ws) :
    ∃ cs, ws = reps cs ∧ (∀ c ∈ cs, Good c) ∧ checkSums oc (reps cs) = .ok () ∧ (∀ cs', Spec.ThresholdValue v cs' → cs' = cs) := by
  unfold valuesToRationals at h
  obtain ⟨a, ha, h⟩ := Res.bind_eq_ok.mp h
  obtain ⟨ws', hw, h⟩ := Res.bind_eq_ok.mp h
  obtain ⟨u, hu, h⟩ := Res.bind_eq_ok.mp h
  simp only [Res.ok.injEq] at h
  subst h
  obtain ⟨cs, rfl, hg⟩ := clausesOf_ok hw
  refine ⟨cs, rfl, hg, hu, ?_⟩
  rintro cs' ⟨a', rfl, ht⟩
  simp only [Value.toVec, Res.ok.injEq] at ha
  subst ha
  exact (reps_inj (clausesOf_text ht hw)).symm

theorem processWeighted_ok {E : Env} {v : Value} {t : Tholder} (h : processWeighted E v = .ok t) :
    ∃ cs, IsWeighted E t cs ∧ (∀ cs', Spec.ThresholdValue v cs' → cs' = cs) := by
  unfold processWeighted at h
  obtain ⟨ws, hw, h⟩ := Res.bind_eq_ok.mp h
  obtain ⟨b, hb, h⟩ := Res.bind_eq_ok.mp h
  simp only [Res.ok.injEq] at h
  obtain ⟨cs, rfl, hg, hs, hu⟩ := valuesToRationals_ok hw
  subst h
  exact ⟨cs, ⟨hg, hs, rfl, rfl, size_reps cs, rfl, b, rfl, hb⟩, hu⟩

/-- Weighted thresholds are determined by their weights. -/
theorem processWeighted_of {E : Env} {t : Tholder} {cs : List (List Rat)} (hw : IsWeighted E t cs) {v : Value}
    (hv : valuesToRationals E.overflowChecks v = .ok (reps cs)) : processWeighted E v = .ok t := by
  obtain ⟨b, hb1, hb2⟩ := hw.bexter
  unfold processWeighted
  rw [hv, Res.ok_bind, hb2, Res.ok_bind, size_reps]
  obtain ⟨_, _, h3, h4, h5, h6, _⟩ := hw
  cases t
  simp_all

theorem processUnweighted_ok {E : Env} {n : Int} {t : Tholder} (h : processUnweighted E n = .ok t) :
    0 ≤ n ∧ IsNumber E t n.toNat := by
  unfold processUnweighted at h
  split at h
  · simp at h
  · split at h
    · simp at h
    · obtain ⟨m, hm, h⟩ := Res.bind_eq_ok.mp h
      simp only [Res.ok.injEq] at h
      subst h
      refine ⟨by omega, ⟨by omega, ?_, rfl, rfl, rfl, m, rfl, hm⟩⟩
      show Value.int n = .int (n.toNat : Int)
      rw [Int.toNat_of_nonneg (by omega)]

theorem processUnweighted_of {E : Env} {n : Nat} {t : Tholder} (h : IsNumber E t n) : processUnweighted E n = .ok t := by
  obtain ⟨h1, h2, h3, h4, h5, m, h6, h7⟩ := h
  unfold processUnweighted
  rw [if_neg (by omega), if_neg (by omega)]
  have : Number.new E (some (n : Int).toNat) none none none none none none = .ok m := by
    rw [Int.toNat_natCast]; exact h7
  rw [this, Res.ok_bind]
  cases t
  simp_all

theorem processUnweighted_build (E : Env) {n : Nat} (h : n < 2 ^ 32) : ∃ t, processUnweighted E n = .ok t ∧ IsNumber E t n := by
  obtain ⟨x, _, _, _, hx, _⟩ := C28_number_roundtrip E (n := n) (by omega)
  exact ⟨{ thold := .int n, weighted := false, size := n, number := some x, bexter := none },
    processUnweighted_of ⟨h, rfl, rfl, rfl, rfl, x, rfl, hx⟩, ⟨h, rfl, rfl, rfl, rfl, x, rfl, hx⟩⟩

/-- Either shape. -/
def Shaped (E : Env) (t : Tholder) : Prop := (∃ n, IsNumber E t n) ∨ ∃ cs, IsWeighted E t cs

theorem shaped_unweighted {E : Env} {n : Int} {t : Tholder} (h : processUnweighted E n = .ok t) : Shaped E t := .inl ⟨_, (processUnweighted_ok h).2⟩
theorem shaped_weighted {E : Env} {v : Value} {t : Tholder} (h : processWeighted E v = .ok t) : Shaped E t := by
  obtain ⟨cs, h, _⟩ := processWeighted_ok h; exact .inr ⟨cs, h⟩

theorem processThold_shaped {E : Env} {v : Value} {t : Tholder} (h : processThold E v = .ok t) : Shaped E t := by
  unfold processThold at h
  split at h
  · exact shaped_unweighted h
  · exact shaped_weighted h

theorem processLimen_shaped {E : Env} {l : List UInt8} {t : Tholder} (h : processLimen E l = .ok t) : Shaped E t := by
  unfold processLimen at h
  obtain ⟨s, _, h⟩ := Res.bind_eq_ok.mp h
  split at h
  · simp at h
  · obtain ⟨hs, _, h⟩ := Res.bind_eq_ok.mp h
    obtain ⟨code, _, h⟩ := Res.bind_eq_ok.mp h
    split at h
    · obtain ⟨m, _, h⟩ := Res.bind_eq_ok.mp h
      obtain ⟨n, _, h⟩ := Res.bind_eq_ok.mp h
      split at h
      · exact shaped_unweighted h
      · simp at h
    · split at h
      · obtain ⟨m, _, h⟩ := Res.bind_eq_ok.mp h
        obtain ⟨n, _, h⟩ := Res.bind_eq_ok.mp h
        exact shaped_weighted h
      · simp at h

theorem processSithArray_ok {E : Env} {v : Value} {t : Tholder} (h : processSithArray E v = .ok t) :
    ∃ w, (w = v ∨ w = .arr [v]) ∧ processWeighted E w = .ok t := by
  unfold processSithArray at h
  obtain ⟨a, _, h⟩ := Res.bind_eq_ok.mp h
  split at h
  · simp at h
  · obtain ⟨a', _, h⟩ := Res.bind_eq_ok.mp h
    obtain ⟨u, _, h⟩ := Res.bind_eq_ok.mp h
    refine ⟨_, ?_, h⟩
    split
    · exact .inl rfl
    · exact .inr rfl

theorem processSith_shaped {E : Env} {F : Str → Option Str} {v : Value} {t : Tholder} (h : processSith E F v = .ok t) : Shaped E t := by
  have harr : ∀ {w}, processSithArray E w = .ok t → Shaped E t := by
    intro w hw
    obtain ⟨_, _, h⟩ := processSithArray_ok hw
    exact shaped_weighted h
  unfold processSith at h
  split at h
  · exact shaped_unweighted h
  · split at h
    · obtain ⟨_, _, h⟩ := Res.bind_eq_ok.mp h
      exact harr h
    · obtain ⟨_, _, h⟩ := Res.bind_eq_ok.mp h
      exact shaped_unweighted h
  · exact harr h

theorem shaped_some {E : Env} {t : Tholder} (h : Shaped E t) : ¬ (t.number.isNone = true ∧ t.bexter.isNone = true) := by
  rcases h with ⟨n, h⟩ | ⟨cs, h⟩
  · obtain ⟨m, hm, _⟩ := h.number; simp [hm]
  · obtain ⟨m, hm, _⟩ := h.bexter; simp [hm]

/-- Every constructed threshold has one of the two shapes. -/
theorem new_shaped {E : Env} {F : Str → Option Str} {a : Option Value} {b : Option (List UInt8)} {c : Option Value} {t : Tholder}
    (h : new E F a b c = .ok t) : Shaped E t := by
  unfold new at h
  obtain ⟨t1, h1, h⟩ := Res.bind_eq_ok.mp h
  obtain ⟨t2, h2, h⟩ := Res.bind_eq_ok.mp h
  obtain ⟨t3, h3, h⟩ := Res.bind_eq_ok.mp h
  split at h
  · simp at h
  · rename_i hne
    simp only [Res.ok.injEq] at h
    subst h
    have s1 : Shaped E t1 ∨ t1 = default := by
      cases a with
      | none => simp only [Res.ok.injEq] at h1; exact .inr h1.symm
      | some v => exact .inl (processThold_shaped h1)
    have s2 : Shaped E t2 ∨ t2 = default := by
      cases b with
      | none => simp only [Res.ok.injEq] at h2; subst h2; exact s1
      | some l =>
        simp only at h2
        split at h2
        · simp only [Res.ok.injEq] at h2; subst h2; exact s1
        · exact .inl (processLimen_shaped h2)
    have s3 : Shaped E t3 ∨ t3 = default := by
      cases c with
      | none => simp only [Res.ok.injEq] at h3; subst h3; exact s2
      | some v => exact .inl (processSith_shaped h3)
    rcases s3 with s3 | rfl
    · exact s3
    · exact absurd ⟨rfl, rfl⟩ hne

theorem ofThold_eq (E : Env) (F : Str → Option Str) (v : Value) : ofThold E F v = processThold E v := by
  unfold ofThold new
  simp only [Res.ok_bind]
  cases h : processThold E v with
  | ok t => simp only [Res.ok_bind, if_neg (shaped_some (processThold_shaped h))]
  | err e => rfl
  | panic => rfl

theorem ofSith_eq (E : Env) (F : Str → Option Str) (v : Value) : ofSith E F v = processSith E F v := by
  unfold ofSith new
  simp only [Res.ok_bind]
  cases h : processSith E F v with
  | ok t => simp only [Res.ok_bind, if_neg (shaped_some (processSith_shaped h))]
  | err e => rfl
  | panic => rfl

theorem ofLimen_eq (E : Env) (F : Str → Option Str) {l : List UInt8} (hl : l ≠ []) : ofLimen E F l = processLimen E l := by
  unfold ofLimen new
  simp only [Res.ok_bind, if_neg hl]
  cases h : processLimen E l with
  | ok t => simp only [Res.ok_bind, if_neg (shaped_some (processLimen_shaped h))]
  | err e => rfl
  | panic => rfl

theorem ofLimen_empty (E : Env) (F : Str → Option Str) : ofLimen E F [] = .err .emptyMaterial := rfl

/-! ## Evaluation -/

theorem stored_value {cs : List (List Rat)} (hg : ∀ c ∈ cs, Good c) : Spec.ThresholdValue (storedValue (reps cs)) cs := by
  refine ⟨_, rfl, ?_⟩
  have hc : ∀ c : List Rat, Good c → Spec.ClauseTexts ((c.map rep).map fun w => .str (weightText (ch '/') w)) c := by
    intro c
    induction c with
    | nil => intro _; exact trivial
    | cons q c ih =>
      intro h
      have hq := h q (by simp)
      exact ⟨weightText_spec hq.1 hq.2, ih (fun x hx => h x (by simp [hx]))⟩
  induction cs with
  | nil => exact trivial
  | cons c cs ih => exact ⟨hc c (hg c (by simp)), ih (fun x hx => hg x (by simp [hx]))⟩

theorem clauseTexts_unique {oc : Bool} {v : Value} {ws : List (List R32)} (h : valuesToRationals oc v = .ok ws) {cs cs' : List (List Rat)}
    (h1 : Spec.ThresholdValue v cs) (h2 : Spec.ThresholdValue v cs') : cs = cs' := by
  obtain ⟨c, _, _, _, hu⟩ := valuesToRationals_ok h
  rw [hu cs h1, hu cs' h2]

theorem IsWeighted.unique {E : Env} {t : Tholder} {cs cs' : List (List Rat)} (hw : IsWeighted E t cs) (h : Spec.ThresholdValue t.thold cs') : cs' = cs := by
  have hv : valuesToRationals E.overflowChecks (storedValue (reps cs)) = .ok (reps cs) := by
    rw [valuesToRationals_stored _ hw.good, hw.sums]; rfl
  rw [hw.thold] at h
  exact clauseTexts_unique hv h (stored_value hw.good)

theorem satisfy_weighted_eq {E : Env} {t : Tholder} {cs : List (List Rat)} (hw : IsWeighted E t cs) (E' : Env) (is : List Nat) :
    t.satisfy E' is = satisfyWeighted E'.overflowChecks t is := by
  obtain ⟨b, hb, _⟩ := hw.bexter
  simp [satisfy, hw.number, hb]

theorem satisfy_out {E : Env} {t : Tholder} {cs : List (List Rat)} (hw : IsWeighted E t cs) (E' : Env) {is : List Nat}
    (h : ∃ i ∈ is, Spec.positions cs ≤ i) : t.satisfy E' is = .panic := by
  rw [satisfy_weighted_eq hw, satisfyWeighted, hw.size, (mark_indices _ is).2 h]
  rfl

theorem satisfy_in {E : Env} {t : Tholder} {cs : List (List Rat)} (hw : IsWeighted E t cs) (E' : Env) {is : List Nat}
    (h : ∀ i ∈ is, i < Spec.positions cs) : ∃ sats : List Bool, sats.length = Spec.positions cs ∧
      (∀ i, i < sats.length → (sats[i]? = some true ↔ i ∈ is)) ∧
      mark (List.replicate (Spec.positions cs) false) (dedup is.mergeSort) = .ok sats ∧
      t.satisfy E' is = (do checkSums E'.overflowChecks (reps cs); clausesReach E'.overflowChecks sats 0 (reps cs)) := by
  obtain ⟨r, h1, h2, h3⟩ := (mark_indices (Spec.positions cs) is).1 h
  refine ⟨r, h2, h3, h1, ?_⟩
  rw [satisfy_weighted_eq hw, satisfyWeighted, hw.size]
  simp only [h1, Res.ok_bind, hw.thold, valuesToRationals_stored _ hw.good]
  cases checkSums E'.overflowChecks (reps cs) <;> rfl

end Tholder
end Cesride
