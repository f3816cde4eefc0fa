import Verif.Lemmas.Rational
import Verif.Lemmas.Split
import Verif.Lemmas.Json
import Verif.Spec.Threshold

/-! # Thresholds: weights, sums, positions -/

namespace Cesride
namespace Tholder
open R32

/-! ## Weight texts -/

theorem decNumeral_natDec (n : Nat) : Spec.DecNumeral (natDec n) n :=
  ⟨Json.natDec_ne_nil n, fun c hc => Json.natDec_digits n c hc, Json.natDec_val n⟩

theorem digit_not {c : UInt8} (h : ch '0' ≤ c ∧ c ≤ ch '9') : c ≠ ch '+' ∧ c ≠ ch '-' ∧ c ≠ ch '/' ∧ c ≠ ch 's' ∧ c ≠ ch 'c' ∧ c ≠ ch 'a' ∧ c ≠ ch 'A' := by
  revert h
  exact byte_forall (P := fun c => (ch '0' ≤ c ∧ c ≤ ch '9') → c ≠ ch '+' ∧ c ≠ ch '-' ∧ c ≠ ch '/' ∧ c ≠ ch 's' ∧ c ≠ ch 'c' ∧ c ≠ ch 'a' ∧ c ≠ ch 'A')
    (by decide +kernel) c

theorem parseI32_pos {s : Str} {n : Nat} (h : Spec.DecNumeral s n) :
    parseI32.pos s = if n < 2 ^ 31 then .ok (n : Int) else .err .parseInt := by
  obtain ⟨h1, h2, h3⟩ := h
  unfold parseI32.pos
  rw [if_neg h1]
  by_cases hn : n < 2 ^ 31
  · rw [(decLoop_zero _ s n).mpr ⟨h2, h3, by omega⟩, if_pos hn]
  · rw [if_neg hn]
    cases hd : decLoop (2 ^ 31 - 1) 0 s with
    | none => rfl
    | some m =>
      obtain ⟨_, h4, h5⟩ := (decLoop_zero _ s m).mp hd
      omega

theorem parseI32_dec {s : Str} {n : Nat} (h : Spec.DecNumeral s n) :
    parseI32 s = if n < 2 ^ 31 then .ok (n : Int) else .err .parseInt := by
  cases s with
  | nil => exact absurd rfl h.1
  | cons c r =>
    obtain ⟨h1, h2, _⟩ := digit_not (h.2.1 c (by simp))
    rw [parseI32, if_neg h1, if_neg h2]
    exact parseI32_pos h

theorem parseI32_range {s : Str} {n : Int} (h : parseI32 s = .ok n) : -2 ^ 31 ≤ n ∧ n < 2 ^ 31 := by
  have hpos : ∀ s n, parseI32.pos s = .ok n → -2 ^ 31 ≤ n ∧ n < 2 ^ 31 := by
    intro s n h
    unfold parseI32.pos at h
    split at h
    · simp at h
    · split at h
      · rename_i m hm
        have := ((decLoop_zero _ s m).mp hm).2.2
        simp only [Res.ok.injEq] at h
        omega
      · simp at h
  cases s with
  | nil => simp [parseI32] at h
  | cons c r =>
    simp only [parseI32] at h
    split at h
    · exact hpos _ _ h
    · split at h
      · split at h
        · simp at h
        · split at h
          · rename_i m hm
            have := ((decLoop_zero _ r m).mp hm).2.2
            simp only [Res.ok.injEq] at h
            omega
          · simp at h
      · exact hpos _ _ h

theorem frac_small {n d : Nat} (hd : d < 2 ^ 31) (hd0 : d ≠ 0) (hn : n ≤ d) :
    0 ≤ mkRat n d ∧ mkRat n d ≤ 1 ∧ Small (mkRat n d) := by
  have hnum : (mkRat (n : Int) d).num = n / (d.gcd n : Nat) := by rw [Rat.num_mkRat, if_neg hd0]; simp
  have hden : (mkRat (n : Int) d).den = d / d.gcd n := by rw [Rat.den_mkRat, if_neg hd0]; simp
  have hpos : (0 : Rat) < (d : Rat) := by exact_mod_cast Nat.pos_of_ne_zero hd0
  have h0 : 0 ≤ mkRat (n : Int) d := by
    rw [Rat.mkRat_eq_div]
    push_cast
    positivity
  refine ⟨h0, ?_, h0, ?_, ?_⟩
  · rw [Rat.mkRat_eq_div]
    push_cast
    rw [div_le_one hpos]
    exact_mod_cast hn
  · rw [hnum, ← Int.natCast_ediv]
    have := Nat.div_le_self n (d.gcd n)
    omega
  · rw [hden]
    have := Nat.div_le_self d (d.gcd n)
    omega

theorem zero_small : Small 0 := by refine ⟨le_refl _, ?_, ?_⟩ <;> decide
theorem one_small : Small 1 := by refine ⟨by norm_num, ?_, ?_⟩ <;> decide

/-- The fraction part of `weight`. -/
theorem weight_frac (oc : Bool) {n d : Int} (hn : -2 ^ 31 ≤ n ∧ n < 2 ^ 31) (hd : -2 ^ 31 ≤ d ∧ d < 2 ^ 31) :
    (if n < 0 ∨ d < 0 then .err .value else if d < n then .err .value else R32.new oc n d : Res R32) =
    if n < 0 ∨ d < 0 ∨ d < n then .err .value else if d = 0 then .panic else .ok (rep (mkRat n d.toNat)) := by
  by_cases h1 : n < 0 ∨ d < 0
  · rw [if_pos h1, if_pos (by omega)]
  rw [if_neg h1]
  by_cases h2 : d < n
  · rw [if_pos h2, if_pos (by omega)]
  rw [if_neg h2, if_neg (by omega)]
  by_cases h3 : d = 0
  · rw [if_pos h3, R32.new, if_pos h3]
  rw [if_neg h3]
  obtain ⟨n', rfl⟩ : ∃ n' : Nat, n = n' := ⟨n.toNat, by omega⟩
  obtain ⟨d', rfl⟩ : ∃ d' : Nat, d = d' := ⟨d.toNat, by omega⟩
  rw [new_rep oc (by omega) (by omega) (by omega)]
  simp

theorem weight_oc (oc oc' : Bool) (s : Str) : weight oc s = weight oc' s := by
  unfold weight
  split
  · cases h1 : parseI32 _ with
    | ok n =>
      simp only [Res.ok_bind]
      cases h2 : parseI32 _ with
      | ok d =>
        simp only [Res.ok_bind]
        rw [weight_frac oc (parseI32_range h1) (parseI32_range h2), weight_frac oc' (parseI32_range h1) (parseI32_range h2)]
      | err e => simp only [Res.err_bind]
      | panic => simp only [Res.panic_bind]
    | err e => simp only [Res.err_bind]
    | panic => simp only [Res.panic_bind]
  · rfl
  · rfl

/-- Every accepted weight is a reduced fraction between 0 and 1. -/
theorem weight_ok {oc : Bool} {s : Str} {w : R32} (h : weight oc s = .ok w) : ∃ q : Rat, w = rep q ∧ q ≤ 1 ∧ Small q := by
  unfold weight at h
  split at h
  · obtain ⟨n, hn, h⟩ := Res.bind_eq_ok.mp h
    obtain ⟨d, hd, h⟩ := Res.bind_eq_ok.mp h
    have hrn := parseI32_range hn
    have hrd := parseI32_range hd
    rw [weight_frac oc hrn hrd] at h
    split at h
    · simp at h
    · split at h
      · simp at h
      · rename_i h1 h2
        simp only [Res.ok.injEq] at h
        obtain ⟨n', rfl⟩ : ∃ n' : Nat, n = n' := ⟨n.toNat, by omega⟩
        obtain ⟨d', rfl⟩ : ∃ d' : Nat, d = d' := ⟨d.toNat, by omega⟩
        have := frac_small (n := n') (d := d') (by omega) (by omega) (by omega)
        exact ⟨_, h.symm, by simpa using this.2.1, by simpa using this.2.2⟩
  · split at h
    · simp only [Res.ok.injEq] at h; exact ⟨0, h.symm, by norm_num, zero_small⟩
    · split at h
      · simp only [Res.ok.injEq] at h; exact ⟨1, h.symm, by norm_num, one_small⟩
      · simp at h
  · simp at h

theorem slash_not_digits {s : Str} (h : Spec.IsDigits s) : ch '/' ∉ s := fun hc => (digit_not (h _ hc)).2.2.1 rfl

/-- A weight text is read as the weight it stands for, or refused when a numeral does not fit `i32`. -/
theorem weight_text (oc : Bool) {s : Str} {q : Rat} (h : Spec.WeightText s q) : weight oc s = .ok (rep q) ∨ weight oc s = .err .parseInt := by
  cases h with
  | zero => left; rfl
  | one => left; rfl
  | @frac p q n d hp hq hd hn =>
    have hsplit : splitOn (ch '/') (p ++ ch '/' :: q) = [p, q] := by
      rw [splitOn_cons_sep _ _ _ (slash_not_digits hp.2.1), splitOn_self _ _ (slash_not_digits hq.2.1)]
    unfold weight
    rw [hsplit]
    dsimp only
    rw [parseI32_dec hp, parseI32_dec hq]
    by_cases h2 : d < 2 ^ 31
    · left
      rw [if_pos (by omega : n < 2 ^ 31), if_pos h2]
      simp only [Res.ok_bind]
      rw [weight_frac oc (by omega) (by omega), if_neg (by omega), if_neg (by omega)]
      rw [Rat.mkRat_eq_div]
      simp
    · right
      rw [if_neg h2]
      by_cases h1 : n < 2 ^ 31
      · rw [if_pos h1]; rfl
      · rw [if_neg h1]; rfl

/-- Exactly: it is accepted when its denominator fits. -/
theorem weight_text_fits (oc : Bool) {p q : Str} {n d : Nat} (hp : Spec.DecNumeral p n) (hq : Spec.DecNumeral q d) (hd : 0 < d) (hn : n ≤ d)
    (h2 : d < 2 ^ 31) : weight oc (p ++ ch '/' :: q) = .ok (rep ((n : Rat) / (d : Rat))) := by
  have hsplit : splitOn (ch '/') (p ++ ch '/' :: q) = [p, q] := by
    rw [splitOn_cons_sep _ _ _ (slash_not_digits hp.2.1), splitOn_self _ _ (slash_not_digits hq.2.1)]
  unfold weight
  rw [hsplit]
  dsimp only
  rw [parseI32_dec hp, parseI32_dec hq, if_pos (by omega : n < 2 ^ 31), if_pos h2]
  simp only [Res.ok_bind]
  rw [weight_frac oc (by omega) (by omega), if_neg (by omega), if_neg (by omega)]
  rw [Rat.mkRat_eq_div]
  simp

theorem num_le_den {q : Rat} (h : q ≤ 1) : q.num ≤ q.den := by
  have := (Rat.le_iff q 1).mp h
  simpa using this

/-- The stored text of a weight is a weight text, read as that weight. -/
theorem weightText_spec {q : Rat} (h1 : q ≤ 1) (hs : Small q) : Spec.WeightText (weightText (ch '/') (rep q)) q := by
  obtain ⟨n, hn⟩ : ∃ n : Nat, q.num = n := ⟨q.num.toNat, (Int.toNat_of_nonneg (num_nonneg hs.1)).symm⟩
  have hle := num_le_den h1
  unfold weightText
  by_cases hd : (rep q).denom = 1
  · rw [if_pos hd]
    have hd' : q.den = 1 := by have : ((q.den : Nat) : Int) = 1 := hd; omega
    have hq : q = (n : Rat) := by
      have := Rat.num_div_den q
      rw [hd', hn] at this
      simpa using this.symm
    have hn1 : n = 0 ∨ n = 1 := by omega
    rcases hn1 with rfl | rfl
    · have : q = 0 := by rw [hq]; simp
      subst this; rw [show intDec (rep 0).numer = lit "0" by decide +kernel]; exact .zero
    · have : q = 1 := by rw [hq]; simp
      subst this; rw [show intDec (rep 1).numer = lit "1" by decide +kernel]; exact .one
  · rw [if_neg hd]
    have e1 : intDec (rep q).numer = natDec n := by show intDec q.num = _; rw [hn]; rfl
    have e2 : intDec (rep q).denom = natDec q.den := rfl
    have hp := q.den_pos
    have := Spec.WeightText.frac (decNumeral_natDec n) (decNumeral_natDec q.den) hp (by omega)
    rw [e1, e2]
    have hv : ((n : Rat) / (q.den : Rat)) = q := by
      have := Rat.num_div_den q
      rw [hn] at this
      simpa using this
    rwa [hv] at this

theorem weight_weightText (oc : Bool) {q : Rat} (h1 : q ≤ 1) (hs : Small q) : weight oc (weightText (ch '/') (rep q)) = .ok (rep q) := by
  obtain ⟨n, hn⟩ : ∃ n : Nat, q.num = n := ⟨q.num.toNat, (Int.toNat_of_nonneg (num_nonneg hs.1)).symm⟩
  have hle := num_le_den h1
  by_cases hd : (rep q).denom = 1
  · have := weightText_spec h1 hs
    rcases weight_text oc this with h | h
    · exact h
    · exfalso
      have hd' : q.den = 1 := by have : ((q.den : Nat) : Int) = 1 := hd; omega
      unfold weightText at h
      rw [if_pos hd] at h
      have e1 : intDec (rep q).numer = natDec n := by show intDec q.num = _; rw [hn]; rfl
      rw [e1] at h
      have hn1 : n = 0 ∨ n = 1 := by omega
      rcases hn1 with rfl | rfl
      · rw [Json.natDec_lt (by omega)] at h; revert h; cases oc <;> decide
      · rw [Json.natDec_lt (by omega)] at h; revert h; cases oc <;> decide
  · unfold weightText
    rw [if_neg hd]
    have e1 : intDec (rep q).numer = natDec n := by show intDec q.num = _; rw [hn]; rfl
    have e2 : intDec (rep q).denom = natDec q.den := rfl
    have hp := q.den_pos
    have h2 := hs.2.2
    rw [e1, e2, weight_text_fits oc (decNumeral_natDec n) (decNumeral_natDec q.den) hp (by omega) (by omega)]
    have hv : ((n : Rat) / (q.den : Rat)) = q := by
      have := Rat.num_div_den q
      rw [hn] at this
      simpa using this
    rw [hv]

/-! ## Clauses -/

/-- Weights accepted by the code. -/
def Good (c : List Rat) : Prop := ∀ q ∈ c, q ≤ 1 ∧ Small q

/-- The clauses as computed with. -/
def reps (cs : List (List Rat)) : List (List R32) := cs.map (List.map rep)

theorem weights_ok {oc : Bool} : ∀ {vs : List Value} {ws : List R32}, weights oc vs = .ok ws → ∃ c, ws = c.map rep ∧ Good c := by
  intro vs
  induction vs with
  | nil => intro ws h; simp only [weights, Res.ok.injEq] at h; exact ⟨[], by simp [← h], by simp [Good]⟩
  | cons v vs ih =>
    intro ws h
    simp only [weights] at h
    obtain ⟨s, _, h⟩ := Res.bind_eq_ok.mp h
    obtain ⟨w, hw, h⟩ := Res.bind_eq_ok.mp h
    obtain ⟨ws', hws, h⟩ := Res.bind_eq_ok.mp h
    simp only [Res.ok.injEq] at h
    obtain ⟨q, hq, hg⟩ := weight_ok hw
    obtain ⟨c, hc, hgc⟩ := ih hws
    refine ⟨q :: c, by rw [← h, hq, hc]; rfl, ?_⟩
    intro x hx
    rcases List.mem_cons.mp hx with rfl | hx
    · exact hg
    · exact hgc x hx

theorem clausesOf_ok {oc : Bool} : ∀ {vs : List Value} {cs : List (List R32)}, clausesOf oc vs = .ok cs → ∃ cs', cs = reps cs' ∧ ∀ c ∈ cs', Good c := by
  intro vs
  induction vs with
  | nil => intro cs h; simp only [clausesOf, Res.ok.injEq] at h; exact ⟨[], by simp [← h, reps], by simp⟩
  | cons v vs ih =>
    intro cs h
    simp only [clausesOf] at h
    obtain ⟨a, _, h⟩ := Res.bind_eq_ok.mp h
    obtain ⟨w, hw, h⟩ := Res.bind_eq_ok.mp h
    obtain ⟨ws', hws, h⟩ := Res.bind_eq_ok.mp h
    simp only [Res.ok.injEq] at h
    obtain ⟨q, hq, hg⟩ := weights_ok hw
    obtain ⟨c, hc, hgc⟩ := ih hws
    refine ⟨q :: c, by rw [← h, hq, hc]; rfl, ?_⟩
    intro x hx
    rcases List.mem_cons.mp hx with rfl | hx
    · exact hg
    · exact hgc x hx

theorem weights_oc (oc oc' : Bool) (vs : List Value) : weights oc vs = weights oc' vs := by
  induction vs with
  | nil => rfl
  | cons v vs ih => simp only [weights, ih, weight_oc oc oc']

theorem clausesOf_oc (oc oc' : Bool) (vs : List Value) : clausesOf oc vs = clausesOf oc' vs := by
  induction vs with
  | nil => rfl
  | cons v vs ih => simp only [clausesOf, ih, weights_oc oc oc']

theorem weights_stored (oc : Bool) {c : List Rat} (h : Good c) : weights oc ((c.map rep).map fun w => .str (weightText (ch '/') w)) = .ok (c.map rep) := by
  induction c with
  | nil => rfl
  | cons q c ih =>
    have hq := h q (by simp)
    simp only [List.map_cons, weights, Value.toStr, Res.ok_bind]
    rw [weight_weightText oc hq.1 hq.2, Res.ok_bind, ih (fun x hx => h x (by simp [hx]))]
    rfl

theorem clausesOf_stored (oc : Bool) {cs : List (List Rat)} (h : ∀ c ∈ cs, Good c) :
    clausesOf oc ((reps cs).map fun c => .arr (c.map fun w => .str (weightText (ch '/') w))) = .ok (reps cs) := by
  induction cs with
  | nil => rfl
  | cons c cs ih =>
    have hc := h c (by simp)
    simp only [reps, List.map_cons, clausesOf, Value.toVec, Res.ok_bind]
    rw [weights_stored oc hc, Res.ok_bind]
    have := ih (fun x hx => h x (by simp [hx]))
    simp only [reps] at this
    rw [this]
    rfl

/-- Weight texts are read as the weights they stand for. -/
theorem weights_text {oc : Bool} : ∀ {vs : List Value} {c : List Rat} {ws : List R32}, Spec.ClauseTexts vs c → weights oc vs = .ok ws → ws = c.map rep
  | [], [], ws, _, h => by simp only [weights, Res.ok.injEq] at h; simp [← h]
  | .str s :: vs, q :: c, ws, hv, h => by
    simp only [Spec.ClauseTexts] at hv
    simp only [weights, Value.toStr, Res.ok_bind] at h
    obtain ⟨w, hw, h⟩ := Res.bind_eq_ok.mp h
    obtain ⟨ws', hws, h⟩ := Res.bind_eq_ok.mp h
    simp only [Res.ok.injEq] at h
    have := weights_text hv.2 hws
    rcases weight_text oc hv.1 with h1 | h1
    · rw [h1] at hw; simp only [Res.ok.injEq] at hw; rw [← h, ← hw, this]; rfl
    · rw [h1] at hw; simp at hw

theorem clausesOf_text {oc : Bool} : ∀ {vs : List Value} {cs : List (List Rat)} {ws : List (List R32)}, Spec.ClausesTexts vs cs → clausesOf oc vs = .ok ws → ws = reps cs
  | [], [], ws, _, h => by simp only [clausesOf, Res.ok.injEq] at h; simp [← h, reps]
  | .arr a :: vs, c :: cs, ws, hv, h => by
    simp only [Spec.ClausesTexts] at hv
    simp only [clausesOf, Value.toVec, Res.ok_bind] at h
    obtain ⟨w, hw, h⟩ := Res.bind_eq_ok.mp h
    obtain ⟨ws', hws, h⟩ := Res.bind_eq_ok.mp h
    simp only [Res.ok.injEq] at h
    rw [← h, weights_text hv.1 hw, clausesOf_text hv.2 hws]
    rfl

/-! ## Sums -/

/-- With overflow checks the sum is exact or panics; when it does not panic it is the same in every profile. -/
theorem sumFrom_exact : ∀ (c : List Rat) {s : Rat}, Small s → Good c →
    sumFrom true (rep s) (c.map rep) = .panic ∨ ((∀ oc, sumFrom oc (rep s) (c.map rep) = .ok (rep (s + c.sum))) ∧ Small (s + c.sum))
  | [], s, hs, _ => by right; simp [sumFrom, hs]
  | q :: c, s, hs, hg => by
    have hq := hg q (by simp)
    have hadd := add_rep hs hq.2
    by_cases hf : lcd s q < 2 ^ 31 ∧ sumNum s q < 2 ^ 31
    · have hsm := add_small hs hq.2 hf
      have ih := sumFrom_exact c hsm (fun x hx => hg x (by simp [hx]))
      simp only [List.map_cons, sumFrom, hadd.1 hf, Res.ok_bind, List.sum_cons]
      rw [← add_assoc]
      exact ih
    · left
      simp only [List.map_cons, sumFrom, hadd.2 hf, Res.panic_bind]

theorem checkSums_exact : ∀ (cs : List (List Rat)), (∀ c ∈ cs, Good c) →
    checkSums true (reps cs) = .panic ∨ (∀ oc, checkSums oc (reps cs) = if ∀ c ∈ cs, 1 ≤ c.sum then .ok () else .err .value)
  | [], _ => by right; intro oc; simp [checkSums, reps]
  | c :: cs, h => by
    have ih := checkSums_exact cs (fun x hx => h x (by simp [hx]))
    rcases sumFrom_exact c zero_small (h c (by simp)) with hs | ⟨hs, _⟩
    · left
      have : rep 0 = ⟨0, 1⟩ := rfl
      rw [this] at hs
      simp only [reps, List.map_cons, checkSums, hs, Res.panic_bind]
    · have h0 : rep 0 = ⟨0, 1⟩ := rfl
      rw [h0] at hs
      rw [zero_add] at hs
      by_cases hlt : c.sum < 1
      · right
        intro oc
        simp only [reps, List.map_cons, checkSums, hs, Res.ok_bind]
        rw [if_pos ((ltOne_rep _).mpr hlt), if_neg]
        intro hall
        exact absurd (hall c (by simp)) (not_le.mpr hlt)
      · have hne : ¬ (rep c.sum).ltOne = true := fun h => hlt ((ltOne_rep _).mp h)
        rcases ih with ih | ih
        · left
          simp only [reps] at ih
          simp only [reps, List.map_cons, checkSums, hs, Res.ok_bind, if_neg hne, ih]
        · right
          intro oc
          have := ih oc
          simp only [reps] at this
          simp only [reps, List.map_cons, checkSums, hs, Res.ok_bind, if_neg hne, this]
          simp only [List.forall_mem_cons, not_lt.mp hlt, true_and]

/-! ## Positions -/

/-- The weights at marked positions. -/
def held (sats : List Bool) : Nat → List Rat → List Rat
  | _, [] => []
  | o, w :: ws => if sats[o]? = some true then w :: held sats (o + 1) ws else held sats (o + 1) ws

theorem held_sub (sats : List Bool) : ∀ (o : Nat) (c : List Rat), ∀ q ∈ held sats o c, q ∈ c
  | _, [], q, h => by simp [held] at h
  | o, w :: ws, q, h => by
    simp only [held] at h
    split at h
    · rcases List.mem_cons.mp h with rfl | h
      · simp
      · exact List.mem_cons_of_mem _ (held_sub sats (o + 1) ws q h)
    · exact List.mem_cons_of_mem _ (held_sub sats (o + 1) ws q h)

theorem clauseWeight_eq (oc : Bool) (sats : List Bool) : ∀ (c : List Rat) (cw : R32) (o : Nat), o + c.length ≤ sats.length →
    clauseWeight oc sats cw o (c.map rep) = sumFrom oc cw ((held sats o c).map rep)
  | [], cw, o, _ => by simp [clauseWeight, held, sumFrom]
  | w :: c, cw, o, h => by
    simp only [List.length_cons] at h
    have hget : sats[o]? = some sats[o] := List.getElem?_eq_getElem (by omega)
    simp only [List.map_cons, clauseWeight, held, hget, Option.some.injEq]
    cases sats[o] with
    | true =>
      simp only [if_true, List.map_cons, sumFrom]
      congr 1
      funext cw'
      exact clauseWeight_eq oc sats c cw' (o + 1) (by omega)
    | false =>
      simp only [Bool.false_eq_true, if_false]
      exact clauseWeight_eq oc sats c cw (o + 1) (by omega)

theorem held_sum {sats : List Bool} {is : List Nat} (h : ∀ i, i < sats.length → (sats[i]? = some true ↔ i ∈ is)) :
    ∀ (c : List Rat) (o : Nat), o + c.length ≤ sats.length → (held sats o c).sum = Spec.heldWeight is o c
  | [], _, _ => rfl
  | w :: c, o, hl => by
    simp only [List.length_cons] at hl
    have ih := held_sum h c (o + 1) (by omega)
    simp only [held, Spec.heldWeight]
    by_cases hi : o ∈ is
    · rw [if_pos ((h o (by omega)).mpr hi), if_pos hi, List.sum_cons, ih]
    · rw [if_neg (fun hc => hi ((h o (by omega)).mp hc)), if_neg hi, ih, zero_add]

/-- The decision loop is exact or panics on an overflow; when it does not panic it is the same in every profile. -/
theorem clausesReach_exact {sats : List Bool} {is : List Nat} (h : ∀ i, i < sats.length → (sats[i]? = some true ↔ i ∈ is)) :
    ∀ (cs : List (List Rat)) (o : Nat), (∀ c ∈ cs, Good c) → o + (cs.map List.length).sum ≤ sats.length →
    clausesReach true sats o (reps cs) = .panic ∨
    ∃ b, (∀ oc, clausesReach oc sats o (reps cs) = .ok b) ∧ (b = true ↔ Spec.SatisfiedFrom is o cs)
  | [], o, _, _ => by right; exact ⟨true, by simp [clausesReach, reps], by simp [Spec.SatisfiedFrom]⟩
  | c :: cs, o, hg, hl => by
    simp only [List.map_cons, List.sum_cons] at hl
    have hgc := hg c (by simp)
    have hgh : Good (held sats o c) := fun q hq => hgc q (held_sub sats o c q hq)
    have ih := clausesReach_exact h cs (o + c.length) (fun x hx => hg x (by simp [hx])) (by omega)
    have h0 : rep 0 = ⟨0, 1⟩ := rfl
    have hlen : (c.map rep).length = c.length := by simp
    rcases sumFrom_exact (held sats o c) zero_small hgh with hs | ⟨hs, _⟩
    · left
      rw [h0] at hs
      simp only [reps, List.map_cons, clausesReach, clauseWeight_eq true sats c _ o (by omega), hs, Res.panic_bind]
    · rw [h0, zero_add, held_sum h c o (by omega)] at hs
      by_cases hlt : Spec.heldWeight is o c < 1
      · right
        refine ⟨false, fun oc => ?_, ?_⟩
        · simp only [reps, List.map_cons, clausesReach, clauseWeight_eq oc sats c _ o (by omega), hs, Res.ok_bind]
          rw [if_pos ((ltOne_rep _).mpr hlt)]
        · simp only [Bool.false_eq_true, false_iff, Spec.SatisfiedFrom, not_and]
          intro h1; exact absurd h1 (not_le.mpr hlt)
      · have hne : ¬ (rep (Spec.heldWeight is o c)).ltOne = true := fun h => hlt ((ltOne_rep _).mp h)
        rcases ih with ih | ⟨b, ih, hb⟩
        · left
          simp only [reps] at ih
          simp only [reps, List.map_cons, clausesReach, clauseWeight_eq true sats c _ o (by omega), hs, Res.ok_bind, if_neg hne, hlen, ih]
        · right
          refine ⟨b, fun oc => ?_, ?_⟩
          · have := ih oc
            simp only [reps] at this
            simp only [reps, List.map_cons, clausesReach, clauseWeight_eq oc sats c _ o (by omega), hs, Res.ok_bind, if_neg hne, hlen, this]
          · rw [hb]
            simp only [Spec.SatisfiedFrom, not_lt.mp hlt, true_and]

/-! ## Marking -/

theorem mem_dedup (x : Nat) : ∀ l : List Nat, x ∈ dedup l ↔ x ∈ l
  | [] => by simp [dedup]
  | a :: l => by
    have ih := mem_dedup x l
    simp only [dedup]
    split
    · rename_i hd; rw [hd] at ih; simp only [List.mem_cons, ← ih]
    · rename_i b r hd
      rw [hd] at ih
      split
      · rename_i he; subst he; rw [ih, List.mem_cons]; constructor
        · exact .inr
        · rintro (rfl | h)
          · rw [← ih]; simp
          · exact h
      · rw [List.mem_cons, ih, List.mem_cons]

theorem mark_length : ∀ (is : List Nat) {sats r : List Bool}, mark sats is = .ok r → r.length = sats.length
  | [], sats, r, h => by simp only [mark, Res.ok.injEq] at h; rw [← h]
  | i :: is, sats, r, h => by
    simp only [mark] at h
    split at h
    · have := mark_length is h; simpa using this
    · simp at h

theorem mark_spec : ∀ (is : List Nat) (sats : List Bool),
    ((∀ i ∈ is, i < sats.length) → ∃ r, mark sats is = .ok r ∧ r.length = sats.length ∧
      ∀ i, r[i]? = some true ↔ (sats[i]? = some true ∨ (i < sats.length ∧ i ∈ is))) ∧
    ((∃ i ∈ is, sats.length ≤ i) → mark sats is = .panic)
  | [], sats => by simp [mark]
  | j :: is, sats => by
    have ih := mark_spec is (sats.set j true)
    rw [List.length_set] at ih
    constructor
    · intro h
      have hj := h j (by simp)
      obtain ⟨r, h1, h2, h3⟩ := ih.1 (fun i hi => h i (by simp [hi]))
      refine ⟨r, by rw [mark, if_pos hj, h1], h2, fun i => ?_⟩
      rw [h3 i, List.getElem?_set]
      by_cases hij : j = i
      · subst hij; simp [hj]
      · have : i ≠ j := fun h => hij h.symm
        simp [hij, this]
    · rintro ⟨i, hi, hl⟩
      rw [mark]
      by_cases hj : j < sats.length
      · rw [if_pos hj]
        apply ih.2
        rcases List.mem_cons.mp hi with rfl | hi
        · omega
        · exact ⟨i, hi, hl⟩
      · rw [if_neg hj]

/-- Marking the distinct positions. -/
theorem mark_indices (n : Nat) (is : List Nat) :
    ((∀ i ∈ is, i < n) → ∃ r, mark (List.replicate n false) (dedup is.mergeSort) = .ok r ∧ r.length = n ∧
      ∀ i, i < r.length → (r[i]? = some true ↔ i ∈ is)) ∧
    ((∃ i ∈ is, n ≤ i) → mark (List.replicate n false) (dedup is.mergeSort) = .panic) := by
  have hm : ∀ x, x ∈ dedup is.mergeSort ↔ x ∈ is := by intro x; rw [mem_dedup, List.mem_mergeSort]
  have := mark_spec (dedup is.mergeSort) (List.replicate n false)
  rw [List.length_replicate] at this
  constructor
  · intro h
    obtain ⟨r, h1, h2, h3⟩ := this.1 (fun i hi => h i ((hm i).mp hi))
    refine ⟨r, h1, h2, fun i hi => ?_⟩
    rw [h3 i, hm]
    rw [h2] at hi
    simp [List.getElem?_replicate, hi]
  · rintro ⟨i, hi, hl⟩
    exact this.2 ⟨i, (hm i).mpr hi, hl⟩

end Tholder
end Cesride
