import Verif.Props.Tholder3
import Verif.Spec.Weights
import Verif.Props.JsonRead
import Verif.Props.Panics
import Verif.Props.Args
import Verif.Lemmas.Pather

/-! # C35, C38: exactly which weights are read, and exactly when thresholds panic -/

namespace Cesride
open Tholder R32

variable {E : Env} {F : Str → Option Str}

/-! ## Reading weights -/

theorem parseI32_iff {s : Str} {n : Int} : parseI32 s = .ok n ↔ Spec.SignedDec s n ∧ -2 ^ 31 ≤ n ∧ n < 2 ^ 31 := by
  have hpos : ∀ (s : Str) (n : Int), parseI32.pos s = .ok n ↔ ∃ m : Nat, n = m ∧ Spec.DecNumeral s m ∧ n < 2 ^ 31 := by
    intro s n
    unfold parseI32.pos
    by_cases hs : s = []
    · subst hs
      simp [Spec.DecNumeral]
    rw [if_neg hs]
    constructor
    · intro h
      split at h
      · rename_i m hm
        simp only [Res.ok.injEq] at h
        obtain ⟨h1, h2, h3⟩ := (decLoop_zero _ s m).mp hm
        exact ⟨m, h.symm, ⟨hs, h1, h2⟩, by omega⟩
      · simp at h
    · rintro ⟨m, rfl, ⟨_, h1, h2⟩, h3⟩
      rw [(decLoop_zero _ s m).mpr ⟨h1, h2, by omega⟩]
  have hhead : ∀ (c : UInt8) (r : Str) (m : Nat), Spec.DecNumeral (c :: r) m → c ≠ ch '+' ∧ c ≠ ch '-' := by
    intro c r m h
    obtain ⟨h1, h2, _⟩ := digit_not (h.2.1 c (by simp))
    exact ⟨h1, h2⟩
  cases s with
  | nil =>
    simp only [parseI32, reduceCtorEq, false_iff]
    rintro ⟨h, _⟩
    generalize he : ([] : Str) = s at h
    cases h with
    | plain h => exact h.1 he.symm
    | plus h => cases he
    | minus h => cases he
  | cons c r =>
    rw [parseI32]
    constructor
    · intro h
      split at h
      · rename_i hc
        obtain ⟨m, rfl, h1, h2⟩ := (hpos _ _).mp h
        subst hc
        exact ⟨.plus h1, by omega, h2⟩
      · split at h
        · rename_i hc
          split at h
          · simp at h
          · rename_i hr
            split at h
            · rename_i m hm
              simp only [Res.ok.injEq] at h
              obtain ⟨h1, h2, h3⟩ := (decLoop_zero _ r m).mp hm
              subst h hc
              exact ⟨.minus ⟨hr, h1, h2⟩, by omega, by omega⟩
            · simp at h
        · obtain ⟨m, rfl, h1, h2⟩ := (hpos _ _).mp h
          exact ⟨.plain h1, by omega, h2⟩
    · rintro ⟨h, h1, h2⟩
      generalize he : c :: r = s at h
      cases h with
      | @plain s m hd =>
        subst he
        obtain ⟨e1, e2⟩ := hhead _ _ _ hd
        rw [if_neg e1, if_neg e2]
        exact (hpos _ _).mpr ⟨m, rfl, hd, h2⟩
      | @plus s m hd =>
        simp only [List.cons.injEq] at he
        obtain ⟨rfl, rfl⟩ := he
        rw [if_pos rfl]
        exact (hpos _ _).mpr ⟨m, rfl, hd, h2⟩
      | @minus s m hd =>
        simp only [List.cons.injEq] at he
        obtain ⟨rfl, rfl⟩ := he
        rw [if_neg (by decide), if_pos rfl, if_neg hd.1, (decLoop_zero _ r m).mpr ⟨hd.2.1, hd.2.2, by omega⟩]

theorem signedDec_slash {s : Str} {n : Int} (h : Spec.SignedDec s n) : ch '/' ∉ s := by
  cases h with
  | plain h => exact slash_not_digits h.2.1
  | plus h =>
    intro hc
    rcases List.mem_cons.mp hc with hc | hc
    · exact absurd hc (by decide)
    · exact slash_not_digits h.2.1 hc
  | minus h =>
    intro hc
    rcases List.mem_cons.mp hc with hc | hc
    · exact absurd hc (by decide)
    · exact slash_not_digits h.2.1 hc

/-- Exactly the texts of `Spec.ReadWeight` are read, as the weight they stand for. -/
theorem weight_iff (oc : Bool) {s : Str} {w : R32} : weight oc s = .ok w ↔ ∃ q, Spec.ReadWeight s q ∧ w = rep q := by
  constructor
  · intro h
    have hjoin := join_splitOn (ch '/') s
    unfold weight at h
    split at h
    · rename_i p q hs
      rw [hs] at hjoin
      have hsq : s = p ++ ch '/' :: q := by rw [← hjoin]; rfl
      obtain ⟨n, hn, h⟩ := Res.bind_eq_ok.mp h
      obtain ⟨d, hd, h⟩ := Res.bind_eq_ok.mp h
      rw [weight_frac oc (parseI32_range hn) (parseI32_range hd)] at h
      split at h
      · simp at h
      split at h
      · simp at h
      simp only [Res.ok.injEq] at h
      obtain ⟨hd1, _, hd3⟩ := parseI32_iff.mp hd
      obtain ⟨hn1, _, hn3⟩ := parseI32_iff.mp hn
      subst hsq
      refine ⟨_, .frac hn1 hd1 (by omega) (by omega) (by omega) hd3, ?_⟩
      rw [← h]
      congr 1
      obtain ⟨e, rfl⟩ : ∃ e : Nat, d = e := ⟨d.toNat, by omega⟩
      rw [Rat.mkRat_eq_div]
      push_cast
      simp
    · rename_i p l hne hs
      rw [hs] at hjoin
      have hrest : ∀ c : Str, p = c → ∃ rest, s = c ++ rest ∧ (rest = [] ∨ ∃ x y, rest = ch '/' :: (x ++ ch '/' :: y)) := by
        rintro c rfl
        match l, hne, hjoin with
        | [], _, hjoin => exact ⟨[], by rw [List.append_nil, ← hjoin]; rfl, .inl rfl⟩
        | [q], hne, _ => exact (hne q rfl).elim
        | x :: y :: r, _, hjoin =>
          exact ⟨ch '/' :: (x ++ ch '/' :: Spec.joinWith (ch '/') (y :: r)), by rw [← hjoin]; rfl, .inr ⟨x, _, rfl⟩⟩
      split at h
      · rename_i hp
        obtain ⟨rest, rfl, hr⟩ := hrest _ hp
        simp only [Res.ok.injEq] at h
        exact ⟨0, .zero hr, h.symm⟩
      · split at h
        · rename_i hp
          obtain ⟨rest, rfl, hr⟩ := hrest _ hp
          simp only [Res.ok.injEq] at h
          exact ⟨1, .one hr, h.symm⟩
        · simp at h
    · simp at h
  · rintro ⟨q, h, rfl⟩
    have hfirst : ∀ (c : Str) (rest : Str), ch '/' ∉ c → (rest = [] ∨ ∃ x y, rest = ch '/' :: (x ++ ch '/' :: y)) →
        weight oc (c ++ rest) = if c = lit "0" then .ok ⟨0, 1⟩ else if c = lit "1" then .ok ⟨1, 1⟩ else .err .value := by
      rintro c rest hc (rfl | ⟨x, y, rfl⟩)
      · unfold weight
        rw [List.append_nil, splitOn_self _ _ hc]
      · have hlen : ∀ x : Str, ∃ a b r, splitOn (ch '/') (x ++ ch '/' :: y) = a :: b :: r := by
          intro x
          induction x with
          | nil =>
            obtain ⟨b, r, hb⟩ := List.exists_cons_of_ne_nil (splitOn_ne_nil (ch '/') y)
            exact ⟨[], b, r, by simp [splitOn, hb]⟩
          | cons z x ih =>
            obtain ⟨a, b, r, h⟩ := ih
            by_cases hz : z = ch '/'
            · exact ⟨[], a, b :: r, by simp [splitOn, hz, h]⟩
            · exact ⟨z :: a, b, r, by simp [splitOn, hz, h]⟩
        obtain ⟨a, b, r, h⟩ := hlen x
        unfold weight
        rw [splitOn_cons_sep _ _ _ hc, h]
    cases h with
    | @frac p q n d hp hq h0 h1 h2 h3 =>
      have hs : splitOn (ch '/') (p ++ ch '/' :: q) = [p, q] := by
        rw [splitOn_cons_sep _ _ _ (signedDec_slash hp), splitOn_self _ _ (signedDec_slash hq)]
      unfold weight
      rw [hs]
      simp only
      rw [parseI32_iff.mpr ⟨hp, by omega, by omega⟩, parseI32_iff.mpr ⟨hq, by omega, h3⟩]
      simp only [Res.ok_bind]
      rw [weight_frac oc ⟨by omega, by omega⟩ ⟨by omega, by omega⟩, if_neg (by omega), if_neg (by omega)]
      obtain ⟨e, rfl⟩ : ∃ e : Nat, d = e := ⟨d.toNat, by omega⟩
      rw [Rat.mkRat_eq_div]
      push_cast
      simp
    | zero h => rw [hfirst _ _ (by decide) h, if_pos rfl]; rfl
    | one h => rw [hfirst _ _ (by decide) h, if_neg (by decide), if_pos rfl]; rfl

theorem weights_iff (oc : Bool) : ∀ {vs : List Value} {ws : List R32}, weights oc vs = .ok ws ↔ ∃ c, Spec.ReadClause vs c ∧ ws = c.map rep
  | [], ws => by
    simp only [weights, Res.ok.injEq]
    constructor
    · rintro rfl; exact ⟨[], trivial, rfl⟩
    · rintro ⟨c, h, rfl⟩
      cases c with
      | nil => rfl
      | cons _ _ => exact absurd h (by simp [Spec.ReadClause])
  | v :: vs, ws => by
    rw [weights]
    constructor
    · intro h0
      obtain ⟨s, hs, h1⟩ := Res.bind_eq_ok.mp h0
      clear h0
      obtain ⟨w, hw, h2⟩ := Res.bind_eq_ok.mp h1
      clear h1
      obtain ⟨ws', hws, h⟩ := Res.bind_eq_ok.mp h2
      clear h2
      obtain ⟨q, hq, rfl⟩ := (weight_iff oc).mp hw
      obtain ⟨c, hc, rfl⟩ := (weights_iff oc).mp hws
      have hv : v = .str s := by cases v <;> simp [Value.toStr] at hs; rw [hs]
      subst hv
      exact ⟨q :: c, ⟨hq, hc⟩, (Res.ok.inj h).symm⟩
    · rintro ⟨c, h, rfl⟩
      cases c with
      | nil => cases v <;> exact absurd h (by simp [Spec.ReadClause])
      | cons q c =>
        cases v <;> simp only [Spec.ReadClause] at h
        rename_i s
        simp only [Value.toStr, Res.ok_bind]
        rw [(weight_iff oc).mpr ⟨q, h.1, rfl⟩, Res.ok_bind, (weights_iff oc).mpr ⟨c, h.2, rfl⟩]
        rfl

theorem clausesOf_iff (oc : Bool) : ∀ {vs : List Value} {ws : List (List R32)}, clausesOf oc vs = .ok ws ↔ ∃ cs, Spec.ReadClauses vs cs ∧ ws = reps cs
  | [], ws => by
    simp only [clausesOf, Res.ok.injEq]
    constructor
    · rintro rfl; exact ⟨[], trivial, rfl⟩
    · rintro ⟨c, h, rfl⟩
      cases c with
      | nil => rfl
      | cons _ _ => exact absurd h (by simp [Spec.ReadClauses])
  | v :: vs, ws => by
    rw [clausesOf]
    constructor
    · intro h0
      obtain ⟨a, ha, h1⟩ := Res.bind_eq_ok.mp h0
      clear h0
      obtain ⟨w, hw, h2⟩ := Res.bind_eq_ok.mp h1
      clear h1
      obtain ⟨ws', hws, h⟩ := Res.bind_eq_ok.mp h2
      clear h2
      obtain ⟨q, hq, rfl⟩ := (weights_iff oc).mp hw
      obtain ⟨c, hc, rfl⟩ := (clausesOf_iff oc).mp hws
      have hv : v = .arr a := by cases v <;> simp [Value.toVec] at ha; rw [ha]
      subst hv
      exact ⟨q :: c, ⟨hq, hc⟩, (Res.ok.inj h).symm⟩
    · rintro ⟨c, h, rfl⟩
      cases c with
      | nil => cases v <;> exact absurd h (by simp [Spec.ReadClauses])
      | cons q c =>
        cases v <;> simp only [Spec.ReadClauses] at h
        rename_i s
        simp only [Value.toVec, Res.ok_bind]
        rw [(weights_iff oc).mpr ⟨q, h.1, rfl⟩, Res.ok_bind, (clausesOf_iff oc).mpr ⟨c, h.2, rfl⟩]
        rfl

theorem weights_panic_iff (oc : Bool) : ∀ {vs : List Value}, weights oc vs = .panic ↔
    ∃ first s last ws, vs = first ++ .str s :: last ∧ Spec.ReadClause first ws ∧ Spec.ZeroOverZero s
  | [] => by
    constructor
    · intro h; simp [weights] at h
    · rintro ⟨f, s, l, ws, h, _⟩
      cases f <;> cases h
  | v :: vs => by
    rw [weights]
    constructor
    · intro h0
      rcases Res.bind_eq_panic.mp h0 with h | ⟨s, hs, h⟩
      · cases v <;> simp [Value.toStr] at h
      clear h0
      have hv : v = .str s := by cases v <;> simp [Value.toStr] at hs; rw [hs]
      subst hv
      rcases Res.bind_eq_panic.mp h with h | ⟨w, hw, h⟩
      · exact ⟨[], s, vs, [], rfl, trivial, (weight_panic oc s).mp h⟩
      obtain ⟨q, hq, rfl⟩ := (weight_iff oc).mp hw
      rcases Res.bind_eq_panic.mp h with h | ⟨ws, _, h⟩
      · obtain ⟨f, u, l, ws, rfl, h1, h2⟩ := (weights_panic_iff oc).mp h
        exact ⟨.str s :: f, u, l, q :: ws, rfl, ⟨hq, h1⟩, h2⟩
      · simp at h
    · rintro ⟨f, u, l, ws, h, h1, h2⟩
      cases f with
      | nil =>
        simp only [List.nil_append, List.cons.injEq] at h
        obtain ⟨rfl, rfl⟩ := h
        simp only [Value.toStr, Res.ok_bind, (weight_panic oc u).mpr h2, Res.panic_bind]
      | cons v' f =>
        simp only [List.cons_append, List.cons.injEq] at h
        obtain ⟨rfl, rfl⟩ := h
        cases ws with
        | nil => cases v <;> exact absurd h1 (by simp [Spec.ReadClause])
        | cons q ws =>
          cases v <;> simp only [Spec.ReadClause] at h1
          simp only [Value.toStr, Res.ok_bind]
          rw [(weight_iff oc).mpr ⟨q, h1.1, rfl⟩, Res.ok_bind, (weights_panic_iff oc).mpr ⟨f, u, l, ws, rfl, h1.2, h2⟩]
          rfl

theorem clausesOf_panic_iff (oc : Bool) : ∀ {vs : List Value}, clausesOf oc vs = .panic ↔ Spec.FirstZeroOverZero vs
  | [] => by
    constructor
    · intro h; simp [clausesOf] at h
    · rintro ⟨f, _, _, _, _, _, _, _, h, _⟩
      cases f <;> cases h
  | v :: vs => by
    rw [clausesOf]
    constructor
    · intro h0
      rcases Res.bind_eq_panic.mp h0 with h | ⟨a, ha, h⟩
      · cases v <;> simp [Value.toVec] at h
      clear h0
      have hv : v = .arr a := by cases v <;> simp [Value.toVec] at ha; rw [ha]
      subst hv
      rcases Res.bind_eq_panic.mp h with h | ⟨w, hw, h⟩
      · obtain ⟨f, u, l, ws, h0, h1, h2⟩ := (weights_panic_iff oc).mp h
        exact ⟨[], a, vs, [], f, u, l, ws, rfl, trivial, h0, h1, h2⟩
      obtain ⟨q, hq, rfl⟩ := (weights_iff oc).mp hw
      rcases Res.bind_eq_panic.mp h with h | ⟨ws, _, h⟩
      · obtain ⟨b, c, r, cs, f, u, l, ws, rfl, h1, h2⟩ := (clausesOf_panic_iff oc).mp h
        exact ⟨.arr a :: b, c, r, q :: cs, f, u, l, ws, rfl, ⟨hq, h1⟩, h2⟩
      · simp at h
    · rintro ⟨b, c, r, cs, f, u, l, ws, h, h1, h2⟩
      cases b with
      | nil =>
        simp only [List.nil_append, List.cons.injEq] at h
        obtain ⟨rfl, rfl⟩ := h
        simp only [Value.toVec, Res.ok_bind, (weights_panic_iff oc).mpr ⟨f, u, l, ws, h2⟩, Res.panic_bind]
      | cons v' b =>
        simp only [List.cons_append, List.cons.injEq] at h
        obtain ⟨rfl, rfl⟩ := h
        cases cs with
        | nil => cases v <;> exact absurd h1 (by simp [Spec.ReadClauses])
        | cons q cs =>
          cases v <;> simp only [Spec.ReadClauses] at h1
          simp only [Value.toVec, Res.ok_bind]
          rw [(weights_iff oc).mpr ⟨q, h1.1, rfl⟩, Res.ok_bind, (clausesOf_panic_iff oc).mpr ⟨b, c, r, cs, f, u, l, ws, rfl, h1.2, h2⟩]
          rfl

/-! ## Sums -/

theorem sumFits_iff {a b : Rat} (ha : 0 ≤ a) (hb : 0 ≤ b) : (lcd a b < 2 ^ 31 ∧ sumNum a b < 2 ^ 31) ↔ Spec.SumFits a b := by
  have h := sumNum_eq ha hb
  have hl : lcd a b ≠ 0 := Nat.ne_of_gt (Nat.lcm_pos a.den_pos b.den_pos)
  have hl' : (lcd a b : Rat) ≠ 0 := by exact_mod_cast hl
  have he : (sumNum a b : Rat) = (a + b) * (lcd a b : Nat) := by
    rw [← h, Rat.mkRat_eq_div]
    push_cast
    rw [div_mul_cancel₀ _ hl']
  unfold Spec.SumFits
  rw [show Nat.lcm a.den b.den = lcd a b from rfl, ← he]
  have : ((sumNum a b : Rat) < 2 ^ 31) ↔ sumNum a b < 2 ^ 31 := by
    rw [show ((2 : Rat) ^ 31) = ((2 ^ 31 : Nat) : Rat) by norm_num]
    exact Nat.cast_lt
  rw [this]

theorem sumFrom_panic_iff : ∀ (c : List Rat) {s : Rat}, Small s → Good c →
    (sumFrom true (rep s) (c.map rep) = .panic ↔ ∃ before w after, c = before ++ w :: after ∧ ¬ Spec.SumFits (s + before.sum) w)
  | [], s, _, _ => by
    constructor
    · intro h; simp [sumFrom] at h
    · rintro ⟨b, w, a, h, _⟩
      cases b <;> cases h
  | q :: c, s, hs, hg => by
    have hq := hg q (by simp)
    have hadd := add_rep hs hq.2
    by_cases hf : lcd s q < 2 ^ 31 ∧ sumNum s q < 2 ^ 31
    · have hsm := add_small hs hq.2 hf
      simp only [List.map_cons, sumFrom, hadd.1 hf, Res.ok_bind]
      rw [sumFrom_panic_iff c hsm (fun x hx => hg x (by simp [hx]))]
      constructor
      · rintro ⟨b, w, a, rfl, h⟩
        exact ⟨q :: b, w, a, rfl, by rwa [List.sum_cons, ← add_assoc]⟩
      · rintro ⟨b, w, a, h, h'⟩
        cases b with
        | nil =>
          simp only [List.nil_append, List.cons.injEq] at h
          obtain ⟨rfl, rfl⟩ := h
          rw [List.sum_nil, add_zero] at h'
          exact absurd ((sumFits_iff hs.1 hq.2.1).mp hf) h'
        | cons x b =>
          simp only [List.cons_append, List.cons.injEq] at h
          obtain ⟨rfl, rfl⟩ := h
          exact ⟨b, w, a, rfl, by rwa [List.sum_cons, ← add_assoc] at h'⟩
    · simp only [List.map_cons, sumFrom, hadd.2 hf, Res.panic_bind, true_iff]
      exact ⟨[], q, c, rfl, by rw [List.sum_nil, add_zero]; exact fun h => hf ((sumFits_iff hs.1 hq.2.1).mpr h)⟩

theorem sum_panic_iff {c : List Rat} (hg : Good c) : sumFrom true ⟨0, 1⟩ (c.map rep) = .panic ↔ Spec.SumOverflows c := by
  have := sumFrom_panic_iff c zero_small hg
  rw [show rep 0 = ⟨0, 1⟩ from rfl] at this
  rw [this]
  simp only [zero_add]
  rfl

theorem sums_cons (c : List Rat) (cs : List (List Rat)) : Spec.SumsOverflow (c :: cs) ↔ Spec.SumOverflows c ∨ (1 ≤ c.sum ∧ Spec.SumsOverflow cs) := by
  constructor
  · rintro ⟨b, d, a, h, h1, h2⟩
    cases b with
    | nil =>
      simp only [List.nil_append, List.cons.injEq] at h
      obtain ⟨rfl, rfl⟩ := h
      exact .inl h2
    | cons x b =>
      simp only [List.cons_append, List.cons.injEq] at h
      obtain ⟨rfl, rfl⟩ := h
      exact .inr ⟨h1 _ (by simp), b, d, a, rfl, fun c hc => h1 c (by simp [hc]), h2⟩
  · rintro (h | ⟨h, b, d, a, rfl, h1, h2⟩)
    · exact ⟨[], c, cs, rfl, by simp, h⟩
    · exact ⟨c :: b, d, a, rfl, by simpa using ⟨h, h1⟩, h2⟩

theorem checkSums_panic_iff : ∀ (cs : List (List Rat)), (∀ c ∈ cs, Good c) → (checkSums true (reps cs) = .panic ↔ Spec.SumsOverflow cs)
  | [], _ => by
    constructor
    · intro h; simp [checkSums, reps] at h
    · rintro ⟨b, d, a, h, _⟩
      cases b <;> cases h
  | c :: cs, h => by
    have hgc := h c (by simp)
    have ih := checkSums_panic_iff cs (fun x hx => h x (by simp [hx]))
    rw [sums_cons, ← ih, ← sum_panic_iff hgc]
    simp only [reps, List.map_cons, checkSums]
    rcases sumFrom_exact c zero_small hgc with hs | ⟨hs, _⟩
    · rw [show rep 0 = ⟨0, 1⟩ from rfl] at hs
      simp [hs]
    · rw [show rep 0 = ⟨0, 1⟩ from rfl, zero_add] at hs
      simp only [hs, Res.ok_bind, reduceCtorEq, false_or]
      by_cases hlt : c.sum < 1
      · rw [if_pos ((ltOne_rep _).mpr hlt)]
        simp [not_le.mpr hlt]
      · rw [if_neg (fun h => hlt ((ltOne_rep _).mp h))]
        simp [not_lt.mp hlt]

theorem clausesReach_panic_iff {sats : List Bool} {is : List Nat} (h : ∀ i, i < sats.length → (sats[i]? = some true ↔ i ∈ is)) :
    ∀ (cs : List (List Rat)) (o : Nat), (∀ c ∈ cs, Good c) → o + (cs.map List.length).sum ≤ sats.length →
    (clausesReach true sats o (reps cs) = .panic ↔ Spec.SumsOverflow (Spec.heldClauses is o cs))
  | [], o, _, _ => by
    constructor
    · intro h; simp [clausesReach, reps] at h
    · rintro ⟨b, d, a, h, _⟩
      cases b <;> cases h
  | c :: cs, o, hg, hl => by
    simp only [List.map_cons, List.sum_cons] at hl
    have hgc := hg c (by simp)
    have hgh : Good (held sats o c) := fun q hq => hgc q (held_sub sats o c q hq)
    have ih := clausesReach_panic_iff h cs (o + c.length) (fun x hx => hg x (by simp [hx])) (by omega)
    have hlen : (c.map rep).length = c.length := by simp
    have hheld : held sats o c = Spec.heldWeights is o c := by
      have key : ∀ (c : List Rat) (o : Nat), o + c.length ≤ sats.length → held sats o c = Spec.heldWeights is o c := by
        intro c
        induction c with
        | nil => intro o _; rfl
        | cons w c ih =>
          intro o ho
          simp only [List.length_cons] at ho
          simp only [held, Spec.heldWeights, ih (o + 1) (by omega)]
          by_cases hi : o ∈ is
          · rw [if_pos ((h o (by omega)).mpr hi), if_pos hi]
          · rw [if_neg (fun hc => hi ((h o (by omega)).mp hc)), if_neg hi]
      exact key c o (by omega)
    rw [Spec.heldClauses, sums_cons, ← ih, ← hheld, ← sum_panic_iff hgh]
    simp only [reps, List.map_cons, clausesReach, clauseWeight_eq true sats c _ o (by omega), hlen]
    rcases sumFrom_exact (held sats o c) zero_small hgh with hs | ⟨hs, _⟩
    · rw [show rep 0 = ⟨0, 1⟩ from rfl] at hs
      simp [hs]
    · rw [show rep 0 = ⟨0, 1⟩ from rfl, zero_add] at hs
      simp only [hs, Res.ok_bind, reduceCtorEq, false_or]
      by_cases hlt : (held sats o c).sum < 1
      · rw [if_pos ((ltOne_rep _).mpr hlt)]
        simp [not_le.mpr hlt]
      · rw [if_neg (fun h => hlt ((ltOne_rep _).mp h))]
        simp [not_lt.mp hlt]

/-! ## C38 -/

theorem readClauses_unique : ∀ {vs : List Value} {cs cs' : List (List Rat)}, Spec.ReadClauses vs cs → Spec.ReadClauses vs cs' → cs = cs' := by
  intro vs cs cs' h h'
  have h1 := (clausesOf_iff true).mpr ⟨cs, h, rfl⟩
  have h2 := (clausesOf_iff true).mpr ⟨cs', h', rfl⟩
  rw [h1] at h2
  exact reps_inj (Res.ok.inj h2)

theorem processWeighted_panic_iff (E : Env) (a : List Value) : processWeighted E (.arr a) = .panic ↔
    Spec.FirstZeroOverZero a ∨ (E.overflowChecks = true ∧ ∃ cs, Spec.ReadClauses a cs ∧ Spec.SumsOverflow cs) := by
  constructor
  · intro h
    unfold processWeighted at h
    rcases Res.bind_eq_panic.mp h with h | ⟨ws, hw, h⟩
    · unfold valuesToRationals at h
      simp only [Value.toVec, Res.ok_bind] at h
      rcases Res.bind_eq_panic.mp h with h | ⟨ws, hw, h⟩
      · exact .inl ((clausesOf_panic_iff _).mp h)
      rcases Res.bind_eq_panic.mp h with h | ⟨_, _, h⟩
      · obtain ⟨cs, rfl, hg⟩ := clausesOf_ok hw
        cases hE : E.overflowChecks with
        | false => rw [hE] at h; exact absurd h (checkSums_release cs hg)
        | true =>
          rw [hE] at h
          obtain ⟨cs', h1, h2⟩ := (clausesOf_iff _).mp hw
          have := reps_inj h2
          subst this
          exact .inr ⟨rfl, cs, h1, (checkSums_panic_iff cs hg).mp h⟩
      · simp at h
    · obtain ⟨cs, rfl, hg, _⟩ := valuesToRationals_ok hw
      rcases Res.bind_eq_panic.mp h with h | ⟨_, _, h⟩
      · exact absurd h (ofBext_ne_panic E (bextText_b64 hg))
      · simp at h
  · intro h
    have : valuesToRationals E.overflowChecks (.arr a) = .panic := by
      unfold valuesToRationals
      simp only [Value.toVec, Res.ok_bind]
      rcases h with h | ⟨hE, cs, h1, h2⟩
      · rw [(clausesOf_panic_iff _).mpr h, Res.panic_bind]
      · have hc := (clausesOf_iff E.overflowChecks).mpr ⟨cs, h1, rfl⟩
        obtain ⟨cs', e, hg⟩ := clausesOf_ok hc
        have := reps_inj e
        subst this
        rw [hc, Res.ok_bind, hE, (checkSums_panic_iff cs hg).mpr h2, Res.panic_bind]
    unfold processWeighted
    rw [this, Res.panic_bind]

/-- C38: building a threshold from a value panics exactly when the value is a list of clauses in which, reading the weights one after
the other, zero over zero is met before anything else that is refused, or all weights are read and, with overflow checks, a sum
of the weights of a clause does not fit 32 bits, no clause before it being below one. -/
theorem C38_value_panics_exactly (E : Env) (F : Str → Option Str) (v : Value) : ofThold E F v = .panic ↔
    ∃ a, v = .arr a ∧ (Spec.FirstZeroOverZero a ∨ (E.overflowChecks = true ∧ ∃ cs, Spec.ReadClauses a cs ∧ Spec.SumsOverflow cs)) := by
  rw [ofThold_eq]
  cases v with
  | arr a =>
    show processWeighted E (.arr a) = .panic ↔ _
    rw [processWeighted_panic_iff]
    simp
  | int n =>
    constructor
    · intro h; exact absurd h (by unfold processThold; simpa [Value.toI64] using processUnweighted_ne_panic E n)
    · rintro ⟨a, h, _⟩; cases h
  | _ =>
    constructor
    · intro h
      simp [processThold, Value.toI64, processWeighted, valuesToRationals, Value.toVec] at h
    · rintro ⟨a, h, _⟩; cases h

/-- C35, C38: with overflow checks, building a threshold from clauses gives a threshold exactly when every weight is read and every
clause reaches one without a sum that does not fit. -/
theorem C35_accepted_exactly (E : Env) (F : Str → Option Str) (hE : E.overflowChecks = true) (a : List Value)
    (hp : ∀ cs, Spec.ReadClauses a cs → Spec.positions cs ≤ 3000000) :
    (∃ t, ofThold E F (.arr a) = .ok t) ↔ ∃ cs, Spec.ReadClauses a cs ∧ ∀ c ∈ cs, 1 ≤ c.sum ∧ ¬ Spec.SumOverflows c := by
  constructor
  · rintro ⟨t, ht⟩
    rw [ofThold_eq] at ht
    have ht : processWeighted E (.arr a) = .ok t := ht
    unfold processWeighted at ht
    obtain ⟨ws, hw, _⟩ := Res.bind_eq_ok.mp ht
    unfold valuesToRationals at hw
    simp only [Value.toVec, Res.ok_bind] at hw
    obtain ⟨ws', hw', h⟩ := Res.bind_eq_ok.mp hw
    obtain ⟨_, h, _⟩ := Res.bind_eq_ok.mp h
    obtain ⟨cs, hcs, rfl⟩ := (clausesOf_iff _).mp hw'
    obtain ⟨cs', e, hg⟩ := clausesOf_ok hw'
    have := reps_inj e
    subst this
    refine ⟨cs, hcs, ?_⟩
    have hall := checkSums_sound _ hg h
    intro c hc
    refine ⟨hall c hc, fun ho => ?_⟩
    obtain ⟨b, r, rfl⟩ := List.append_of_mem hc
    rw [hE, (checkSums_panic_iff _ hg).mpr ⟨b, c, r, rfl, fun x hx => hall x (by simp [hx]), ho⟩] at h
    cases h
  · rintro ⟨cs, hcs, hall⟩
    have hc := (clausesOf_iff E.overflowChecks).mpr ⟨cs, hcs, rfl⟩
    obtain ⟨cs', e, hg⟩ := clausesOf_ok hc
    have := reps_inj e
    subst this
    have hck : checkSums E.overflowChecks (reps cs) = .ok () := by
      rcases checkSums_exact cs hg with h | h
      · obtain ⟨b, c, r, rfl, _, ho⟩ := (checkSums_panic_iff cs hg).mp h
        exact absurd ho (hall c (by simp)).2
      · rw [h, if_pos (fun c hc => (hall c hc).1)]
    have hval : valuesToRationals E.overflowChecks (.arr a) = .ok (reps cs) := by
      unfold valuesToRationals
      simp only [Value.toVec, Res.ok_bind]
      rw [hc, Res.ok_bind, hck, Res.ok_bind]
    by_cases hne : cs = []
    · subst hne
      obtain ⟨t, ht, _⟩ := build_weighted E F hval hg (by decide)
      exact ⟨t, ht⟩
    · have hn : ∀ c ∈ cs, Good c ∧ c ≠ [] := by
        intro c hc
        refine ⟨hg c hc, ?_⟩
        rintro rfl
        have := (hall _ hc).1
        norm_num at this
      have := bextText_length hne hn
      have := hp cs hcs
      obtain ⟨t, ht, _⟩ := build_weighted E F hval hg (by omega)
      exact ⟨t, ht⟩

/-- C38: evaluating a weighted threshold (with the clauses `cs`) panics exactly on a position it does not have, and with overflow
checks when adding up its clauses, or the weights of the given positions clause by clause until one does not reach one, meets a
sum that does not fit. -/
theorem C38_evaluation_panics_exactly {a : Option Value} {b : Option (List UInt8)} {c : Option Value} {t : Tholder} {cs : List (List Rat)}
    (h : Tholder.new E F a b c = .ok t) (hcs : Spec.ThresholdValue t.thold cs) (E' : Env) (is : List Nat) :
    t.satisfy E' is = .panic ↔ (∃ i ∈ is, Spec.positions cs ≤ i) ∨
      (E'.overflowChecks = true ∧ (Spec.SumsOverflow cs ∨ Spec.SumsOverflow (Spec.heldClauses is 0 cs))) := by
  have hw := tholder_cases h hcs
  by_cases hout : ∃ i ∈ is, Spec.positions cs ≤ i
  · simp only [hout, true_or, iff_true]
    exact satisfy_out hw E' hout
  simp only [hout, false_or]
  obtain ⟨sats, hl, hm, _, hs⟩ := satisfy_in hw E' (by
    intro i hi
    by_contra hc
    exact hout ⟨i, hi, by omega⟩)
  have hlen : 0 + (cs.map List.length).sum ≤ sats.length := by simp only [Spec.positions] at hl; omega
  rw [hs]
  cases he : E'.overflowChecks with
  | false =>
    simp only [Bool.false_eq_true, false_and, iff_false]
    intro hp
    rcases Res.bind_eq_panic.mp hp with hp | ⟨_, _, hp⟩
    · exact checkSums_release cs hw.good hp
    · obtain ⟨r, hr⟩ := clausesReach_release cs 0 hw.good hlen
      rw [hr] at hp
      cases hp
  | true =>
    simp only [true_and]
    rw [← checkSums_panic_iff cs hw.good, ← clausesReach_panic_iff hm cs 0 hw.good hlen]
    rcases checkSums_exact cs hw.good with hp | hp
    · simp [hp]
    · rw [hp, if_pos (checkSums_sound _ hw.good hw.sums)]
      simp

/-! ## Lists of weights, and thresholds as texts -/

/-- All are texts. -/
def AllTexts (a : List Value) : Prop := ∀ v ∈ a, ∃ s, v = .str s

/-- The clauses a list stands for: itself when it consists of lists of texts, and a single clause when it consists of texts. -/
def ListClauses (a clauses : List Value) : Prop :=
  ((∀ v ∈ a, ∃ c, v = .arr c ∧ AllTexts c) ∧ clauses = a) ∨ (AllTexts a ∧ clauses = [.arr a])

theorem toStr_isOk (v : Value) : v.toStr.isOk = true ↔ ∃ s, v = .str s := by
  cases v <;> simp [Value.toStr, Res.isOk]

theorem toVec_isOk (v : Value) : v.toVec.isOk = true ↔ ∃ s, v = .arr s := by
  cases v <;> simp [Value.toVec, Res.isOk]

theorem checkTexts_iff : ∀ (a : List Value), checkTexts a = .ok () ↔ ∀ v ∈ a, ∃ c, v = .arr c ∧ AllTexts c
  | [] => by simp [checkTexts]
  | v :: a => by
    rw [checkTexts, List.forall_mem_cons, ← checkTexts_iff a]
    cases v with
    | arr c =>
      simp only [Value.toVec, Res.ok_bind]
      by_cases h : c.all (fun w => w.toStr.isOk) = true
      · rw [if_pos h]
        have : AllTexts c := fun w hw => (toStr_isOk w).mp (List.all_eq_true.mp h w hw)
        simp [this]
      · rw [if_neg h]
        have : ¬ AllTexts c := fun hc => h (List.all_eq_true.mpr fun w hw => (toStr_isOk w).mpr (hc w hw))
        simp [this]
    | _ => simp [Value.toVec]

theorem checkTexts_ne_panic : ∀ (a : List Value), checkTexts a ≠ .panic
  | [] => by simp [checkTexts]
  | v :: a => by
    rw [checkTexts]
    cases v with
    | arr c =>
      simp only [Value.toVec, Res.ok_bind]
      split
      · exact checkTexts_ne_panic a
      · simp
    | _ => simp [Value.toVec]

/-- The inputs on which clauses panic, see `C38_value_panics_exactly`. -/
def ClausesPanic (E : Env) (a : List Value) : Prop :=
  Spec.FirstZeroOverZero a ∨ (E.overflowChecks = true ∧ ∃ cs, Spec.ReadClauses a cs ∧ Spec.SumsOverflow cs)

theorem processSithArray_panic_iff (E : Env) (a : List Value) : processSithArray E (.arr a) = .panic ↔ ∃ cl, ListClauses a cl ∧ ClausesPanic E cl := by
  have he : processSithArray E (.arr a) = if a = [] then .err .value else (do
      let a' ← (if a.all (fun c => c.toVec.isOk) then Value.arr a else Value.arr [Value.arr a]).toVec
      checkTexts a'
      processWeighted E (if a.all (fun c => c.toVec.isOk) then Value.arr a else Value.arr [Value.arr a])) := rfl
  rw [he]
  by_cases ha : a = []
  · subst ha
    rw [if_pos rfl]
    simp only [reduceCtorEq, false_iff]
    rintro ⟨cl, hl, hp⟩
    rcases hl with ⟨_, rfl⟩ | ⟨_, rfl⟩
    · rcases hp with ⟨b, _, _, _, _, _, _, _, h, _⟩ | ⟨_, cs, h, b, _, _, h', _⟩
      · cases b <;> cases h
      · cases cs with
        | nil => cases b <;> cases h'
        | cons _ _ => exact absurd h (by simp [Spec.ReadClauses])
    · rcases hp with ⟨b, c, r, _, f, _, _, _, h, _, h2, _⟩ | ⟨_, cs, h, b, c, r, h', _, h3⟩
      · cases b with
        | nil =>
          simp only [List.nil_append, List.cons.injEq, Value.arr.injEq] at h
          obtain ⟨rfl, _⟩ := h
          cases f <;> cases h2
        | cons _ b => cases b <;> cases h
      · cases cs with
        | nil => exact absurd h (by simp [Spec.ReadClauses])
        | cons d cs =>
          cases d with
          | cons _ _ => exact absurd h (by simp [Spec.ReadClauses, Spec.ReadClause])
          | nil =>
            cases cs with
            | cons _ _ => exact absurd h (by simp [Spec.ReadClauses])
            | nil =>
              cases b with
              | nil =>
                simp only [List.nil_append, List.cons.injEq] at h'
                obtain ⟨rfl, _⟩ := h'
                obtain ⟨b, _, _, h, _⟩ := h3
                cases b <;> cases h
              | cons _ b => cases b <;> cases h'
  rw [if_neg ha]
  by_cases hall : a.all (fun c => c.toVec.isOk) = true
  · rw [if_pos hall]
    have hl : ∀ v ∈ a, ∃ c, v = .arr c := fun v hv => (toVec_isOk v).mp (List.all_eq_true.mp hall v hv)
    have hnt : ¬ AllTexts a := by
      intro ht
      obtain ⟨v, r, rfl⟩ := List.exists_cons_of_ne_nil ha
      obtain ⟨s, rfl⟩ := ht v (by simp)
      obtain ⟨c, h⟩ := hl _ (List.mem_cons_self ..)
      cases h
    have hcl : ∀ cl, ListClauses a cl ↔ checkTexts a = .ok () ∧ cl = a := by
      intro cl
      rw [checkTexts_iff]
      unfold ListClauses
      simp [hnt]
    simp only [hcl]
    rw [show (Value.arr a).toVec = .ok a from rfl, Res.ok_bind]
    rw [show (∃ cl, (checkTexts a = .ok () ∧ cl = a) ∧ ClausesPanic E cl) ↔ checkTexts a = .ok () ∧ ClausesPanic E a by
      constructor
      · rintro ⟨_, ⟨h, rfl⟩, h'⟩; exact ⟨h, h'⟩
      · rintro ⟨h, h'⟩; exact ⟨_, ⟨h, rfl⟩, h'⟩]
    cases hc : checkTexts a with
    | ok _ =>
      simp only [Res.ok_bind, true_and]
      exact processWeighted_panic_iff E a
    | err e => simp
    | panic => exact absurd hc (checkTexts_ne_panic a)
  · rw [if_neg hall]
    have hnl : ¬ ∀ v ∈ a, ∃ c, v = .arr c ∧ AllTexts c := by
      intro h
      exact hall (List.all_eq_true.mpr fun v hv => (toVec_isOk v).mpr (by obtain ⟨c, h, _⟩ := h v hv; exact ⟨c, h⟩))
    have hcl : ∀ cl, ListClauses a cl ↔ checkTexts [.arr a] = .ok () ∧ cl = [.arr a] := by
      intro cl
      rw [checkTexts_iff]
      unfold ListClauses
      simp [hnl]
    simp only [hcl]
    rw [show (Value.arr [.arr a]).toVec = .ok [.arr a] from rfl, Res.ok_bind]
    rw [show (∃ cl, (checkTexts [.arr a] = .ok () ∧ cl = [.arr a]) ∧ ClausesPanic E cl) ↔ checkTexts [.arr a] = .ok () ∧ ClausesPanic E [.arr a] by
      constructor
      · rintro ⟨_, ⟨h, rfl⟩, h'⟩; exact ⟨h, h'⟩
      · rintro ⟨h, h'⟩; exact ⟨_, ⟨h, rfl⟩, h'⟩]
    cases hc : checkTexts [.arr a] with
    | ok _ =>
      simp only [Res.ok_bind, true_and]
      exact processWeighted_panic_iff E [.arr a]
    | err e => simp
    | panic => exact absurd hc (checkTexts_ne_panic _)

theorem i64FromHex_ne_panic (s : Str) : i64FromHex s ≠ .panic := by
  have hpos : ∀ r, i64FromHex.pos r ≠ .panic := by
    intro r
    unfold i64FromHex.pos
    split
    · simp
    · split <;> simp
  cases s with
  | nil => simp [i64FromHex]
  | cons x r =>
    rw [i64FromHex]
    split
    · exact hpos r
    · split
      · split
        · simp
        · split <;> simp
      · exact hpos _

/-- C38: building a threshold as it stands in an event panics exactly on: a list of clauses of texts, or a list of texts taken as one
clause, on whose clauses it panics; and a text that starts with `[` and either denotes a JSON document with a number the library
cannot take, or a JSON list on which it panics. -/
theorem C38_sith_panics_exactly (E : Env) (F : Str → Option Str) :
    (∀ a, ofSith E F (.arr a) = .panic ↔ ∃ cl, ListClauses a cl ∧ ClausesPanic E cl) ∧
    (∀ s, ofSith E F (.str s) = .panic ↔ s.head? = some (ch '[') ∧
      ((∃ v x, Spec.JsonText.Doc F s v ∧ Spec.JsonText.Inside x v ∧ Spec.JsonText.Awkward x) ∨
       ∃ a, Spec.JsonText.Doc F s (.arr a) ∧ (∀ x, Spec.JsonText.Inside x (.arr a) → ¬ Spec.JsonText.Awkward x) ∧ ofSith E F (.arr a) = .panic)) ∧
    (∀ v, (∀ a, v ≠ .arr a) → (∀ s, v ≠ .str s) → ofSith E F v ≠ .panic) := by
  refine ⟨fun a => ?_, fun s => ?_, fun v h1 h2 => ?_⟩
  · rw [ofSith_eq]; exact processSithArray_panic_iff E a
  · rw [ofSith_eq]
    unfold processSith
    by_cases hs : s.head? = some (ch '[')
    · simp only [hs, true_and, if_true]
      obtain ⟨r1, r2, _⟩ := C81_read F s
      rw [Res.bind_eq_panic, r2]
      constructor
      · rintro (h | ⟨v, hv, h⟩)
        · exact .inl h
        · cases v with
          | arr a =>
            obtain ⟨h1, h2⟩ := (r1 _).mp hv
            exact .inr ⟨a, h1, h2, by rw [ofSith_eq]; exact h⟩
          | _ => simp [processSithArray, Value.toVec] at h
      · rintro (h | ⟨a, h1, h2, h⟩)
        · exact .inl h
        · rw [ofSith_eq] at h
          exact .inr ⟨.arr a, (r1 _).mpr ⟨h1, h2⟩, h⟩
    · simp only [hs, false_and, iff_false, if_false]
      intro h
      rcases Res.bind_eq_panic.mp h with h | ⟨n, _, h⟩
      · exact i64FromHex_ne_panic s h
      · exact processUnweighted_ne_panic E n h
  · rw [ofSith_eq]
    cases v with
    | arr a => exact absurd rfl (h1 a)
    | str s => exact absurd rfl (h2 s)
    | int n => exact processUnweighted_ne_panic E n
    | _ => simp [processSith, processSithArray, Value.toVec]

/-- The code at the start of a text is what is cut off, when its length is the one its first character announces. -/
theorem take_of_prefix {code l : Str} {n : Nat} (hp : code <+: l) (hc : code.length = n) : l.take n = code := by
  obtain ⟨t, rfl⟩ := hp
  rw [← hc]
  simp

theorem read_code {l : Str} {m : Matter} (h : Matter.exfil l = .ok m) {c : UInt8} {r : Str} (hl : l = c :: r) {n : Nat}
    (hn : Matter.hardage c = .ok n) : m.code = l.take n := by
  obtain ⟨z, _, hz, hc, _⟩ := Matter.exfil_ok h
  obtain ⟨d, t, hd, hh, _⟩ := (Matter.row_of_sizage hz).hard
  have : d = c := by
    have h1 : m.code.head? = some d := by rw [hd]; rfl
    rw [hc, hl] at h1
    have hs := (Matter.row_of_sizage hz).hs1
    cases hzz : z.hs with
    | zero => omega
    | succ k => rw [hzz] at h1; simp at h1; exact h1.symm
  subst this
  rw [hh] at hn
  injection hn with hn
  rw [hc, hn]

/-- C38: building a threshold from the text of a number or Base64 text primitive (limen) panics exactly when the text is valid UTF-8
and: it is shorter than its code, or a multi-byte character lies across the end of the code; or it starts with one of the number or
text codes and reading the primitive panics; or it is a number whose value panics; or it is a text whose clauses panic. -/
theorem C38_limen_panics_exactly (E : Env) (F : Str → Option Str) (l : List UInt8) : ofLimen E F l = .panic ↔ utf8Valid l = true ∧
    ((∃ c r n, l = c :: r ∧ Spec.codeLength c = some n ∧ (l.length < n ∨ Spec.MidChar l n)) ∨
     (∃ code ∈ Spec.Typed.numberCodes ++ Spec.Typed.textCodes, code <+: l ∧ Matter.ofText E l = .panic) ∨
     (∃ m, Matter.ofText E l = .ok m ∧ m.code ∈ Spec.Typed.numberCodes ∧ Number.num m = .panic) ∨
     (∃ m t, Matter.ofText E l = .ok m ∧ m.code ∈ Spec.Typed.textCodes ∧ Bexter.bext m = .ok t ∧ ofThold E F (bextValue t) = .panic)) := by
  have hnum : ∀ code : Str, Number.hasCode code = true ↔ code ∈ Spec.Typed.numberCodes := by
    intro code; simp [Number.hasCode, Spec.Typed.numberCodes]
  have hbex : ∀ code : Str, Bexter.hasCode code = true ↔ code ∈ Spec.Typed.textCodes := by
    intro code; simp [Bexter.hasCode, Spec.Typed.textCodes]
  have hdisj : ∀ code : Str, code ∈ Spec.Typed.numberCodes → code ∉ Spec.Typed.textCodes := by
    intro code h
    simp only [Spec.Typed.numberCodes, List.mem_cons, List.not_mem_nil, or_false] at h
    rcases h with rfl | rfl | rfl | rfl <;> decide
  cases hl : l with
  | nil =>
    rw [ofLimen_empty]
    simp only [reduceCtorEq, false_iff]
    rintro ⟨_, ⟨c, r, n, h, _⟩ | ⟨code, hc, h, hp⟩ | ⟨m, h, _⟩ | ⟨m, t, h, _⟩⟩
    · cases h
    · cases hp
    · cases h
    · cases h
  | cons c r =>
  rw [← hl]
  rw [ofLimen_eq E F (by rw [hl]; simp)]
  unfold processLimen fromUtf8
  by_cases hu : utf8Valid l = true
  swap
  · simp [hu]
  simp only [hu, if_true, Res.ok_bind, true_and]
  rw [hl]
  simp only
  rw [← hl]
  cases hh : Matter.hardage c with
  | panic => exact absurd hh (Matter.hardage_ne_panic c)
  | err e =>
    have hnc : ∀ n, Spec.codeLength c ≠ some n := fun n h => by
      rw [(hardage_codeLength c n).mpr h] at hh; cases hh
    have hread : Matter.ofText E l = .err e := by
      show Matter.exfil l = _
      rw [hl]
      unfold Matter.exfil
      simp only [hh, Res.err_bind]
    simp only [Res.err_bind, reduceCtorEq, false_iff]
    rintro (⟨c', r', n, h, hn, _⟩ | ⟨code, hc, h, hp⟩ | ⟨m, h, _⟩ | ⟨m, t, h, _⟩)
    · rw [hl] at h
      injection h with h _
      rw [← h] at hn
      exact hnc n hn
    all_goals simp [hread] at *
  | ok n =>
    have hcl := (hardage_codeLength c n).mp hh
    obtain ⟨hn1, hn4⟩ := Matter.hardage_le hh
    simp only [Res.ok_bind]
    by_cases hlong : l.length < n ∨ Spec.MidChar l n
    · have hpan : sliceStr l 0 n = .panic := by
        unfold sliceStr
        rw [if_neg]
        rintro ⟨_, h1, _, h2⟩
        rcases hlong with h | h
        · omega
        · rw [(midChar_iff h1 hn1).mpr h] at h2; cases h2
      rw [hpan]
      simp only [Res.panic_bind, true_iff]
      exact .inl ⟨c, r, n, hl, hcl, hlong⟩
    have hle : n ≤ l.length := by
      by_contra h
      exact hlong (.inl (by omega))
    have hb : isBoundary l n = true := by
      cases h : isBoundary l n with
      | true => rfl
      | false => exact absurd (.inr ((midChar_iff hle hn1).mp h)) hlong
    have hsl : sliceStr l 0 n = .ok (l.take n) := by
      unfold sliceStr
      rw [if_pos ⟨by omega, hle, isBoundary_zero l, hb⟩]
      simp
    rw [hsl, Res.ok_bind]
    have hfirst : ¬ ∃ c r n, l = c :: r ∧ Spec.codeLength c = some n ∧ (l.length < n ∨ Spec.MidChar l n) := by
      rintro ⟨c', r', n', h, hn', hx⟩
      rw [hl] at h
      injection h with h _
      rw [← h, hcl] at hn'
      injection hn' with hn'
      rw [← hn'] at hx
      exact hlong hx
    have hcode : ∀ m, Matter.ofText E l = .ok m → m.code = l.take n := fun m hm => read_code hm hl hh
    have hpre : ∀ code ∈ Spec.Typed.numberCodes ++ Spec.Typed.textCodes, code <+: l → code = l.take n := by
      intro code hc hp
      have hlen : ∃ d t, code = d :: t ∧ Spec.codeLength d = some code.length := by
        have : ∀ code ∈ Spec.Typed.numberCodes ++ Spec.Typed.textCodes, code.head?.bind Spec.codeLength = some code.length := by decide +kernel
        have := this code hc
        cases code with
        | nil => simp at this
        | cons d t => exact ⟨d, t, rfl, this⟩
      obtain ⟨d, t, rfl, hd⟩ := hlen
      have : d = c := by
        obtain ⟨u, hu⟩ := hp
        rw [hl] at hu
        simp only [List.cons_append, List.cons.injEq] at hu
        exact hu.1
      subst this
      rw [hcl] at hd
      injection hd with hd
      exact (take_of_prefix hp hd.symm).symm
    simp only [hfirst, false_or]
    have hnew : Number.new E none none none none none (some l) none = Matter.ofText E l := rfl
    have hbnew : Bexter.new E none none none none (some l) none = (do
        let m ← Matter.ofText E l
        if Bexter.hasCode m.code then .ok m else .err .unexpectedCode) := rfl
    by_cases h1 : Number.hasCode (l.take n) = true
    · have h1' := (hnum _).mp h1
      have h2' := hdisj _ h1'
      rw [if_pos h1, hnew]
      constructor
      · intro h
        rcases Res.bind_eq_panic.mp h with h | ⟨m, hm, h⟩
        · exact .inl ⟨l.take n, by simp [h1'], List.take_prefix n l, h⟩
        rcases Res.bind_eq_panic.mp h with h | ⟨k, hk, h⟩
        · exact .inr (.inl ⟨m, hm, by rw [hcode m hm]; exact h1', h⟩)
        · split at h
          · exact absurd h (processUnweighted_ne_panic E _)
          · simp at h
      · rintro (⟨code, hc, hp, h⟩ | ⟨m, h, _, hp⟩ | ⟨m, t, h, hc, _⟩)
        · rw [h, Res.panic_bind]
        · rw [h, Res.ok_bind, hp, Res.panic_bind]
        · rw [hcode m h] at hc; exact absurd hc h2'
    · have h1' : l.take n ∉ Spec.Typed.numberCodes := fun h => h1 ((hnum _).mpr h)
      rw [if_neg h1]
      by_cases h2 : Bexter.hasCode (l.take n) = true
      · have h2' := (hbex _).mp h2
        rw [if_pos h2, hbnew]
        constructor
        · intro h
          rcases Res.bind_eq_panic.mp h with h | ⟨m, hm, h⟩
          · rcases Res.bind_eq_panic.mp h with h | ⟨m, hm, h⟩
            · exact .inl ⟨l.take n, by simp [h2'], List.take_prefix n l, h⟩
            · split at h <;> simp at h
          obtain ⟨m', hm', hm⟩ := Res.bind_eq_ok.mp hm
          split at hm
          swap
          · simp at hm
          simp only [Res.ok.injEq] at hm
          subst hm
          rcases Res.bind_eq_panic.mp h with h | ⟨t, ht, h⟩
          · exact absurd h (Pather.bext_ne_panic m')
          · exact .inr (.inr ⟨m', t, hm', by rw [hcode m' hm']; exact h2', ht, by rw [ofThold_eq]; exact h⟩)
        · rintro (⟨code, hc, hp, h⟩ | ⟨m, h, hc, hp⟩ | ⟨m, t, h, hc, ht, hp⟩)
          · rw [h]; rfl
          · rw [hcode m h] at hc; exact absurd hc h1'
          · rw [ofThold_eq] at hp
            rw [h, Res.ok_bind, if_pos ((hbex _).mpr hc), Res.ok_bind, ht, Res.ok_bind]
            exact hp
      · have h2' : l.take n ∉ Spec.Typed.textCodes := fun h => h2 ((hbex _).mpr h)
        rw [if_neg h2]
        simp only [reduceCtorEq, false_iff]
        rintro (⟨code, hc, hp, h⟩ | ⟨m, h, hc, hp⟩ | ⟨m, t, h, hc, ht, hp⟩)
        · have := hpre code hc hp
          subst this
          rcases List.mem_append.mp hc with hc | hc
          · exact h1' hc
          · exact h2' hc
        · rw [hcode m h] at hc; exact h1' hc
        · rw [hcode m h] at hc; exact h2' hc

/-! ## Cases -/

theorem dec_one : Spec.DecNumeral (lit "1") 1 := ⟨by decide, by unfold Spec.IsDigits; decide, by decide⟩

/-- `+1/+1` is read, `1/2147483647` too. -/
theorem sample_read : Spec.ReadWeight (lit "+1/+1") 1 ∧ Spec.ReadWeight (lit "1/2147483647") (1 / 2147483647) ∧ Spec.ReadWeight (lit "1/2147483646") (1 / 2147483646) ∧
    Spec.ReadWeight (lit "1/x/") 1 := by
  refine ⟨?_, ?_, ?_, ?_⟩
  · have := Spec.ReadWeight.frac (.plus dec_one) (.plus dec_one) (by decide) (by decide) (by decide) (by decide)
    norm_num at this
    exact this
  · have := Spec.ReadWeight.frac (.plain dec_one) (.plain (s := lit "2147483647") (n := 2147483647) ⟨by decide, by unfold Spec.IsDigits; decide, by decide⟩)
      (by decide) (by decide) (by decide) (by decide)
    norm_num at this ⊢
    exact this
  · have := Spec.ReadWeight.frac (.plain dec_one) (.plain (s := lit "2147483646") (n := 2147483646) ⟨by decide, by unfold Spec.IsDigits; decide, by decide⟩)
      (by decide) (by decide) (by decide) (by decide)
    norm_num at this ⊢
    exact this
  · exact Spec.ReadWeight.one (rest := lit "/x/") (.inr ⟨lit "x", [], rfl⟩)

/-- Zero over zero after a weight that is read; and a sum that does not fit. -/
theorem sample_panics (E : Env) (F : Str → Option Str) :
    ofThold E F (oneClause ["+1/+1", "-0/+00"]) = .panic ∧
    (E.overflowChecks = true → ofThold E F (oneClause ["1/2147483647", "1/2147483646"]) = .panic) := by
  obtain ⟨r1, r2, r3, _⟩ := sample_read
  refine ⟨(C38_value_panics_exactly E F _).mpr ⟨_, rfl, .inl ?_⟩, fun hE => (C38_value_panics_exactly E F _).mpr ⟨_, rfl, .inr ⟨hE, [[1 / 2147483647, 1 / 2147483646]], ?_, ?_⟩⟩⟩
  · exact ⟨[], _, [], [], [.str (lit "+1/+1")], lit "-0/+00", [], [1], rfl, trivial, rfl, ⟨r1, trivial⟩, lit "-0", lit "+00", rfl,
      ⟨lit "-", lit "0", rfl, by decide, by decide, by decide⟩, ⟨lit "+", lit "00", rfl, by decide, by decide, by decide⟩⟩
  · exact ⟨⟨r2, r3, trivial⟩, trivial⟩
  · refine ⟨[], _, [], rfl, by simp, [1 / 2147483647], 1 / 2147483646, [], rfl, ?_⟩
    rintro ⟨h, _⟩
    exact absurd h (by decide +kernel)

end Cesride
