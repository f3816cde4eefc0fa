import Verif.Props.Tholder2
import Verif.Lemmas.KernelRfl

/-! # C38: panics of thresholds, and concrete thresholds -/

namespace Cesride
open Tholder R32

variable {E : Env} {F : Str → Option Str} {a : Option Value} {b : Option (List UInt8)} {c : Option Value} {t : Tholder}

/-! ## C38: evaluation -/

/-- C38: evaluating an unweighted threshold never panics (nor fails). -/
theorem C38_unweighted_evaluation (h : Tholder.new E F a b c = .ok t) {n : Nat} (hn : t.num = .ok (some n)) (E' : Env) (is : List Nat) :
    ∃ r, t.satisfy E' is = .ok r := ⟨_, C34_unweighted_decision h hn E' is⟩

/-- C38, the defect: evaluating a weighted threshold on a position it does not have panics, always and in every profile. -/
theorem C38_out_of_range_panics (h : Tholder.new E F a b c = .ok t) (hn : t.num = .ok none) (E' : Env) {is : List Nat}
    (hout : ∃ i ∈ is, t.size ≤ i) : t.satisfy E' is = .panic := by
  obtain ⟨cs, hcs, _⟩ := C35_weights h hn
  have hw := tholder_cases h hcs
  rw [hw.size] at hout
  exact satisfy_out hw E' hout

/-- C38: on positions it has, evaluating a weighted threshold gives an answer in the profile without overflow checks; with
overflow checks it gives an answer or panics. It never gives an error. -/
theorem C38_weighted_evaluation (h : Tholder.new E F a b c = .ok t) (hn : t.num = .ok none) (E' : Env) {is : List Nat}
    (hin : ∀ i ∈ is, i < t.size) :
    (∃ r, t.satisfy E' is = .ok r) ∨ (t.satisfy E' is = .panic ∧ E'.overflowChecks = true) := by
  obtain ⟨cs, hcs, _⟩ := C35_weights h hn
  have hw := tholder_cases h hcs
  rw [hw.size] at hin
  cases he : E'.overflowChecks with
  | true =>
    rcases satisfy_exact hw he hin with hp | ⟨r, hr, _⟩
    · exact .inr ⟨hp, rfl⟩
    · exact .inl ⟨r, hr E'⟩
  | false =>
    left
    obtain ⟨sats, hl, hm, _, hs⟩ := satisfy_in hw E' hin
    have hck : checkSums false (reps cs) = .ok () := by
      have hsums := hw.sums
      cases hE : E.overflowChecks with
      | false => rw [hE] at hsums; exact hsums
      | true =>
        rw [hE] at hsums
        rcases checkSums_exact cs hw.good with hp | hp
        · rw [hsums] at hp; simp at hp
        · rw [hp, if_pos (checkSums_sound _ hw.good hw.sums)]
    rw [hs, he, hck, Res.ok_bind]
    exact clausesReach_release cs 0 hw.good (by simp only [Spec.positions] at hl; omega)

/-! ## C38: construction -/

theorem zeroText_parse {s : Str} : parseI32 s = .ok 0 ↔ Spec.ZeroText s := by
  have hdig : ∀ (m : Nat) (r : Str), r ≠ [] → (decLoop m 0 r = some 0 ↔ ∀ c ∈ r, c = ch '0') := by
    intro m r hr
    rw [decLoop_zero]
    constructor
    · rintro ⟨h1, h2, _⟩
      have key : ∀ (r : Str) (acc : Nat), Spec.IsDigits r → r.foldl (fun a c => a * 10 + (c.toNat - 48)) acc = 0 → acc = 0 ∧ ∀ c ∈ r, c = ch '0' := by
        intro r
        induction r with
        | nil => intro acc _ h; exact ⟨h, by simp⟩
        | cons x r ih =>
          intro acc hd h
          obtain ⟨h3, h4⟩ := ih (acc * 10 + (x.toNat - 48)) (fun c hc => hd c (by simp [hc])) h
          have hx := hd x (by simp)
          have h5 : 48 ≤ x.toNat := UInt8.le_iff_toNat_le.mp hx.1
          have hx0 : x.toNat = 48 := by omega
          refine ⟨by omega, ?_⟩
          intro c hc
          rcases List.mem_cons.mp hc with rfl | hc
          · exact UInt8.toNat_inj.mp hx0
          · exact h4 c hc
      exact (key r 0 h1 h2).2
    · intro h
      refine ⟨fun c hc => by rw [h c hc]; decide, ?_, Nat.zero_le _⟩
      have key : ∀ r : Str, (∀ c ∈ r, c = ch '0') → r.foldl (fun a c => a * 10 + (c.toNat - 48)) 0 = 0 := by
        intro r
        induction r with
        | nil => intro _; rfl
        | cons x r ih =>
          intro h
          rw [List.foldl_cons, h x (by simp)]
          exact ih (fun c hc => h c (by simp [hc]))
      exact key r h
  have hpos : ∀ r : Str, parseI32.pos r = .ok 0 ↔ r ≠ [] ∧ ∀ c ∈ r, c = ch '0' := by
    intro r
    unfold parseI32.pos
    by_cases hr : r = []
    · simp [hr]
    · rw [if_neg hr, ← hdig (2 ^ 31 - 1) r hr]
      cases hx : decLoop (2 ^ 31 - 1) 0 r with
      | none => simp
      | some n => simp [hr]
  cases s with
  | nil =>
    simp only [parseI32, reduceCtorEq, false_iff]
    rintro ⟨sign, digits, h, _, h2, _⟩
    exact h2 (List.append_eq_nil_iff.mp h.symm).2
  | cons x r =>
    have hzt : ∀ (sg : Str), (sg = lit "+" ∨ sg = lit "-") → x :: r = sg ++ r → (r ≠ [] ∧ ∀ c ∈ r, c = ch '0') → Spec.ZeroText (x :: r) :=
      fun sg h1 h2 h3 => ⟨sg, r, h2, .inr h1, h3.1, h3.2⟩
    have hinv : Spec.ZeroText (x :: r) → ((x = ch '+' ∨ x = ch '-') ∧ r ≠ [] ∧ ∀ c ∈ r, c = ch '0') ∨ (x = ch '0' ∧ ∀ c ∈ r, c = ch '0') := by
      rintro ⟨sign, digits, h, hs, hne, hz⟩
      rcases hs with rfl | rfl | rfl
      · rw [List.nil_append] at h
        subst h
        exact .inr ⟨hz x (by simp), fun c hc => hz c (by simp [hc])⟩
      · have : lit "+" = [ch '+'] := rfl
        rw [this, List.singleton_append, List.cons.injEq] at h
        obtain ⟨rfl, rfl⟩ := h
        exact .inl ⟨.inl rfl, hne, hz⟩
      · have : lit "-" = [ch '-'] := rfl
        rw [this, List.singleton_append, List.cons.injEq] at h
        obtain ⟨rfl, rfl⟩ := h
        exact .inl ⟨.inr rfl, hne, hz⟩
    rw [parseI32]
    by_cases hp : x = ch '+'
    · rw [if_pos hp, hpos]
      constructor
      · exact fun h => hzt (lit "+") (.inl rfl) (by rw [hp]; rfl) h
      · intro h
        rcases hinv h with h | ⟨h, _⟩
        · exact h.2
        · rw [hp] at h; exact absurd h (by decide)
    · rw [if_neg hp]
      by_cases hm : x = ch '-'
      · rw [if_pos hm]
        by_cases hr : r = []
        · rw [if_pos hr]
          simp only [reduceCtorEq, false_iff]
          intro h
          rcases hinv h with h | ⟨h, _⟩
          · exact h.2.1 hr
          · rw [hm] at h; exact absurd h (by decide)
        · rw [if_neg hr]
          constructor
          · intro h
            split at h
            · rename_i n hn
              simp only [Res.ok.injEq] at h
              have : n = 0 := by omega
              subst this
              exact hzt (lit "-") (.inr rfl) (by rw [hm]; rfl) ⟨hr, (hdig _ r hr).mp hn⟩
            · simp at h
          · intro h
            rcases hinv h with h | ⟨h, _⟩
            · rw [(hdig (2 ^ 31) r hr).mpr h.2.2]; rfl
            · rw [hm] at h; exact absurd h (by decide)
      · rw [if_neg hm, hpos]
        constructor
        · intro h
          exact ⟨[], x :: r, rfl, .inl rfl, h.1, h.2⟩
        · intro h
          rcases hinv h with h | ⟨h, h'⟩
          · rcases h.1 with h | h
            · exact absurd h hp
            · exact absurd h hm
          · refine ⟨by simp, ?_⟩
            intro c hc
            rcases List.mem_cons.mp hc with rfl | hc
            · exact h
            · exact h' c hc

theorem parseI32_ne_panic (s : Str) : parseI32 s ≠ .panic := by
  have hpos : ∀ r, parseI32.pos r ≠ .panic := by
    intro r
    unfold parseI32.pos
    split
    · simp
    · split <;> simp
  cases s with
  | nil => simp [parseI32]
  | cons x r =>
    rw [parseI32]
    split
    · exact hpos r
    · split
      · split
        · simp
        · split <;> simp
      · exact hpos _

/-- C38: reading one weight panics exactly on zero over zero. -/
theorem weight_panic (oc : Bool) (s : Str) : weight oc s = .panic ↔ ∃ p q, s = p ++ ch '/' :: q ∧ Spec.ZeroText p ∧ Spec.ZeroText q := by
  constructor
  · intro h
    unfold weight at h
    split at h
    · rename_i p q hs
      have hjoin := join_splitOn (ch '/') s
      rw [hs] at hjoin
      have hsq : s = p ++ ch '/' :: q := by rw [← hjoin]; rfl
      refine ⟨p, q, hsq, ?_⟩
      rcases Res.bind_eq_panic.mp h with h | ⟨n, hn, h⟩
      · exact absurd h (parseI32_ne_panic p)
      rcases Res.bind_eq_panic.mp h with h | ⟨d, hd, h⟩
      · exact absurd h (parseI32_ne_panic q)
      rw [weight_frac oc (parseI32_range hn) (parseI32_range hd)] at h
      split at h
      · simp at h
      · split at h
        · have hd0 : d = 0 := by assumption
          have hn0 : n = 0 := by omega
          rw [hd0] at hd; rw [hn0] at hn
          exact ⟨zeroText_parse.mp hn, zeroText_parse.mp hd⟩
        · simp at h
    · split at h
      · simp at h
      · split at h <;> simp at h
    · rename_i hs
      exact absurd hs (splitOn_ne_nil _ _)
  · rintro ⟨p, q, rfl, hp, hq⟩
    have hz : ∀ {s}, Spec.ZeroText s → ch '/' ∉ s := by
      rintro s ⟨sign, digits, rfl, hs, _, hd⟩ hc
      rcases List.mem_append.mp hc with hc | hc
      · rcases hs with rfl | rfl | rfl
        · simp at hc
        · exact absurd hc (by decide)
        · exact absurd hc (by decide)
      · exact absurd (hd _ hc) (by decide)
    have hs : splitOn (ch '/') (p ++ ch '/' :: q) = [p, q] := by
      rw [splitOn_cons_sep _ _ _ (hz hp), splitOn_self _ _ (hz hq)]
    unfold weight
    rw [hs]
    simp only
    rw [zeroText_parse.mpr hp, zeroText_parse.mpr hq]
    rfl

theorem weights_panic {oc : Bool} : ∀ {vs : List Value}, weights oc vs = .panic → ∃ s, .str s ∈ vs ∧ weight oc s = .panic
  | [], h => by simp [weights] at h
  | v :: vs, h => by
    rw [weights] at h
    rcases Res.bind_eq_panic.mp h with h | ⟨s, hs, h⟩
    · cases v <;> simp [Value.toStr] at h
    have hv : v = .str s := by cases v <;> simp [Value.toStr] at hs; rw [hs]
    rcases Res.bind_eq_panic.mp h with h | ⟨w, _, h⟩
    · exact ⟨s, by simp [hv], h⟩
    rcases Res.bind_eq_panic.mp h with h | ⟨ws, _, h⟩
    · obtain ⟨s', hs', h⟩ := weights_panic h
      exact ⟨s', by simp [hs'], h⟩
    · simp at h

theorem clausesOf_panic {oc : Bool} : ∀ {vs : List Value}, clausesOf oc vs = .panic → ∃ a s, .arr a ∈ vs ∧ .str s ∈ a ∧ weight oc s = .panic
  | [], h => by simp [clausesOf] at h
  | v :: vs, h => by
    rw [clausesOf] at h
    rcases Res.bind_eq_panic.mp h with h | ⟨a, ha, h⟩
    · cases v <;> simp [Value.toVec] at h
    have hv : v = .arr a := by cases v <;> simp [Value.toVec] at ha; rw [ha]
    rcases Res.bind_eq_panic.mp h with h | ⟨w, _, h⟩
    · obtain ⟨s, hs, h⟩ := weights_panic h
      exact ⟨a, s, by simp [hv], hs, h⟩
    rcases Res.bind_eq_panic.mp h with h | ⟨ws, _, h⟩
    · obtain ⟨a', s', ha', hs', h⟩ := clausesOf_panic h
      exact ⟨a', s', by simp [ha'], hs', h⟩
    · simp at h

theorem ofBext_ne_panic (E : Env) {t : Str} (ht : Spec.IsB64Text t) : Bexter.ofBext E (lit "4A") t ≠ .panic := by
  obtain ⟨z, hz, hf, hlast⟩ := bextCodes_row (lit "4A") (by decide +kernel)
  obtain ⟨raw, ls, ws, hr, _⟩ := rawify_spec ht
  have hnp : Matter.newWithCodeAndRaw (lit "4A") raw ≠ .panic := by
    rw [Matter.new_var_trunc hz hf]
    obtain ⟨f, _, _, _, hnew⟩ := Matter.new_var hz hf (raw := raw.take (raw.length % 2 ^ 32)) (by
      rw [List.length_take]
      have : raw.length % 2 ^ 32 < 2 ^ 32 := Nat.mod_lt _ (by decide)
      omega)
    rw [hnew]
    split
    · simp
    · split <;> simp
  show (do let m ← (if Bexter.reB64 t = false then .err .value
                      else do let raw ← Bexter.rawify t; Matter.new E (some (lit "4A")) (some raw) none none none : Res Matter)
           if Bexter.hasCode m.code then .ok m else .err .unexpectedCode) ≠ _
  rw [(reB64_iff t).mpr ht, hr, if_neg (by simp), Res.ok_bind]
  intro h
  rcases Res.bind_eq_panic.mp h with h | ⟨m, _, h⟩
  · exact hnp h
  · split at h <;> simp at h

theorem processWeighted_panic {E : Env} {v : Value} (h : processWeighted E v = .panic) :
    (∃ s, Spec.HasWeightText v s ∧ weight E.overflowChecks s = .panic) ∨
    (E.overflowChecks = true ∧ ∃ cs, (∀ c ∈ cs, Good c) ∧ checkSums true (reps cs) = .panic ∧ ∀ cs', Spec.ThresholdValue v cs' → cs' = cs) := by
  unfold processWeighted at h
  rcases Res.bind_eq_panic.mp h with h | ⟨ws, hw, h⟩
  · unfold valuesToRationals at h
    rcases Res.bind_eq_panic.mp h with h | ⟨x, hx, h⟩
    · cases v <;> simp [Value.toVec] at h
    have hv : v = .arr x := by cases v <;> simp [Value.toVec] at hx; rw [hx]
    rcases Res.bind_eq_panic.mp h with h | ⟨ws, hw, h⟩
    · obtain ⟨y, s, h1, h2, h3⟩ := clausesOf_panic h
      exact .inl ⟨s, ⟨x, y, hv, h1, h2⟩, h3⟩
    rcases Res.bind_eq_panic.mp h with h | ⟨_, _, h⟩
    · obtain ⟨cs, rfl, hg⟩ := clausesOf_ok hw
      cases hE : E.overflowChecks with
      | false => rw [hE] at h; exact absurd h (checkSums_release cs hg)
      | true =>
        rw [hE] at h
        refine .inr ⟨rfl, cs, hg, h, ?_⟩
        rintro cs' ⟨a', e, ht⟩
        rw [hv] at e
        injection e with e
        subst e
        exact (reps_inj (clausesOf_text ht hw)).symm
    · simp at h
  · obtain ⟨cs, rfl, hg, _⟩ := valuesToRationals_ok hw
    rcases Res.bind_eq_panic.mp h with h | ⟨_, _, h⟩
    · exact absurd h (ofBext_ne_panic E (bextText_b64 hg))
    · simp at h

theorem processUnweighted_ne_panic (E : Env) (n : Int) : processUnweighted E n ≠ .panic := by
  unfold processUnweighted
  split
  · simp
  · split
    · simp
    · obtain ⟨x, _, _, _, hx, _⟩ := C28_number_roundtrip E (n := n.toNat) (by omega)
      have hx' : Number.new E (some n.toNat) none none none none none none = .ok x := hx
      rw [hx', Res.ok_bind]
      simp

/-- C38: in the profile without overflow checks, building a threshold from a value panics only if some weight is zero over
zero. -/
theorem C38_construction_release (hE : E.overflowChecks = false) {v : Value} (h : ofThold E F v = .panic) :
    ∃ p q, Spec.HasWeightText v (p ++ ch '/' :: q) ∧ Spec.ZeroText p ∧ Spec.ZeroText q := by
  rw [ofThold_eq] at h
  have hw : processWeighted E v = .panic := by
    unfold processThold at h
    split at h
    · exact absurd h (processUnweighted_ne_panic E _)
    · exact h
  rcases processWeighted_panic hw with ⟨s, h1, h2⟩ | ⟨h1, _⟩
  · obtain ⟨p, q, rfl, hp, hq⟩ := (weight_panic _ s).mp h2
    exact ⟨p, q, h1, hp, hq⟩
  · rw [hE] at h1; simp at h1

/-- C38: the same for a signing threshold given as a value (not as a JSON text): the zero-over-zero weight is in it or in the
single clause it is. -/
theorem C38_construction_release_sith (hE : E.overflowChecks = false) {v : Value} (hstr : ∀ s, v ≠ .str s) (h : ofSith E F v = .panic) :
    ∃ p q, (Spec.HasWeightText v (p ++ ch '/' :: q) ∨ Spec.HasWeightText (.arr [v]) (p ++ ch '/' :: q)) ∧ Spec.ZeroText p ∧ Spec.ZeroText q := by
  rw [ofSith_eq] at h
  have harr : processSithArray E v = .panic := by
    unfold processSith at h
    split at h
    · exact absurd h (processUnweighted_ne_panic E _)
    · exact absurd rfl (hstr _)
    · exact h
  unfold processSithArray at harr
  rcases Res.bind_eq_panic.mp harr with h | ⟨x, hx, h⟩
  · cases v <;> simp [Value.toVec] at h
  split at h
  · simp at h
  have hck : ∀ l : List Value, checkTexts l ≠ .panic := by
    intro l
    induction l with
    | nil => simp [checkTexts]
    | cons v l ih =>
      rw [checkTexts]
      intro h
      rcases Res.bind_eq_panic.mp h with h | ⟨_, _, h⟩
      · cases v <;> simp [Value.toVec] at h
      · split at h
        · exact ih h
        · simp at h
  rcases Res.bind_eq_panic.mp h with h | ⟨_, _, h⟩
  · split at h
    · cases v <;> simp [Value.toVec] at h
    · simp [Value.toVec] at h
  rcases Res.bind_eq_panic.mp h with h | ⟨_, _, h⟩
  · exact absurd h (hck _)
  have fin : ∀ w, processWeighted E w = .panic → ∃ p q, Spec.HasWeightText w (p ++ ch '/' :: q) ∧ Spec.ZeroText p ∧ Spec.ZeroText q := by
    intro w hw
    rcases processWeighted_panic hw with ⟨s, h1, h2⟩ | ⟨h1, _⟩
    · obtain ⟨p, q, rfl, hp, hq⟩ := (weight_panic _ s).mp h2
      exact ⟨p, q, h1, hp, hq⟩
    · rw [hE] at h1; simp at h1
  split at h
  · obtain ⟨p, q, h1, h2⟩ := fin _ h
    exact ⟨p, q, .inl h1, h2⟩
  · obtain ⟨p, q, h1, h2⟩ := fin _ h
    exact ⟨p, q, .inr h1, h2⟩

/-- C38: in every profile, building a threshold from a value panics only if some weight is zero over zero or, with overflow checks, the number of weights of some clause
times their least common denominator reaches `2^31`. -/
theorem C38_construction {v : Value} (h : ofThold E F v = .panic) :
    (∃ p q, Spec.HasWeightText v (p ++ ch '/' :: q) ∧ Spec.ZeroText p ∧ Spec.ZeroText q) ∨
    (E.overflowChecks = true ∧ ∀ cs, Spec.ThresholdValue v cs → ∃ c ∈ cs, 2 ^ 31 ≤ c.length * Spec.commonDenominator c) := by
  rw [ofThold_eq] at h
  have hw : processWeighted E v = .panic := by
    unfold processThold at h
    split at h
    · exact absurd h (processUnweighted_ne_panic E _)
    · exact h
  rcases processWeighted_panic hw with ⟨s, h1, h2⟩ | ⟨h1, cs, hg, hp, hu⟩
  · obtain ⟨p, q, rfl, hp, hq⟩ := (weight_panic _ s).mp h2
    exact .inl ⟨p, q, h1, hp, hq⟩
  · refine .inr ⟨h1, fun cs' hcs => ?_⟩
    rw [hu cs' hcs]
    by_contra hn
    have hb : Bounded cs := fun c hc => Nat.lt_of_not_le fun hle => hn ⟨c, hc, hle⟩
    rw [checkSums_bounded cs hg hb true] at hp
    split at hp <;> cases hp

/-- C38: the same for a signing threshold given as a value (not as a JSON text): a list of clauses, or a single clause. -/
theorem C38_construction_sith {v : Value} (hstr : ∀ s, v ≠ .str s) (h : ofSith E F v = .panic) :
    ∃ w, (w = v ∨ w = .arr [v]) ∧
      ((∃ p q, Spec.HasWeightText w (p ++ ch '/' :: q) ∧ Spec.ZeroText p ∧ Spec.ZeroText q) ∨
      (E.overflowChecks = true ∧ ∀ cs, Spec.ThresholdValue w cs → ∃ c ∈ cs, 2 ^ 31 ≤ c.length * Spec.commonDenominator c)) := by
  have fin : ∀ w, processWeighted E w = .panic → ofThold E F w = .panic ∨ ∃ n, w.toI64 = .ok n := by
    intro w hw
    rw [ofThold_eq]
    unfold processThold
    cases hi : w.toI64 with
    | ok n => exact .inr ⟨n, rfl⟩
    | err e => exact .inl hw
    | panic => exact .inl hw
  have key : ∃ w, (w = v ∨ w = .arr [v]) ∧ processWeighted E w = .panic := by
    rw [ofSith_eq] at h
    have harr : processSithArray E v = .panic := by
      unfold processSith at h
      split at h
      · exact absurd h (processUnweighted_ne_panic E _)
      · exact absurd rfl (hstr _)
      · exact h
    unfold processSithArray at harr
    rcases Res.bind_eq_panic.mp harr with h | ⟨x, hx, h⟩
    · cases v <;> simp [Value.toVec] at h
    split at h
    · simp at h
    have hck : ∀ l : List Value, checkTexts l ≠ .panic := by
      intro l
      induction l with
      | nil => simp [checkTexts]
      | cons v l ih =>
        rw [checkTexts]
        intro h
        rcases Res.bind_eq_panic.mp h with h | ⟨_, _, h⟩
        · cases v <;> simp [Value.toVec] at h
        · split at h
          · exact ih h
          · simp at h
    rcases Res.bind_eq_panic.mp h with h | ⟨_, _, h⟩
    · split at h
      · cases v <;> simp [Value.toVec] at h
      · simp [Value.toVec] at h
    rcases Res.bind_eq_panic.mp h with h | ⟨_, _, h⟩
    · exact absurd h (hck _)
    split at h
    · exact ⟨_, .inl rfl, h⟩
    · exact ⟨_, .inr rfl, h⟩
  obtain ⟨w, hw, hp⟩ := key
  refine ⟨w, hw, ?_⟩
  rcases fin w hp with h | ⟨n, hn⟩
  · exact C38_construction h
  · cases w with
    | int i => simp [processWeighted, valuesToRationals, Value.toVec] at hp
    | _ => simp [Value.toI64] at hn

/-- A threshold value of one clause. -/
def oneClause (ws : List String) : Value := .arr [.arr (ws.map fun s => .str (lit s))]

/-- C38, defects: constructions that panic, in every profile … -/
theorem C38_construction_panics (E : Env) (F : Str → Option Str) :
    ofThold E F (oneClause ["0/0"]) = .panic ∧ ofThold E F (oneClause ["1", "-0/+00"]) = .panic ∧
    ofSith E F (.str (lit "[18446744073709551615]")) = .panic ∧
    ofLimen E F (lit "MAA=") = .panic ∧ ofLimen E F (lit "0") = .panic := by
  refine ⟨?_, ?_, ?_, ?_, ?_⟩
  · have h : valuesToRationals E.overflowChecks (oneClause ["0/0"]) = .panic := by
      cases E.overflowChecks <;> decide +kernel
    rw [ofThold_eq]
    show (do let cs ← valuesToRationals E.overflowChecks (oneClause ["0/0"]); _) = _
    rw [h]; rfl
  · have h : valuesToRationals E.overflowChecks (oneClause ["1", "-0/+00"]) = .panic := by
      cases E.overflowChecks <;> decide +kernel
    rw [ofThold_eq]
    show (do let cs ← valuesToRationals E.overflowChecks (oneClause ["1", "-0/+00"]); _) = _
    rw [h]; rfl
  · have h : Json.fromStr F (lit "[18446744073709551615]") = .panic := by kernel_rfl
    rw [ofSith_eq]
    unfold processSith
    have hh : (lit "[18446744073709551615]").head? = some (ch '[') := rfl
    simp only [if_pos hh]
    rw [h]; rfl
  · rw [ofLimen_eq E F (by decide)]; rfl
  · rw [ofLimen_eq E F (by decide)]; rfl

/-- … and one that panics only with overflow checks, although its weights reach one. -/
theorem C38_construction_overflow (E : Env) (F : Str → Option Str) (hE : E.overflowChecks = true) :
    ofThold E F (oneClause ["1/2147483647", "1/2147483646", "1"]) = .panic := by
  rw [ofThold_eq]
  show processWeighted E _ = _
  unfold processWeighted
  rw [hE]
  have : valuesToRationals true (oneClause ["1/2147483647", "1/2147483646", "1"]) = .panic := by decide +kernel
  rw [this]
  rfl

/-! ## Concrete weighted thresholds -/

theorem build_weighted (E : Env) (F : Str → Option Str) {x : List Value} {cs : List (List Rat)}
    (hv : valuesToRationals E.overflowChecks (.arr x) = .ok (reps cs)) (hg : ∀ c ∈ cs, Good c)
    (hl : (rationalsToBext (reps cs)).length ≤ 4 * (64 ^ 4 - 1)) :
    ∃ t, ofThold E F (.arr x) = .ok t ∧ IsWeighted E t cs := by
  obtain ⟨b, _, _, hb, _⟩ := C31_bext_roundtrip E (code := lit "4A") (by decide +kernel) (bextText_b64 hg) hl
  have hb' : Bexter.new E (some (rationalsToBext (reps cs))) none none none none none = .ok b := hb
  obtain ⟨cs', h1, _, h2, _⟩ := valuesToRationals_ok hv
  have := reps_inj h1
  subst this
  have hw : IsWeighted E { thold := storedValue (reps cs), weighted := true, size := Spec.positions cs, number := none, bexter := some b } cs :=
    ⟨hg, h2, rfl, rfl, rfl, rfl, b, rfl, hb'⟩
  exact ⟨_, by rw [ofThold_eq]; exact processWeighted_of hw hv, hw⟩

/-- Acceptance: clauses of rational weights in `[0, 1]` whose sums fit are accepted exactly when every clause sums to at
least one. The numerals of the texts must fit 31 bits. -/
theorem C35_accepted (E : Env) (F : Str → Option Str) {v : Value} {cs : List (List Rat)} (hv : Spec.ThresholdValue v cs)
    (hfit : ∀ s, Spec.HasWeightText v s → ∀ p q d, s = p ++ ch '/' :: q → Spec.DecNumeral q d → d < 2 ^ 31)
    (hb : ∀ c ∈ cs, c.length * Spec.commonDenominator c < 2 ^ 31) (hp : Spec.positions cs ≤ 3000000) :
    (∃ t, ofThold E F v = .ok t) ↔ ∀ c ∈ cs, 1 ≤ c.sum := by
  have hwt : ∀ s q, Spec.HasWeightText v s → Spec.WeightText s q → weight E.overflowChecks s = .ok (rep q) := by
    intro s q hs hq
    cases hq with
    | zero => rfl
    | one => rfl
    | @frac p q n d h1 h2 h3 h4 =>
      exact weight_text_fits _ h1 h2 h3 h4 (hfit _ hs p q d rfl h2)
  obtain ⟨x, rfl, hx⟩ := hv
  have hws : ∀ (a : List Value) (c : List Rat), (∀ s, .str s ∈ a → Spec.HasWeightText (.arr x) s) → Spec.ClauseTexts a c →
      weights E.overflowChecks a = .ok (c.map rep) := by
    intro a
    induction a with
    | nil => intro c _ h; cases c with
      | nil => rfl
      | cons _ _ => exact absurd h (by simp [Spec.ClauseTexts])
    | cons v a ih =>
      intro c hs h
      cases c with
      | nil => cases v <;> exact absurd h (by simp [Spec.ClauseTexts])
      | cons q c =>
        cases v <;> simp only [Spec.ClauseTexts] at h
        rename_i s
        rw [weights]
        show (do let w ← weight E.overflowChecks s; _) = _
        rw [hwt s q (hs s (by simp)) h.1, Res.ok_bind, ih c (fun s' h' => hs s' (by simp [h'])) h.2]
        rfl
  have hcl : ∀ (a : List Value) (cs : List (List Rat)), (∀ b, .arr b ∈ a → .arr b ∈ x) → Spec.ClausesTexts a cs →
      clausesOf E.overflowChecks a = .ok (reps cs) := by
    intro a
    induction a with
    | nil => intro c _ h; cases c with
      | nil => rfl
      | cons _ _ => exact absurd h (by simp [Spec.ClausesTexts])
    | cons v a ih =>
      intro cs hs h
      cases cs with
      | nil => cases v <;> exact absurd h (by simp [Spec.ClausesTexts])
      | cons c cs =>
        cases v <;> simp only [Spec.ClausesTexts] at h
        rename_i b
        rw [clausesOf]
        show (do let w ← weights E.overflowChecks b; _) = _
        rw [hws b c (fun s hsb => ⟨x, b, rfl, hs b (by simp), hsb⟩) h.1, Res.ok_bind, ih cs (fun b' h' => hs b' (by simp [h'])) h.2]
        rfl
  have hc := hcl x cs (fun _ h => h) hx
  obtain ⟨cs', h1, hg⟩ := clausesOf_ok hc
  have := reps_inj h1
  subst this
  have hval : valuesToRationals E.overflowChecks (.arr x) = (do checkSums E.overflowChecks (reps cs); .ok (reps cs)) := by
    unfold valuesToRationals
    show (do let cs ← clausesOf E.overflowChecks x; _) = _
    rw [hc, Res.ok_bind]
  rw [checkSums_bounded cs hg hb] at hval
  constructor
  · rintro ⟨t, ht⟩
    by_contra hno
    rw [if_neg hno] at hval
    rw [ofThold_eq] at ht
    have : processWeighted E (.arr x) = .ok t := ht
    unfold processWeighted at this
    rw [hval] at this
    simp at this
  · intro hall
    rw [if_pos hall, Res.ok_bind] at hval
    by_cases hne : cs = []
    · subst hne
      obtain ⟨t, ht, _⟩ := build_weighted E F hval hg (by decide)
      exact ⟨t, ht⟩
    · have hn : ∀ c ∈ cs, Good c ∧ c ≠ [] := by
        intro c hc
        refine ⟨hg c hc, ?_⟩
        rintro rfl
        have := hall _ hc
        norm_num at this
      have := bextText_length hne hn
      obtain ⟨t, ht, _⟩ := build_weighted E F hval hg (by omega)
      exact ⟨t, ht⟩

/-- The weights `1/2`, `1/2`, `1/2` in one clause and `1`, `1` in another: accepted everywhere; needs two of the first three
and one of the last two. -/
def C35_sample : Value := .arr [.arr [.str (lit "1/2"), .str (lit "2/4"), .str (lit "1/2")], .arr [.str (lit "1"), .str (lit "1")]]

theorem C35_sample_value : Spec.ThresholdValue C35_sample [[1/2, 1/2, 1/2], [1, 1]] := by
  have num : ∀ (s : String) (n : Nat), lit s ≠ [] → Spec.IsDigits (lit s) → Spec.decNum (lit s) = n → Spec.DecNumeral (lit s) n :=
    fun _ _ h1 h2 h3 => ⟨h1, h2, h3⟩
  have one := num "1" 1 (by decide) (by unfold Spec.IsDigits; decide) (by decide)
  have two := num "2" 2 (by decide) (by unfold Spec.IsDigits; decide) (by decide)
  have four := num "4" 4 (by decide) (by unfold Spec.IsDigits; decide) (by decide)
  have h12 : Spec.WeightText (lit "1/2") (1 / 2) := by
    have := Spec.WeightText.frac one two (by decide) (by decide)
    have e : lit "1" ++ ch '/' :: lit "2" = lit "1/2" := by rfl
    rw [e] at this
    norm_num at this
    norm_num
    exact this
  have h24 : Spec.WeightText (lit "2/4") (1 / 2) := by
    have := Spec.WeightText.frac two four (by decide) (by decide)
    have e : lit "2" ++ ch '/' :: lit "4" = lit "2/4" := by rfl
    rw [e] at this
    norm_num at this
    norm_num
    exact this
  exact ⟨_, rfl, ⟨h12, h24, h12, trivial⟩, ⟨.one, .one, trivial⟩, trivial⟩

/-- The theorems above apply to it. -/
theorem C35_sample_accepted (E : Env) (F : Str → Option Str) :
    ∃ t, ofThold E F C35_sample = .ok t ∧ t.num = .ok none ∧ t.size = 5 ∧
      Spec.ThresholdValue t.thold [[1/2, 1/2, 1/2], [1, 1]] ∧ t.satisfy E [4, 0, 2] = .ok true ∧ t.satisfy E [3, 1] = .ok false := by
  have hb : ∀ c ∈ ([[1/2, 1/2, 1/2], [1, 1]] : List (List Rat)), c.length * Spec.commonDenominator c < 2 ^ 31 := by decide +kernel
  have hfit : ∀ s, Spec.HasWeightText C35_sample s → ∀ p q d, s = p ++ ch '/' :: q → Spec.DecNumeral q d → d < 2 ^ 31 := by
    rintro s ⟨a, c, ha, hc, hs⟩ p q d rfl ⟨_, hq, hd⟩
    have hlen : (p ++ ch '/' :: q).length ≤ 3 := by
      simp only [C35_sample, Value.arr.injEq] at ha
      subst ha
      simp only [List.mem_cons, List.not_mem_nil, or_false, Value.arr.injEq] at hc
      rcases hc with rfl | rfl <;> simp only [List.mem_cons, List.not_mem_nil, or_false, Value.str.injEq] at hs
      · rcases hs with hs | hs | hs <;> rw [hs] <;> decide
      · rcases hs with hs | hs <;> rw [hs] <;> decide
    simp only [List.length_append, List.length_cons] at hlen
    have key : ∀ (q : Str) (acc : Nat), Spec.IsDigits q → q.foldl (fun a c => a * 10 + (c.toNat - 48)) acc ≤ (acc + 1) * 256 ^ q.length := by
      intro q
      induction q with
      | nil => intro acc _; simp
      | cons x q ih =>
        intro acc h
        have hx : x.toNat - 48 ≤ 9 := by
          have := UInt8.le_iff_toNat_le.mp (h x (by simp)).2
          have e : (ch '9').toNat = 57 := rfl
          omega
        have := ih (acc * 10 + (x.toNat - 48)) (fun c hc => h c (by simp [hc]))
        rw [List.foldl_cons, List.length_cons, Nat.pow_succ]
        refine Nat.le_trans this ?_
        rw [Nat.mul_comm (256 ^ _) 256, ← Nat.mul_assoc]
        exact Nat.mul_le_mul_right _ (by omega)
    have h1 := key q 0 hq
    have h2 : 256 ^ q.length ≤ 256 ^ 2 := Nat.pow_le_pow_right (by decide) (by omega)
    have : d ≤ (0 + 1) * 256 ^ q.length := hd ▸ h1
    omega
  obtain ⟨t, ht⟩ := (C35_accepted E F C35_sample_value hfit hb (by decide)).mpr (by
    intro c hc
    simp only [List.mem_cons, List.not_mem_nil, or_false] at hc
    rcases hc with rfl | rfl <;> norm_num)
  have hcs := C35_weights_given ht C35_sample_value
  have hw := tholder_cases ht hcs
  refine ⟨t, ht, by simp [num, hw.weighted], hw.size, hcs, ?_, ?_⟩
  · obtain ⟨b, h1, h2⟩ := C35_exact_when_small ht hcs hb (is := [4, 0, 2]) (by decide)
    rw [h1 E, h2.mpr]
    simp only [Spec.Satisfied, Spec.SatisfiedFrom, Spec.heldWeight]
    norm_num
  · obtain ⟨b, h1, h2⟩ := C35_exact_when_small ht hcs hb (is := [3, 1]) (by decide)
    rw [h1 E]
    cases b with
    | false => rfl
    | true =>
      have := h2.mp rfl
      simp only [Spec.Satisfied, Spec.SatisfiedFrom, Spec.heldWeight] at this
      norm_num at this

/-- A clause of four weights, two of them with large denominators. -/
def C36_sample : Value := oneClause ["1", "34653/40324", "35680/40497", "1"]

/-- C35, C36, defect: without overflow checks the sums wrap. Here one position of weight one satisfies the threshold, and
adding two more signatures un-satisfies it. -/
theorem C36_not_monotone_release (E : Env) (F : Str → Option Str) (hE : E.overflowChecks = false) :
    ∃ t, ofThold E F C36_sample = .ok t ∧ t.satisfy E [0] = .ok true ∧ t.satisfy E [0, 1, 2] = .ok false := by
  have hv : ∃ cs, valuesToRationals false C36_sample = .ok cs := by
    have : (valuesToRationals false C36_sample).isOk = true := by decide +kernel
    cases h : valuesToRationals false C36_sample with
    | ok cs => exact ⟨cs, rfl⟩
    | err e => rw [h] at this; simp [Res.isOk] at this
    | panic => rw [h] at this; simp [Res.isOk] at this
  obtain ⟨ws, hv⟩ := hv
  obtain ⟨cs, rfl, hg, _⟩ := valuesToRationals_ok hv
  have hshort : (rationalsToBext (reps cs)).length ≤ 4 * (64 ^ 4 - 1) := by
    have : (match valuesToRationals false C36_sample with | .ok cs => decide ((rationalsToBext cs).length ≤ 4 * (64 ^ 4 - 1)) | _ => false) = true := by
      decide +kernel
    rw [hv] at this
    simpa using this
  obtain ⟨t, ht, hw⟩ := build_weighted E F (x := [.arr (["1", "34653/40324", "35680/40497", "1"].map fun s => .str (lit s))]) (cs := cs)
    (by rw [hE]; exact hv) hg hshort
  have hpos : Spec.positions cs = 4 := by
    have : (match valuesToRationals false C36_sample with | .ok cs => decide ((cs.map List.length).sum = 4) | _ => false) = true := by
      decide +kernel
    rw [hv] at this
    have := of_decide_eq_true this
    rwa [size_reps] at this
  have hs : ∀ is sats, mark (List.replicate 4 false) (dedup is.mergeSort) = .ok sats → t.satisfy E is = (do
      let cs ← valuesToRationals false C36_sample; clausesReach false sats 0 cs) := by
    intro is sats hm
    rw [satisfy_weighted_eq hw, satisfyWeighted, hw.size, hpos, hm, hE, hw.thold, valuesToRationals_stored _ hg]
    have hck := hw.sums
    rw [hE] at hck
    rw [hck, hv]
    rfl
  refine ⟨t, ht, ?_, ?_⟩
  · rw [hs [0] [true, false, false, false] (by simp [List.mergeSort, dedup, mark, List.replicate])]
    decide +kernel
  · rw [hs [0, 1, 2] [true, true, true, false] (by
      have : List.mergeSort [0, 1, 2] = [0, 1, 2] := List.mergeSort_of_pairwise (by decide)
      rw [this]; rfl)]
    decide +kernel

/-- C35, defect: a text with two or more slashes is accepted, and counts as its first part. -/
theorem C35_extra_slashes (oc : Bool) (p q r : Str) (hp : ch '/' ∉ p) (hq : ch '/' ∉ q) :
    weight oc (p ++ ch '/' :: (q ++ ch '/' :: r)) =
      if p = lit "0" then .ok ⟨0, 1⟩ else if p = lit "1" then .ok ⟨1, 1⟩ else .err .value := by
  unfold weight
  rw [splitOn_cons_sep _ _ _ hp, splitOn_cons_sep _ _ _ hq]
  cases h : splitOn (ch '/') r with
  | nil => exact absurd h (splitOn_ne_nil _ _)
  | cons x xs => rfl

/-- C35, defect, at the API: the weight text `1/99/100` counts as a full weight. -/
theorem C35_extra_slashes_accepted (E : Env) (F : Str → Option Str) :
    ∃ t, ofThold E F (oneClause ["1/99/100"]) = .ok t ∧ t.thold = oneClause ["1"] ∧ t.satisfy E [0] = .ok true := by
  have hv : valuesToRationals E.overflowChecks (oneClause ["1/99/100"]) = .ok (reps [[1]]) := by
    have hr : reps [[1]] = [[⟨1, 1⟩]] := by rfl
    rw [hr]
    cases E.overflowChecks <;> decide +kernel
  have hg : ∀ c ∈ ([[1]] : List (List Rat)), Good c := by
    intro c hc
    simp only [List.mem_cons, List.not_mem_nil, or_false] at hc
    subst hc
    intro q hq
    simp only [List.mem_cons, List.not_mem_nil, or_false] at hq
    subst hq
    exact ⟨le_refl _, one_small⟩
  obtain ⟨t, ht, hw⟩ := build_weighted E F (cs := [[1]]) hv hg (by decide +kernel)
  refine ⟨t, ht, by rw [hw.thold]; kernel_rfl, ?_⟩
  exact C36_full_set ht (hw.thold ▸ stored_value hg) E (.inl rfl) (is := [0]) (by intro i; simp [Spec.positions])

end Cesride
