import Verif.Lemmas.Tholder5
import Verif.Props.Tholder

/-! # C37, C38: thresholds, serialization and panics; concrete cases -/

namespace Cesride
open Tholder R32

variable {E : Env} {F : Str → Option Str} {a : Option Value} {b : Option (List UInt8)} {c : Option Value} {t : Tholder}

theorem clauses_nonempty (hw : IsWeighted E t cs) : ∀ c ∈ cs, Good c ∧ c ≠ [] := by
  intro c hc
  refine ⟨hw.good c hc, ?_⟩
  rintro rfl
  have := checkSums_sound _ hw.good hw.sums _ hc
  norm_num at this

theorem weighted_size (hw : IsWeighted E t cs) (hs : t.num = .ok none → t.size < 2 ^ 27 ∧ t.thold ≠ .arr []) :
    Spec.positions cs < 2 ^ 27 ∧ cs ≠ [] := by
  obtain ⟨h1, h2⟩ := hs (by simp [num, hw.weighted])
  rw [hw.size] at h1
  refine ⟨h1, ?_⟩
  rintro rfl
  exact h2 hw.thold

theorem limen_weighted (F : Str → Option Str) (hw : IsWeighted E t cs) (hne : cs ≠ []) (hp : Spec.positions cs < 2 ^ 27) :
    ∃ l, t.limen E = .ok l ∧ ofLimen E F l = .ok t := by
  have hcs := clauses_nonempty hw
  obtain ⟨x, hb, hx⟩ := hw.bexter
  have hx' : Bexter.ofBext E (lit "4A") (rationalsToBext (reps cs)) = .ok x := hx
  have htl := bextText_length hne hcs
  have ht := bextText_b64 hw.good
  have hl : (rationalsToBext (reps cs)).length ≤ 4 * (64 ^ 4 - 1) := by
    by_contra hlt
    rw [ofBext_too_long E ht (by omega) (by omega)] at hx'
    simp at hx'
  obtain ⟨y, q, _, h1, h2, h3, h4, _, h5, h6, _⟩ := C31_bext_roundtrip E (code := lit "4A") (by decide +kernel) ht hl
  rw [hx'] at h1
  injection h1 with h1
  subst h1
  rw [if_neg (fun h => bextText_head hne hcs h.2)] at h3
  refine ⟨q, by simp only [limen, hw.weighted, hb, if_true]; exact h4, ?_⟩
  have hex : Matter.exfil q = .ok x := by
    have : Bexter.ofText E q = (do let m ← Matter.exfil q; if Bexter.hasCode m.code then .ok m else .err .unexpectedCode) := rfl
    rw [this] at h5
    obtain ⟨m, hm, h5⟩ := Res.bind_eq_ok.mp h5
    split at h5
    · injection h5 with h5; rw [hm, h5]
    · simp at h5
  have hutf : fromUtf8 q = .ok q := by
    have : Bexter.ofTextBytes E q = (do let m ← (do let q ← fromUtf8 q; Matter.exfil q : Res Matter); if Bexter.hasCode m.code then .ok m else .err .unexpectedCode) := rfl
    rw [this] at h6
    obtain ⟨m, hm, _⟩ := Res.bind_eq_ok.mp h6
    obtain ⟨q', hq', _⟩ := Res.bind_eq_ok.mp hm
    have hq2 := hq'
    unfold fromUtf8 at hq2
    split at hq2
    · injection hq2 with hq2; rw [hq', hq2]
    · simp at hq2
  obtain ⟨c0, r, hs, hq, hhard, hslice⟩ := Matter.exfil_hard hex
  have hqne : q ≠ [] := by rw [hq]; simp
  rw [ofLimen_eq E F hqne]
  unfold processLimen
  rw [hutf, Res.ok_bind]
  subst hq
  simp only
  rw [hhard, Res.ok_bind, hslice, Res.ok_bind]
  have hnn : Number.hasCode x.code = false := by
    have : ∀ c ∈ Spec.bextCodes, Number.hasCode c = false := by decide +kernel
    exact this _ h2
  have hbb : Bexter.hasCode x.code = true := by
    have : ∀ c ∈ Spec.bextCodes, Bexter.hasCode c = true := by decide +kernel
    exact this _ h2
  rw [hnn, hbb]
  simp only [Bool.false_eq_true, if_false, if_true]
  have h5' : Bexter.new E none none none none (some (c0 :: r)) none = .ok x := h5
  rw [h5', Res.ok_bind, h3, Res.ok_bind, bextValue_stored hne hcs]
  apply processWeighted_of hw
  rw [valuesToRationals_stored _ hw.good, hw.sums]
  rfl

theorem limen_number (F : Str → Option Str) {n : Nat} (hm : IsNumber E t n) : ∃ l, t.limen E = .ok l ∧ ofLimen E F l = .ok t := by
  have hf := hm.fits
  obtain ⟨x, hx, hx'⟩ := hm.number
  obtain ⟨y, _, q, _, h1, h2, _, _, _, ⟨size, h3, _⟩, _, h4, _, h5, h6, _⟩ := C28_number_roundtrip E (n := n) (by omega)
  rw [hx'] at h1
  injection h1 with h1
  subst h1
  refine ⟨q, by simp only [limen, hm.weighted, hx, Bool.false_eq_true, if_false]; exact h4, ?_⟩
  have hex : Matter.exfil q = .ok x := h5
  have hutf : fromUtf8 q = .ok q := by
    have : Number.ofTextBytes E q = (do let q ← fromUtf8 q; Matter.exfil q) := rfl
    rw [this] at h6
    obtain ⟨q', hq', _⟩ := Res.bind_eq_ok.mp h6
    have hq2 := hq'
    unfold fromUtf8 at hq2
    split at hq2
    · injection hq2 with hq2; rw [hq', hq2]
    · simp at hq2
  obtain ⟨c0, r, hs, hq, hhard, hslice⟩ := Matter.exfil_hard hex
  have hqne : q ≠ [] := by rw [hq]; simp
  rw [ofLimen_eq E F hqne]
  unfold processLimen
  rw [hutf, Res.ok_bind]
  subst hq
  simp only
  rw [hhard, Res.ok_bind, hslice, Res.ok_bind]
  have hnn : Number.hasCode x.code = true := by
    have : ∀ p ∈ Spec.numberCodes, Number.hasCode p.1 = true := by decide +kernel
    exact this _ h3
  rw [hnn]
  simp only [if_true]
  have h5' : Number.new E none none none none none (some (c0 :: r)) none = .ok x := h5
  rw [h5', Res.ok_bind, h2, Res.ok_bind, if_pos (by omega)]
  exact processUnweighted_of hm

/-- C37: the threshold rebuilt from `limen()` is the same threshold, hence makes the same decisions. (Thresholds of fewer
than 2^27 weights; the empty threshold is the exception `C37_empty_exception`.) -/
theorem C37_limen (h : Tholder.new E F a b c = .ok t) (hs : t.num = .ok none → t.size < 2 ^ 27 ∧ t.thold ≠ .arr []) :
    ∃ l, t.limen E = .ok l ∧ ofLimen E F l = .ok t := by
  rcases new_shaped h with ⟨n, hm⟩ | ⟨cs, hw⟩
  · exact limen_number F hm
  · obtain ⟨h1, h2⟩ := weighted_size hw hs
    exact limen_weighted F hw h2 h1

theorem sith_number (hm : IsNumber E t n) : t.sith = .ok (.str (hexStr n)) ∧ processSith E F (.str (hexStr n)) = .ok t := by
  have hf := hm.fits
  have h1 : t.thold.toI64 = .ok (n : Int) := by rw [hm.thold]; rfl
  refine ⟨?_, ?_⟩
  · unfold sith
    rw [hm.weighted, if_neg (by simp), h1, Res.ok_bind]
    unfold i64Hex
    have : ((n : Int) % 2 ^ 64).toNat = n := by omega
    rw [this]
  · unfold processSith
    have : (hexStr n).head? ≠ some (ch '[') := by
      intro hh
      have hc := (hexStr_canonical n).2.1 (ch '[') (List.mem_of_head? hh)
      revert hc
      decide +kernel
    simp only [if_neg this]
    rw [i64FromHex_hexStr (by omega), Res.ok_bind]
    exact processUnweighted_of hm

theorem checkTexts_stored : ∀ cs : List (List R32), checkTexts (cs.map fun c => .arr (c.map fun w => .str (weightText (ch '/') w))) = .ok ()
  | [] => rfl
  | c :: cs => by
    have ih := checkTexts_stored cs
    rw [List.map_cons, checkTexts]
    simp only [Value.toVec, Res.ok_bind]
    rw [if_pos, ih]
    simp [Value.toStr, Res.isOk]

theorem sith_weighted (hw : IsWeighted E t cs) (hne : cs ≠ []) :
    ∃ x, t.sith = .ok (.arr x) ∧ processSithArray E (.arr x) = .ok t ∧
      ((∃ c, cs = [c] ∧ .arr x = Value.arr ((c.map rep).map fun w => .str (weightText (ch '/') w))) ∨ .arr x = storedValue (reps cs)) := by
  have hcs := clauses_nonempty hw
  have hfin : processWeighted E (storedValue (reps cs)) = .ok t := by
    apply processWeighted_of hw
    rw [valuesToRationals_stored _ hw.good, hw.sums]
    rfl
  have hck : ∀ {a}, storedValue (reps cs) = .arr a → checkTexts a = .ok () := by
    intro a ha
    unfold storedValue at ha
    injection ha with ha
    rw [← ha]
    exact checkTexts_stored _
  have htv : ∀ x : List Value, (Value.arr x).toVec = .ok x := fun _ => rfl
  match cs, hne with
  | [c], _ =>
    have hc : c ≠ [] := (hcs c (by simp)).2
    refine ⟨(c.map rep).map fun w => .str (weightText (ch '/') w), ?_, ?_, .inl ⟨c, rfl, rfl⟩⟩
    · unfold sith
      rw [hw.weighted, if_pos rfl, hw.thold]
      rfl
    · unfold processSithArray
      rw [htv, Res.ok_bind, if_neg (by simpa using hc)]
      have : ¬ (((c.map rep).map fun w => Value.str (weightText (ch '/') w)).all fun c => c.toVec.isOk) = true := by
        cases c with
        | nil => exact absurd rfl hc
        | cons q c => simp only [List.map_cons, List.all_cons]; simp [Value.toVec, Res.isOk]
      simp only [if_neg this]
      have hck' : checkTexts [Value.arr ((c.map rep).map fun w => .str (weightText (ch '/') w))] = .ok () := hck rfl
      rw [htv, Res.ok_bind, hck', Res.ok_bind]
      exact hfin
  | c :: d :: cs, _ =>
    refine ⟨(reps (c :: d :: cs)).map fun c => .arr (c.map fun w => .str (weightText (ch '/') w)), ?_, ?_, .inr rfl⟩
    · unfold sith
      rw [hw.weighted, if_pos rfl, hw.thold]
      unfold storedValue
      rw [htv, Res.ok_bind, if_neg (by simp [reps])]
    · unfold processSithArray
      rw [htv, Res.ok_bind, if_neg (by simp [reps])]
      have : (((reps (c :: d :: cs)).map fun c => Value.arr (c.map fun w => .str (weightText (ch '/') w))).all fun c => c.toVec.isOk) = true := by
        simp [Value.toVec, Res.isOk]
      simp only [if_pos this]
      rw [htv, Res.ok_bind, hck rfl, Res.ok_bind]
      exact hfin

/-- C37: the threshold rebuilt from `sith()` is the same threshold. -/
theorem C37_sith (h : Tholder.new E F a b c = .ok t) (hs : t.thold ≠ .arr []) : ∃ s, t.sith = .ok s ∧ ofSith E F s = .ok t := by
  rcases new_shaped h with ⟨n, hm⟩ | ⟨cs, hw⟩
  · exact ⟨_, (sith_number (F := F) hm).1, by rw [ofSith_eq]; exact (sith_number hm).2⟩
  · obtain ⟨x, h1, h2, _⟩ := sith_weighted hw (by rintro rfl; exact hs hw.thold)
    exact ⟨_, h1, by rw [ofSith_eq]; exact h2⟩

/-- C37: the threshold rebuilt from `thold()` is the same threshold, without exception. -/
theorem C37_thold (h : Tholder.new E F a b c = .ok t) : ofThold E F t.thold = .ok t := by
  rw [ofThold_eq]
  rcases new_shaped h with ⟨n, hm⟩ | ⟨cs, hw⟩
  · rw [hm.thold]; exact processUnweighted_of hm
  · have h1 : processThold E t.thold = processWeighted E t.thold := by rw [hw.thold]; rfl
    rw [h1]
    apply processWeighted_of hw
    rw [hw.thold, valuesToRationals_stored _ hw.good, hw.sums]
    rfl

theorem plain_texts (f : R32 → Str) : ∀ c : List R32, Spec.PlainElems (c.map fun w => .str (f w))
  | [] => trivial
  | _ :: c => ⟨trivial, plain_texts f c⟩

theorem depth_texts (f : R32 → Str) : ∀ c : List R32, Spec.depthElems (c.map fun w => .str (f w)) = 0
  | [] => rfl
  | _ :: c => by simp [Spec.depthElems, Spec.depth, depth_texts f c]

theorem plain_stored (f : R32 → Str) : ∀ cs : List (List R32), Spec.PlainElems (cs.map fun c => .arr (c.map fun w => .str (f w)))
  | [] => trivial
  | c :: cs => ⟨plain_texts f c, plain_stored f cs⟩

theorem depth_stored (f : R32 → Str) : ∀ cs : List (List R32), Spec.depthElems (cs.map fun c => .arr (c.map fun w => .str (f w))) ≤ 1
  | [] => by simp [Spec.depthElems]
  | c :: cs => by
    have := depth_stored f cs
    simp only [List.map_cons, Spec.depthElems, Spec.depth, depth_texts]
    omega

theorem floatsRead_texts {F : Str → Option Str} (f : R32 → Str) (c : List R32) : Spec.FloatsRead F (.arr (c.map fun w => .str (f w))) := by
  rw [Spec.floatsRead_arr]
  intro v hv t ht
  obtain ⟨w, _, rfl⟩ := List.mem_map.mp hv
  cases ht

theorem floatsRead_stored {F : Str → Option Str} (f : R32 → Str) (cs : List (List R32)) :
    Spec.FloatsRead F (.arr (cs.map fun c => .arr (c.map fun w => .str (f w)))) := by
  rw [Spec.floatsRead_arr]
  intro v hv
  obtain ⟨w, _, rfl⟩ := List.mem_map.mp hv
  exact floatsRead_texts f w

/-- C37: the JSON text of a threshold parses back to its `sith`, and a weighted threshold is rebuilt directly from it. -/
theorem C37_json (h : Tholder.new E F a b c = .ok t) (hs : t.thold ≠ .arr []) :
    ∃ s j, t.sith = .ok s ∧ t.toJson = .ok j ∧ Json.fromStr F j = .ok s ∧ ofSith E F s = .ok t ∧
      (t.num = .ok none → ofSith E F (.str j) = .ok t) := by
  rcases new_shaped h with ⟨n, hm⟩ | ⟨cs, hw⟩
  · obtain ⟨h1, h2⟩ := sith_number (F := F) hm
    refine ⟨_, (Value.str (hexStr n)).toJson, h1, by rw [toJson, h1]; rfl, ?_, by rw [ofSith_eq]; exact h2, ?_⟩
    · exact C39_roundtrip F (v := .str (hexStr n)) trivial (Spec.floatsRead_of_noFloats F rfl)
    · rw [num_number hm]; simp
  · obtain ⟨x, h1, h2, h3⟩ := sith_weighted hw (by rintro rfl; exact hs hw.thold)
    have hpd : Spec.Plain (.arr x) ∧ Spec.depth (.arr x) < 128 ∧ Spec.FloatsRead F (.arr x) := by
      rcases h3 with ⟨c, _, h3⟩ | h3
      · rw [h3]
        exact ⟨plain_texts _ _, by rw [Spec.depth, depth_texts]; omega, floatsRead_texts _ _⟩
      · rw [h3]
        refine ⟨plain_stored _ _, ?_, floatsRead_stored _ _⟩
        have := depth_stored (weightText (ch '/')) (reps cs)
        simp only [storedValue, Spec.depth]
        omega
    have hj : Json.fromStr F (Value.arr x).toJson = .ok (.arr x) := by rw [C39_roundtrip F hpd.1 hpd.2.2, if_pos hpd.2.1]
    refine ⟨_, (Value.arr x).toJson, h1, by rw [toJson, h1]; rfl, hj, by rw [ofSith_eq]; exact h2, fun _ => ?_⟩
    rw [ofSith_eq]
    unfold processSith
    have hh : (Value.arr x).toJson.head? = some (ch '[') := by rw [Value.toJson]; rfl
    simp only [if_pos hh]
    rw [hj, Res.ok_bind]
    exact h2

/-- C37, the exception: `thold` accepts an empty list of clauses (it is satisfied by no signatures at all), but neither its
limen nor its sith is accepted. -/
theorem C37_empty_exception (E : Env) (F : Str → Option Str) :
    ∃ t l s, ofThold E F (.arr []) = .ok t ∧ t.satisfy E [] = .ok true ∧ t.limen E = .ok l ∧ t.sith = .ok s ∧
      ofLimen E F l = .err .value ∧ ofSith E F s = .err .value := by
  obtain ⟨x, q, _, h1, h2, h3, h4, _, h5, h6, _⟩ := C31_bext_roundtrip E (code := lit "4A") (t := []) (by decide +kernel) (by intro c hc; simp at hc) (by simp)
  have h1' : Bexter.new E (some (rationalsToBext [])) none none none none none = .ok x := h1
  let t : Tholder := { thold := .arr [], weighted := true, size := 0, number := none, bexter := some x }
  have ht : ofThold E F (.arr []) = .ok t := by
    rw [ofThold_eq]
    show processWeighted E (.arr []) = _
    unfold processWeighted
    show (do let bexter ← Bexter.new E (some (rationalsToBext [])) none none none none none; _) = _
    rw [h1', Res.ok_bind]
    rfl
  have hsat : t.satisfy E [] = .ok true := by
    simp [satisfy, satisfyWeighted, dedup, mark, valuesToRationals, Value.toVec, clausesOf, checkSums, clausesReach, t]
  refine ⟨t, q, .arr [], ht, hsat, h4, rfl, ?_, rfl⟩
  have hx : x = { code := lit "4A", size := 0, raw := [] } := by
    have : Bexter.ofBext E (lit "4A") [] = .ok { code := lit "4A", size := 0, raw := [] } := by rfl
    rw [this] at h1
    injection h1 with h1
    exact h1.symm
  have hq : q = lit "4AAA" := by
    have hp : Matter.ofText E (lit "4AAA") = .ok x := by rw [hx]; rfl
    obtain ⟨n, hn, hc⟩ := C04_text_canonical E hp
    rw [hx] at hn
    have hn' : n = 4 := by
      have : Matter.fullSize { code := lit "4A", size := 0, raw := [] } = .ok 4 := by rfl
      rw [this] at hn; injection hn with hn; exact hn.symm
    subst hn'
    have hqb := hc.2 (by decide +kernel)
    rw [h4] at hqb
    injection hqb with hqb
  subst hq
  rfl

end Cesride
