import Verif.Lemmas.Native
import Verif.Props.Data
import Verif.Props.Saider

/-! # Properties C96 and C97: native values in documents, and documents made from maps -/

namespace Cesride
open Spec Native

/-! ## C96 -/

/-- C96. An integer of any native type goes in and comes out the same, by both conversions; it is not taken for a float. -/
theorem C96_integers {w : Nat} (x : BitVec w) :
    (w ≤ 64 → ∀ get ∈ [Arg.toI64, Arg.tryI64], get (.number (Number.ofSigned x)) = .ok x.toInt) ∧
    (w < 64 → ∀ get ∈ [Arg.toI64, Arg.tryI64], get (.number (Number.ofUnsigned x)) = .ok (x.toNat : Int)) ∧
    Arg.toF64 (.number (Number.ofSigned x)) = .err .conversion ∧ Arg.toF64 (.number (Number.ofUnsigned x)) = .err .conversion := by
  refine ⟨?_, ?_, rfl, rfl⟩
  · intro h get hg
    have e : (x.signExtend 64).toInt = x.toInt := BitVec.toInt_signExtend_of_le h
    simp only [List.mem_cons, List.not_mem_nil, or_false] at hg
    rcases hg with rfl | rfl <;> simp [Arg.toI64, Arg.tryI64, Number.ofSigned, Number.ofI64, e]
  · intro h get hg
    have e : (x.zeroExtend 64).toInt = (x.toNat : Int) := by
      rw [BitVec.toInt_eq_toNat_of_lt]
      · rw [BitVec.toNat_setWidth, Nat.mod_eq_of_lt]
        exact Nat.lt_of_lt_of_le x.isLt (Nat.pow_le_pow_right (by omega) (by omega))
      · rw [BitVec.toNat_setWidth, Nat.mod_eq_of_lt (Nat.lt_of_lt_of_le x.isLt (Nat.pow_le_pow_right (by omega) (by omega)))]
        have := x.isLt
        have h2 : 2 ^ w ≤ 2 ^ 63 := Nat.pow_le_pow_right (by omega) (by omega)
        omega
    simp only [List.mem_cons, List.not_mem_nil, or_false] at hg
    rcases hg with rfl | rfl <;> simp only [Arg.toI64, Arg.tryI64, Number.ofUnsigned, Number.ofI64, e] <;> rfl

/-- C96. A double goes in and comes out the same; a single comes out as the double of the same value, sign and kind; neither is taken for an integer. -/
theorem C96_floats (f : F64) (x : F32) :
    (∀ get ∈ [Arg.toF64, Arg.tryF64], get (.number (Number.ofF64 f)) = .ok f) ∧ Arg.toI64 (.number (Number.ofF64 f)) = .err .conversion ∧
    ∃ g, (∀ get ∈ [Arg.toF64, Arg.tryF64], get (.number (Number.ofF32 x)) = .ok g) ∧ f64Value g = f32Value x ∧ g.sign = x.sign ∧
      (g.nan = true ↔ x.exp = 255#8 ∧ x.man ≠ 0#23) := by
  refine ⟨?_, rfl, F64.ofF32 x, ?_, ofF32_value x⟩
  · simp [Arg.toF64, Arg.tryF64, Number.ofF64]
  · simp [Arg.toF64, Arg.tryF64, Number.ofF32, Number.ofF64]

/-- C96. Asking for an integer where there is a float drops the fraction, and what is out of range goes to the end of the range; NaN gives zero. -/
theorem C96_float_to_integer (f : F64) :
    (∀ q, f64Value f = some q →
      ∃ r, Arg.tryI64 (.number (Number.ofF64 f)) = .ok r ∧ (q ≥ 2 ^ 63 → r = 2 ^ 63 - 1) ∧ (q < -2 ^ 63 → r = -2 ^ 63) ∧
        (-2 ^ 63 ≤ q → q < 2 ^ 63 → Truncates q r)) ∧
    (f64Value f = none → Arg.tryI64 (.number (Number.ofF64 f)) = .ok (if f.man ≠ 0#52 then 0 else if f.sign then -2 ^ 63 else 2 ^ 63 - 1)) := by
  constructor
  · intro q h
    exact ⟨_, rfl, toI64_spec h⟩
  · intro h
    have hf := f64Value_none.mp h
    have he : f.exp.toNat = 2047 := by simpa [F64.finite] using hf
    show Res.ok f.toI64 = _
    unfold F64.toI64
    by_cases hm : f.man = 0#52
    · rw [if_neg (by simp [F64.nan, hm] : ¬ f.nan = true), if_pos (by simp [hf] : (!f.finite) = true), if_neg (by simp [hm] : ¬ f.man ≠ 0#52)]
    · have : f.man.toNat ≠ 0 := fun e => hm (BitVec.eq_of_toNat_eq e)
      rw [if_pos (by simp [F64.nan, he, this] : f.nan = true), if_pos hm]

/-- C96. Asking for a float where there is an integer gives the nearest float: the integer itself up to `2 ^ 53`, and then the integer comes back. -/
theorem C96_integer_to_float (i : BitVec 64) :
    ∃ f, Arg.tryF64 (.number (Number.ofI64 i)) = .ok f ∧ NearestEven i.toInt f ∧
      (|i.toInt| ≤ 2 ^ 53 → f64Value f = some (i.toInt : ℚ) ∧ Arg.tryI64 (.number (Number.ofF64 f)) = .ok i.toInt) := by
  have hb : i.toInt.natAbs ≤ 2 ^ 63 := by
    have h1 := BitVec.le_toInt i
    have h2 := BitVec.toInt_lt (x := i)
    omega
  obtain ⟨h1, h2⟩ := ofI64_nearest hb
  refine ⟨_, rfl, h1, ?_⟩
  intro h
  have hv := h2 (by rw [abs_eq_max_neg] at h; omega)
  refine ⟨hv, ?_⟩
  obtain ⟨_, _, h3⟩ := toI64_spec hv
  have r1 : (-2 ^ 63 : ℚ) ≤ (i.toInt : ℚ) := by
    have : (-2 ^ 63 : Int) ≤ i.toInt := by have := BitVec.le_toInt i; omega
    exact_mod_cast this
  have r2 : (i.toInt : ℚ) < 2 ^ 63 := by
    have : i.toInt < (2 ^ 63 : Int) := by have := BitVec.toInt_lt (x := i); omega
    exact_mod_cast this
  obtain ⟨_, h4⟩ := h3 r1 r2
  have h5 : |i.toInt - (F64.ofI64 i.toInt).toI64| < 1 := by exact_mod_cast h4
  have : (F64.ofI64 i.toInt).toI64 = i.toInt := by rw [abs_eq_max_neg] at h5; omega
  show Res.ok (F64.ofI64 i.toInt).toI64 = _
  rw [this]

/-- C96: beyond `2 ^ 53` the integer may be lost. -/
theorem C96_integer_lost : Arg.tryF64 (.number (Number.ofI64 (BitVec.ofNat 64 (2 ^ 53 + 1)))) = Arg.tryF64 (.number (Number.ofI64 (BitVec.ofNat 64 (2 ^ 53)))) := by
  decide +kernel

/-- C96. What is not a number is refused by all four conversions. -/
theorem C96_refused (v : Value) : (∀ get ∈ [Arg.toI64, Arg.tryI64], get (.other v) = .err .conversion) ∧
    (∀ get ∈ [Arg.toF64, Arg.tryF64], get (.other v) = .err .conversion) := by
  simp [Arg.toI64, Arg.tryI64, Arg.toF64, Arg.tryF64]

theorem units_inj {f g : F64} (h : f.units = g.units) : f.exp = g.exp ∧ f.man = g.man := by
  have key : ∀ a b : F64, a.exp.toNat < b.exp.toNat → a.units < b.units := by
    intro a b hab
    unfold F64.units
    have := a.man.isLt
    rw [if_neg (by omega : ¬ b.exp.toNat = 0)]
    have hb : 2 ^ 52 * 2 ^ (b.exp.toNat - 1) ≤ (2 ^ 52 + b.man.toNat) * 2 ^ (b.exp.toNat - 1) := Nat.mul_le_mul_right _ (by omega)
    split
    · have := Nat.two_pow_pos (b.exp.toNat - 1)
      have : 2 ^ 52 * 1 ≤ 2 ^ 52 * 2 ^ (b.exp.toNat - 1) := Nat.mul_le_mul_left _ this
      omega
    · have ha : (2 ^ 52 + a.man.toNat) * 2 ^ (a.exp.toNat - 1) < 2 ^ 53 * 2 ^ (a.exp.toNat - 1) :=
        Nat.mul_lt_mul_of_pos_right (by omega) (Nat.two_pow_pos _)
      rw [show 2 ^ 53 * 2 ^ (a.exp.toNat - 1) = 2 ^ 52 * 2 ^ a.exp.toNat by rw [← Nat.pow_add, ← Nat.pow_add]; exact pow_congr (by omega)] at ha
      have : 2 ^ a.exp.toNat ≤ 2 ^ (b.exp.toNat - 1) := Nat.pow_le_pow_right (by omega) (by omega)
      have := Nat.mul_le_mul_left (2 ^ 52) this
      omega
  have he : f.exp.toNat = g.exp.toNat := by
    rcases Nat.lt_trichotomy f.exp.toNat g.exp.toNat with h' | h' | h'
    · have := key _ _ h'; omega
    · exact h'
    · have := key _ _ h'; omega
  refine ⟨BitVec.eq_of_toNat_eq he, BitVec.eq_of_toNat_eq ?_⟩
  unfold F64.units at h
  rw [he] at h
  split at h
  · exact h
  · have := Nat.eq_of_mul_eq_mul_right (Nat.two_pow_pos _) h
    omega

set_option exponentiation.threshold 2000 in
/-- C96. Two numbers are equal when both are integers of the same value, or both are floats of the same value (or the same infinity): an integer
never equals a float, and (a defect inherited from floats) NaN does not equal itself. -/
theorem C96_equal (i j : BitVec 64) (f g : F64) :
    (Number.eq (Number.ofI64 i) (Number.ofI64 j) = true ↔ i.toInt = j.toInt) ∧
    Number.eq (Number.ofI64 i) (Number.ofF64 f) = false ∧ Number.eq (Number.ofF64 f) (Number.ofI64 i) = false ∧
    (∀ p q, f64Value f = some p → f64Value g = some q → (Number.eq (Number.ofF64 f) (Number.ofF64 g) = true ↔ p = q)) ∧
    (f64Value f = none → (Number.eq (Number.ofF64 f) (Number.ofF64 g) = true ↔ f = g ∧ f.man = 0#52)) := by
  refine ⟨?_, by simp [Number.eq, Number.ofI64, Number.ofF64], by simp [Number.eq, Number.ofI64, Number.ofF64], ?_, ?_⟩
  · have : F64.eq ⟨false, 0, 0⟩ ⟨false, 0, 0⟩ = true := by decide
    simp only [Number.eq, Number.ofI64, this, BitVec.toInt_inj, Bool.true_and, BEq.rfl, Bool.and_true, beq_iff_eq]
  · intro p q hp hq
    obtain ⟨f1, f2, rfl⟩ := f64Value_finite hp
    obtain ⟨g1, g2, rfl⟩ := f64Value_finite hq
    simp only [Number.eq, Number.ofF64, F64.eq, f1, f2, g1, g2, Bool.not_false, Bool.true_and, BEq.rfl, Bool.and_true, Bool.or_eq_true, beq_iff_eq,
      Bool.and_eq_true]
    have hD : (0:ℚ) < 2 ^ 1074 := pow_pos (by norm_num) _
    have hu : ∀ u : Nat, (0:ℚ) ≤ (u : ℚ) / 2 ^ 1074 := fun u => div_nonneg (Nat.cast_nonneg _) hD.le
    have hz : ∀ u : Nat, (u : ℚ) / 2 ^ 1074 = 0 ↔ u = 0 := by
      intro u
      rw [div_eq_zero_iff]
      constructor
      · rintro (h | h)
        · exact_mod_cast h
        · exact absurd h hD.ne'
      · intro h; left; exact_mod_cast h
    constructor
    · rintro (rfl | ⟨a, b⟩)
      · rfl
      · rw [(hz _).mpr a, (hz _).mpr b, mul_zero, mul_zero]
    · intro h
      have hf := hu f.units
      have hg := hu g.units
      have same : (f.units : ℚ) / 2 ^ 1074 = (g.units : ℚ) / 2 ^ 1074 → f.units = g.units := by
        intro e
        rw [div_left_inj' hD.ne'] at e
        exact_mod_cast e
      by_cases hs : f.sign = g.sign
      · left
        have e : f.units = g.units := by
          apply same
          rw [hs] at h
          generalize (f.units : ℚ) / 2 ^ 1074 = x at *
          generalize (g.units : ℚ) / 2 ^ 1074 = y at *
          cases hgs : g.sign <;> rw [hgs] at h <;> simpa using h
        obtain ⟨e1, e2⟩ := units_inj e
        cases f; cases g; simp_all
      · right
        have : (f.units : ℚ) / 2 ^ 1074 = 0 ∧ (g.units : ℚ) / 2 ^ 1074 = 0 := by
          generalize (f.units : ℚ) / 2 ^ 1074 = x at *
          generalize (g.units : ℚ) / 2 ^ 1074 = y at *
          cases hfs : f.sign <;> cases hgs : g.sign <;> rw [hfs, hgs] at h hs <;> simp at h hs <;> constructor <;> linarith
        exact ⟨(hz _).mp this.1, (hz _).mp this.2⟩
  · intro h
    have hf := f64Value_none.mp h
    have he : f.exp.toNat = 2047 := by simpa [F64.finite] using hf
    have hm : f.man = 0#52 ↔ f.man.toNat = 0 := by
      constructor
      · intro e; rw [e]; rfl
      · intro e; exact BitVec.eq_of_toNat_eq e
    simp only [Number.eq, Number.ofF64, F64.eq, hf, hm, F64.nan, he]
    simp
    constructor
    · rintro ⟨⟨a, b⟩, rfl⟩; exact ⟨rfl, a⟩
    · rintro ⟨rfl, a⟩; exact ⟨⟨a, .inr a⟩, rfl⟩

/-- C96. A number is printed as the integer it is, or as `print` shows its float; both are read again as themselves where floats are (`FloatsRead`).
A float that is not finite (a defect) is printed as `null`, and read again as null, which it is not. -/
theorem C96_shown (print : F64 → Str) (hp : ∀ f q, f64Value f = some q → FloatText (print f)) (f : F64) (i : BitVec 64) (F : Str → Option Str) :
    Plain ((Number.ofI64 i).shown print) ∧ ((Number.ofI64 i).shown print).toI64 = .ok i.toInt ∧
    (∀ q, f64Value f = some q → Plain ((Number.ofF64 f).shown print) ∧ ((Number.ofF64 f).shown print).toF64 = .ok (print f) ∧
      ((Number.ofF64 f).shown print).toJson = print f) ∧
    (f64Value f = none → Json.fromStr F ((Number.ofF64 f).shown print).toJson = .ok .null ∧ (Number.ofF64 f).shown print ≠ .null) := by
  refine ⟨?_, rfl, ?_, ?_⟩
  · have h1 := BitVec.le_toInt i
    have h2 := BitVec.toInt_lt (x := i)
    simp only [Number.shown, Number.ofI64, Bool.false_eq_true, if_false, Plain]
    omega
  · intro q hq
    have hf := (f64Value_finite hq).1
    have e : (Number.ofF64 f).shown print = .float (print f) := by simp [Number.shown, Number.ofF64, hf]
    rw [e]
    exact ⟨hp f q hq, rfl, rfl⟩
  · intro h
    have hf := f64Value_none.mp h
    have e : (Number.ofF64 f).shown print = .float (lit "null") := by simp [Number.shown, Number.ofF64, hf]
    rw [e]
    exact ⟨by kernel_rfl, by simp⟩

/-- C96: `-3.75` is the pattern below; it becomes `-3`. `2 ^ 53 + 3` is half way between two floats and goes to the even one, `2 ^ 53 + 4`. -/
example : f64Value ⟨true, 1024, BitVec.ofNat 52 (7 * 2 ^ 49)⟩ = some (-15 / 4) ∧ Arg.tryI64 (.number (Number.ofF64 ⟨true, 1024, BitVec.ofNat 52 (7 * 2 ^ 49)⟩)) = .ok (-3) ∧
    Arg.tryI64 (.number (Number.ofF64 ⟨true, 2047, 0⟩)) = .ok (-2 ^ 63) ∧ Arg.tryI64 (.number (Number.ofF64 ⟨false, 2047, 1⟩)) = .ok 0 ∧
    Arg.tryI64 (.number (Number.ofF64 ⟨false, 1086, 0⟩)) = .ok (2 ^ 63 - 1) ∧
    Arg.tryF64 (.number (Number.ofI64 (BitVec.ofNat 64 (2 ^ 53 + 3)))) = Arg.tryF64 (.number (Number.ofI64 (BitVec.ofNat 64 (2 ^ 53 + 4)))) := by
  refine ⟨?_, by decide +kernel, by decide +kernel, by decide +kernel, by decide +kernel, by decide +kernel⟩
  unfold f64Value
  rw [if_neg (by decide), if_neg (by decide), show ((BitVec.toNat (1024 : BitVec 11) : ℕ) : ℤ) - 1023 = 1 from rfl]
  norm_num

/-- C96: the least positive single and a negative byte. -/
example : f32Value ⟨false, 0, 1⟩ = some ((1 / 2 ^ 23) * (2 : ℚ) ^ (-126 : ℤ)) ∧ F64.ofF32 ⟨false, 0, 1⟩ = ⟨false, 874, 0⟩ ∧
    Arg.toI64 (.number (Number.ofSigned (BitVec.ofInt 8 (-5)))) = .ok (-5) ∧ Arg.toI64 (.number (Number.ofUnsigned (BitVec.ofInt 8 (-5)))) = .ok 251 := by
  refine ⟨?_, by decide +kernel, by decide +kernel, by decide +kernel⟩
  unfold f32Value
  rw [if_neg (by decide), if_pos (by decide)]
  simp

/-! ## C97 -/

theorem foldl_insert_new {es : List (Str × Value)} : ∀ o : List (Str × Value), ((o ++ es).map Prod.fst).Nodup →
    es.foldl (fun map e => Value.insert map e.1 e.2) o = o ++ es := by
  induction es with
  | nil => intro o _; simp
  | cons e es ih =>
    intro o h
    have hk : e.1 ∉ o.map Prod.fst := by
      intro hm
      rw [List.map_append, List.nodup_append] at h
      exact h.2.2 _ hm _ (by simp) rfl
    have hi : ∀ o : List (Str × Value), e.1 ∉ o.map Prod.fst → Value.insert o e.1 e.2 = o ++ [e] := by
      intro o
      induction o with
      | nil => intro _; rfl
      | cons a o ih =>
        intro h
        simp only [List.map_cons, List.mem_cons, not_or] at h
        simp only [Value.insert]
        rw [if_neg (fun e => h.1 e.symm), ih h.2]
        rfl
    rw [List.foldl_cons, hi o hk, ih (o ++ [e]) (by simpa using h)]
    simp

/-- C97. A document made from a hash map has exactly the entries of the map, in the order of its iterator. -/
theorem C97_entries {es : List (Str × Value)} (h : (es.map Prod.fst).Nodup) : ofHash es = .obj es := by
  unfold ofHash
  rw [foldl_insert_new [] (by simpa using h)]
  rfl

/-- C97. Whatever the order of the iterator: the documents are equal, and hold the same value at every key. Their texts are the same only for the same order
(a defect: the order is left open). -/
theorem C97_orders {es fs : List (Str × Value)} (hp : Plain (.obj es)) (h : es.Perm fs) :
    Value.eq (ofHash es) (ofHash fs) = true ∧ (∀ k, (ofHash es).index k = (ofHash fs).index k) ∧
    ((ofHash es).toJson = (ofHash fs).toJson → es = fs) := by
  have hn : (es.map Prod.fst).Nodup := hp.2
  have hn' : (fs.map Prod.fst).Nodup := (h.map _).nodup_iff.mp hn
  have hp' : Plain (.obj fs) := ⟨plainFields_of_mem (fun k v hm => plainFields_mem hp.1 (h.mem_iff.mpr hm)), hn'⟩
  rw [C97_entries hn, C97_entries hn']
  refine ⟨(C72_order hp h).2.1, ?_, ?_⟩
  · intro k
    have : es.lookup k = fs.lookup k := by
      cases he : es.lookup k with
      | some x => exact (mem_lookup hn' (h.mem_iff.mp (lookup_mem he))).symm
      | none =>
        cases hf : fs.lookup k with
        | none => rfl
        | some y => rw [mem_lookup hn (h.mem_iff.mpr (lookup_mem hf))] at he; cases he
    simp only [Value.index, this]
  · intro e
    have := C39_injective hp hp' e
    injection this

/-- C97, the defect: every map with two or more entries has another order, with another text. -/
theorem C97_text_varies {es : List (Str × Value)} (hp : Plain (.obj es)) (h2 : 2 ≤ es.length) :
    ∃ fs, es.Perm fs ∧ (ofHash es).toJson ≠ (ofHash fs).toJson := by
  match es, h2 with
  | a :: b :: r, _ =>
    refine ⟨b :: a :: r, List.Perm.swap b a r, ?_⟩
    intro e
    have := (C97_orders hp (List.Perm.swap b a r)).2.2 e
    injection this with e1 e2
    have hn : ((a :: b :: r).map Prod.fst).Nodup := hp.2
    rw [e1] at hn
    simp at hn

/-- C97, the defect: the SAIDs of two orders agree only when the hash collides on their contents. -/
theorem C97_said_varies {E : Env} {H : Hash} {es fs : List (Str × Value)} (hp : Plain (.obj es)) (h : es.Perm fs) (hne : es ≠ fs)
    {code kind label : Option Str} {s s' : Matter} {d d' : Value}
    (h1 : Saider.saidify E H (ofHash es) code kind label none = .ok (s, d)) (h2 : Saider.saidify E H (ofHash fs) code kind label none = .ok (s', d'))
    (hs : s.raw = s'.raw) :
    ∃ c c' n, SaidContent n (label.getD (lit "d")) [] es c ∧ SaidContent n (label.getD (lit "d")) [] fs c' ∧
      (Value.obj c).toJson ≠ (Value.obj c').toJson ∧ H.digest (code.getD (lit "E")) (Value.obj c).toJson = H.digest (code.getD (lit "E")) (Value.obj c').toJson := by
  have hn : (es.map Prod.fst).Nodup := hp.2
  have hn' : (fs.map Prod.fst).Nodup := (h.map _).nodup_iff.mp hn
  have hp' : Plain (.obj fs) := ⟨plainFields_of_mem (fun k v hm => plainFields_mem hp.1 (h.mem_iff.mpr hm)), hn'⟩
  rw [C97_entries hn] at h1
  rw [C97_entries hn'] at h2
  obtain ⟨n, z, o, o', t, hc, hz, ho, hin, hpr, rfl, hq, rfl⟩ := Saider.saidify_ok h1
  obtain ⟨m, y, p, p', t', hc', hz', ho', hin', hpr', rfl, hq', rfl⟩ := Saider.saidify_ok h2
  injection ho with ho; subst ho
  injection ho' with ho'; subst ho'
  have hzy : z = y := by rw [hz] at hz'; exact Res.ok.inj hz'
  subst hzy
  have c1 := Saider.prep_content (ignore := []) hpr
  have c2 := Saider.prep_content (ignore := []) hpr'
  refine ⟨_, _, _, c1, c2, ?_, hs⟩
  intro e
  have hcc : Value.obj _ = Value.obj _ := C39_injective (saidContent_plain c1 hp) (saidContent_plain c2 hp') e
  injection hcc with hcc
  have k1 := c1.keys
  have k2 := c2.keys
  rw [if_pos hin, List.append_nil, List.filter_eq_self.mpr (by simp)] at k1
  rw [if_pos hin', List.append_nil, List.filter_eq_self.mpr (by simp)] at k2
  rw [hcc, k2] at k1
  apply hne
  -- the same keys in the same order and the same entries
  have hl : es.length = fs.length := h.length_eq
  apply List.ext_getElem hl
  intro i hi hi'
  have hk : (es[i]).1 = (fs[i]).1 := by
    have := congrArg (fun l => l[i]?) k1
    simp [hi, hi'] at this
    exact this.symm
  have hm : fs[i] ∈ es := h.mem_iff.mpr (List.getElem_mem _)
  have l1 := mem_lookup hn (k := (es[i]).1) (v := (es[i]).2) (List.getElem_mem _)
  have l2 := mem_lookup hn (k := (fs[i]).1) (v := (fs[i]).2) hm
  rw [hk, l2] at l1
  exact Prod.ext hk (Option.some.inj l1).symm

/-- C97. A document written down with `dat!` has at every key the value written last for it, and its keys stand in the order of their first
writing; with no key written twice it is the entries as they are written. -/
theorem C97_written (es : List (Str × Value)) :
    (∀ k, (datObject es).index k = match Spec.lastWrite es k with | some x => .ok x | none => .panic) ∧
    (∃ o, datObject es = .obj o ∧ (o.map Prod.fst).Nodup ∧ (o.map Prod.fst).Sublist (es.map Prod.fst) ∧ (∀ k ∈ es.map Prod.fst, k ∈ o.map Prod.fst) ∧
      (∀ (i j : Nat) k k', i < j → (o.map Prod.fst)[i]? = some k → (o.map Prod.fst)[j]? = some k' →
        (es.map Prod.fst).idxOf k < (es.map Prod.fst).idxOf k')) ∧
    ((es.map Prod.fst).Nodup → datObject es = .obj es) := by
  obtain ⟨o, h1, h2, new, h3, h4, h5, h6, h7⟩ := C71_writes [] es (by simp)
  have hfold : ∀ (es o : List (Str × Value)), es.foldlM (fun v e => Value.set v e.1 e.2) (.obj o) =
      .ok (.obj (es.foldl (fun map e => Value.insert map e.1 e.2) o)) := by
    intro es
    induction es with
    | nil => intro o; rfl
    | cons e es ih => intro o; rw [List.foldlM_cons, List.foldl_cons]; exact ih _
  rw [hfold] at h1
  have ho : datObject es = .obj o := Res.ok.inj h1
  rw [List.map_nil, List.nil_append] at h3
  subst h3
  refine ⟨?_, ⟨o, ho, h4, h5, h6, h7⟩, ?_⟩
  · intro k
    rw [ho, h2 k]
    cases Spec.lastWrite es k <;> rfl
  · intro h
    exact C97_entries h

/-- C97: the two orders of a map of two entries. -/
example : (ofHash [(lit "d", .str []), (lit "a", .int 1)]).toJson = lit "{\"d\":\"\",\"a\":1}" ∧
    (ofHash [(lit "a", .int 1), (lit "d", .str [])]).toJson = lit "{\"a\":1,\"d\":\"\"}" ∧ Plain (.obj [(lit "d", .str []), (lit "a", .int 1)]) ∧
    datObject [(lit "a", .int 1), (lit "b", .int 2), (lit "a", .int 3)] = .obj [(lit "a", .int 3), (lit "b", .int 2)] := by
  refine ⟨by decide +kernel, by decide +kernel, ?_, by kernel_rfl⟩
  simp [Plain, PlainFields]
  decide

/-- C97: both orders of a map have a SAID. -/
example (E : Env) (H : Hash) : (∃ s d, Saider.saidify E H (ofHash [(lit "d", .str []), (lit "a", .int 1)]) (some (lit "E")) none (some (lit "d")) none = .ok (s, d)) ∧
    ∃ s d, Saider.saidify E H (ofHash [(lit "a", .int 1), (lit "d", .str [])]) (some (lit "E")) none (some (lit "d")) none = .ok (s, d) := by
  constructor
  · rw [C97_entries (by decide)]
    exact C43_succeeds_plain E H (n := 32) none (by decide) (by decide) (by decide)
  · rw [C97_entries (by decide)]
    exact C43_succeeds_plain E H (n := 32) none (by decide) (by decide) (by decide)

end Cesride
