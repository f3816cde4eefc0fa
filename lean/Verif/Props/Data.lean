import Verif.Model.Data
import Verif.Spec.Data
import Verif.Props.Json
import Verif.Lemmas.KernelRfl
import Mathlib.Data.List.Perm.Subperm

/-! # Properties C71 and C72: editing and comparing documents -/

namespace Cesride
open Spec

/-- The value written last for a key in a history of writes. -/
def Spec.lastWrite : List (Str × Value) → Str → Option Value
  | [], _ => none
  | (k, x) :: ws, k' => (lastWrite ws k').or (if k = k' then some x else none)

theorem lookup_insert (o : List (Str × Value)) (k k' : Str) (x : Value) :
    (Value.insert o k x).lookup k' = if k = k' then some x else o.lookup k' := by
  induction o with
  | nil =>
    simp only [Value.insert, List.lookup]
    by_cases h : k = k'
    · subst h; simp
    · rw [if_neg h, show (k' == k) = false by simpa using fun e => h e.symm]
  | cons e o ih =>
    obtain ⟨a, y⟩ := e
    simp only [Value.insert]
    by_cases h : a = k
    · subst h
      rw [if_pos rfl]
      simp only [List.lookup]
      by_cases h' : a = k'
      · subst h'; simp
      · rw [if_neg h', show (k' == a) = false by simpa using fun e => h' e.symm]
    · rw [if_neg h]
      simp only [List.lookup, ih]
      by_cases h' : k' = a
      · subst h'; have hn : ¬ k = k' := fun e => h e.symm
        simp only [hn, if_false]
      · rw [show (k' == a) = false by simpa using h']

theorem keys_insert (o : List (Str × Value)) (k : Str) (x : Value) :
    (Value.insert o k x).map Prod.fst = o.map Prod.fst ++ (if k ∈ o.map Prod.fst then [] else [k]) := by
  induction o with
  | nil => simp [Value.insert]
  | cons e o ih =>
    obtain ⟨a, y⟩ := e
    simp only [Value.insert]
    by_cases h : a = k
    · subst h; simp
    · rw [if_neg h]
      simp only [List.map_cons, ih, List.mem_cons, List.cons_append]
      have h' : ¬ k = a := fun e => h e.symm
      simp only [h', false_or]

/-- C71. Any history of writes by key to an object succeeds; afterwards every key holds what was written to it last, or its old value, and the
keys are the old ones in their places followed by the new ones in the order of their first write. -/
theorem C71_writes (o ws : List (Str × Value)) (ho : (o.map Prod.fst).Nodup) :
    ∃ o', ws.foldlM (fun v e => Value.set v e.1 e.2) (.obj o) = .ok (.obj o') ∧
      (∀ k, Value.index (.obj o') k = match Spec.lastWrite ws k with | some x => .ok x | none => Value.index (.obj o) k) ∧
      (∃ new, o'.map Prod.fst = o.map Prod.fst ++ new ∧ (o'.map Prod.fst).Nodup ∧ new.Sublist (ws.map Prod.fst) ∧
        (∀ k ∈ ws.map Prod.fst, k ∈ o'.map Prod.fst) ∧
        (∀ (i j : Nat) k k', i < j → new[i]? = some k → new[j]? = some k' → (ws.map Prod.fst).idxOf k < (ws.map Prod.fst).idxOf k')) := by
  induction ws generalizing o with
  | nil => exact ⟨o, rfl, fun k => rfl, [], by simp, by simpa using ho, by simp, by simp, by simp⟩
  | cons w ws ih =>
    obtain ⟨k0, x0⟩ := w
    have hk := keys_insert o k0 x0
    have ho' : ((Value.insert o k0 x0).map Prod.fst).Nodup := by
      rw [hk]
      split
      · simpa using ho
      · rename_i h
        rw [List.nodup_append]
        refine ⟨ho, by simp, ?_⟩
        intro a ha b hb e
        simp at hb
        subst hb; subst e
        exact h ha
    obtain ⟨o', h1, h2, new, h3, h4, h5, h6, h7⟩ := ih (Value.insert o k0 x0) ho'
    refine ⟨o', by rw [List.foldlM_cons]; exact h1, ?_, ?_⟩
    · intro k
      rw [h2 k]
      simp only [Spec.lastWrite]
      cases Spec.lastWrite ws k with
      | some x => rfl
      | none =>
        simp only [Option.none_or, Value.index, lookup_insert]
        by_cases h : k0 = k
        · rw [if_pos h, if_pos h]
        · rw [if_neg h, if_neg h]
    · rw [hk] at h3
      by_cases hmem : k0 ∈ o.map Prod.fst
      · rw [if_pos hmem, List.append_nil] at h3
        refine ⟨new, h3, h4, h5.cons _, ?_, ?_⟩
        · intro k hk'
          rcases List.mem_cons.mp hk' with rfl | hk'
          · rw [h3]; exact List.mem_append_left _ hmem
          · exact h6 k hk'
        · have hne : ∀ k ∈ new, k0 ≠ k := by
            rintro k hkn rfl
            rw [h3, List.nodup_append] at h4
            exact h4.2.2 _ hmem _ hkn rfl
          have hidx : ∀ k ∈ new, (((k0, x0) :: ws).map Prod.fst).idxOf k = (ws.map Prod.fst).idxOf k + 1 := by
            intro k hkn
            rw [List.map_cons, List.idxOf_cons_ne _ (hne k hkn)]
          intro i j k k' hij hi hj
          rw [hidx k (List.mem_of_getElem? hi), hidx k' (List.mem_of_getElem? hj)]
          have := h7 i j k k' hij hi hj
          omega
      · rw [if_neg hmem] at h3
        refine ⟨k0 :: new, by rw [h3]; simp, h4, h5.cons₂ _, ?_, ?_⟩
        · intro k hk'
          rcases List.mem_cons.mp hk' with rfl | hk'
          · rw [h3]; simp
          · exact h6 k hk'
        · have hne : ∀ k ∈ new, k0 ≠ k := by
            rintro k hkn rfl
            rw [h3, List.nodup_append] at h4
            exact h4.2.2 _ (by simp) _ hkn rfl
          have hidx : ∀ k ∈ new, (((k0, x0) :: ws).map Prod.fst).idxOf k = (ws.map Prod.fst).idxOf k + 1 := by
            intro k hkn
            rw [List.map_cons, List.idxOf_cons_ne _ (hne k hkn)]
          have h0 : (((k0, x0) :: ws).map Prod.fst).idxOf k0 = 0 := by rw [List.map_cons, List.idxOf_cons_self]
          intro i j k k' hij hi hj
          cases j with
          | zero => omega
          | succ j =>
            rw [List.getElem?_cons_succ] at hj
            rw [hidx k' (List.mem_of_getElem? hj)]
            cases i with
            | zero =>
              rw [List.getElem?_cons_zero] at hi
              rw [← Option.some.inj hi, h0]
              omega
            | succ i =>
              rw [List.getElem?_cons_succ] at hi
              rw [hidx k (List.mem_of_getElem? hi)]
              have := h7 i j k k' (by omega) hi hj
              omega

/-- C71. Writing at a position changes that position and nothing else; it panics exactly where reading panics. -/
theorem C71_position (v x : Value) (i : Nat) :
    (∀ v', v.setNat i x = .ok v' → v'.indexNat i = .ok x ∧ (∀ j, j ≠ i → v'.indexNat j = v.indexNat j) ∧
      (∀ o, v = .obj o → ∃ o', v' = .obj o' ∧ o'.map Prod.fst = o.map Prod.fst)) ∧
    (v.setNat i x = .panic ↔ v.indexNat i = .panic) ∧ (∀ e, v.setNat i x ≠ .err e) := by
  cases v with
  | arr a =>
    simp only [Value.setNat, Value.indexNat]
    by_cases h : i < a.length
    · rw [if_pos h]
      refine ⟨?_, by simp [h], by simp⟩
      rintro v' h'
      rw [← Res.ok.inj h']
      refine ⟨by simp [Value.indexNat, h], ?_, by simp⟩
      intro j hj
      simp only [Value.indexNat]
      rw [List.getElem?_set_ne (Ne.symm hj)]
    · rw [if_neg h]
      refine ⟨by simp, ?_, by simp⟩
      rw [List.getElem?_eq_none (by omega)]
  | obj o =>
    simp only [Value.setNat, Value.indexNat]
    cases h : o[i]? with
    | none => simp
    | some e =>
      have hi := (List.getElem?_eq_some_iff.mp h).1
      refine ⟨?_, by simp, by simp⟩
      rintro v' h'
      dsimp only at h'
      rw [← Res.ok.inj h']
      refine ⟨by simp [Value.indexNat, hi], ?_, ?_⟩
      · intro j hj
        simp only [Value.indexNat]
        rw [List.getElem?_set_ne (Ne.symm hj)]
      · rintro o1 h1
        cases h1
        refine ⟨_, rfl, ?_⟩
        rw [List.map_set]
        apply List.ext_getElem?
        intro j
        by_cases hj : i = j
        · subst hj; simp [hi]; exact (List.getElem?_eq_some_iff.mp h).2 ▸ rfl
        · rw [List.getElem?_set_ne hj]
  | _ => simp [Value.setNat, Value.indexNat]

/-- C71. Every document converts to exactly one kind of native value (none for null), and the others are refused with a conversion error. -/
theorem C71_conversions (v : Value) :
    (∀ b, v.toBool = .ok b ↔ v = .bool b) ∧ (∀ s, v.toStr = .ok s ↔ v = .str s) ∧ (∀ i, v.toI64 = .ok i ↔ v = .int i) ∧
    (∀ a, v.toVec = .ok a ↔ v = .arr a) ∧ (∀ o, v.toMap = .ok o ↔ v = .obj o) ∧ (∀ t, v.toF64 = .ok t ↔ v = .float t) ∧
    (∀ r ∈ [v.toBool.bind fun _ => .ok (), v.toStr.bind fun _ => .ok (), v.toI64.bind fun _ => .ok (), v.toVec.bind fun _ => .ok (),
      v.toMap.bind fun _ => .ok (), v.toF64.bind fun _ => .ok ()], r = .ok () ∨ r = .err .conversion) ∧
    ([v.toBool.bind fun _ => .ok (), v.toStr.bind fun _ => .ok (), v.toI64.bind fun _ => .ok (), v.toVec.bind fun _ => .ok (),
      v.toMap.bind fun _ => .ok (), v.toF64.bind fun _ => .ok ()].countP (fun r => match r with | .ok _ => true | _ => false)) =
        (match v with | .null => 0 | _ => 1) := by
  cases v <;> simp [Value.toBool, Value.toStr, Value.toI64, Value.toVec, Value.toMap, Value.toF64, Res.bind]

/-! ## Equality -/

theorem lookup_mem {o : List (Str × Value)} {k : Str} {v : Value} (h : o.lookup k = some v) : (k, v) ∈ o := by
  induction o with
  | nil => simp at h
  | cons e o ih =>
    obtain ⟨a, y⟩ := e
    simp only [List.lookup] at h
    by_cases hk : k = a
    · subst hk; simp at h; subst h; simp
    · rw [show (k == a) = false by simpa using hk] at h
      exact List.mem_cons_of_mem _ (ih h)

theorem mem_lookup {o : List (Str × Value)} {k : Str} {v : Value} (ho : (o.map Prod.fst).Nodup) (h : (k, v) ∈ o) : o.lookup k = some v := by
  induction o with
  | nil => cases h
  | cons e o ih =>
    obtain ⟨a, y⟩ := e
    simp only [List.map_cons, List.nodup_cons] at ho
    simp only [List.lookup]
    rcases List.mem_cons.mp h with h | h'
    · cases h; simp
    · have : k ≠ a := by rintro rfl; exact ho.1 (List.mem_map.mpr ⟨(k, v), h', rfl⟩)
      rw [show (k == a) = false by simpa using this]
      exact ih ho.2 h'

theorem eqFields_iff {o p : List (Str × Value)} :
    Value.eqFields o p = true ↔ ∀ k v, (k, v) ∈ o → ∃ w, p.lookup k = some w ∧ Value.eq v w = true := by
  induction o with
  | nil => simp [Value.eqFields]
  | cons e o ih =>
    obtain ⟨a, y⟩ := e
    simp only [Value.eqFields, Bool.and_eq_true, ih]
    constructor
    · rintro ⟨h1, h2⟩ k v h
      rcases List.mem_cons.mp h with h | h
      · obtain ⟨rfl, rfl⟩ := Prod.mk.inj h
        cases hl : p.lookup k with
        | none => rw [hl] at h1; cases h1
        | some w => rw [hl] at h1; exact ⟨w, rfl, h1⟩
      · exact h2 k v h
    · intro h
      refine ⟨?_, fun k v hm => h k v (List.mem_cons_of_mem _ hm)⟩
      obtain ⟨w, h1, h2⟩ := h a y (by simp)
      rw [h1]; exact h2

theorem plainFields_mem {o : List (Str × Value)} (h : PlainFields o) {k : Str} {v : Value} (hm : (k, v) ∈ o) : Plain v := by
  induction o with
  | nil => cases hm
  | cons e o ih =>
    obtain ⟨a, y⟩ := e
    simp only [PlainFields] at h
    rcases List.mem_cons.mp hm with hm | hm
    · cases hm; exact h.1
    · exact ih h.2 hm

theorem plainFields_of_mem {o : List (Str × Value)} (h : ∀ k v, (k, v) ∈ o → Plain v) : PlainFields o := by
  induction o with
  | nil => trivial
  | cons e o ih => exact ⟨h _ _ (List.mem_cons_self ..), ih fun k v hm => h k v (List.mem_cons_of_mem _ hm)⟩

mutual
theorem eq_refl : ∀ v, Plain v → Value.eq v v = true
  | .null, _ => by simp [Value.eq]
  | .bool b, _ => by simp [Value.eq]
  | .int b, _ => by simp [Value.eq]
  | .float b, _ => by simp [Value.eq]
  | .str b, _ => by simp [Value.eq]
  | .arr a, h => by simp only [Plain] at h; simp only [Value.eq]; exact eq_refl_elems a h
  | .obj o, h => by
    simp only [Plain] at h
    simp only [Value.eq, Bool.and_eq_true]
    refine ⟨by simp, eqFields_iff.mpr ?_⟩
    intro k v hm
    exact ⟨v, mem_lookup h.2 hm, eq_refl_fields o h.1 k v hm⟩
theorem eq_refl_elems : ∀ a, PlainElems a → Value.eqElems a a = true
  | [], _ => by simp [Value.eqElems]
  | v :: a, h => by simp only [PlainElems] at h; simp only [Value.eqElems, eq_refl v h.1, eq_refl_elems a h.2, Bool.and_self]
theorem eq_refl_fields : ∀ o, PlainFields o → ∀ k v, (k, v) ∈ o → Value.eq v v = true
  | [], _, _, _, h => by cases h
  | (k', w) :: o, h, k, v, hm => by
    simp only [PlainFields] at h
    rcases List.mem_cons.mp hm with hm | hm
    · cases hm; exact eq_refl _ h.1
    · exact eq_refl_fields o h.2 k v hm
end

/-- The keys of equal objects are the same. -/
theorem eq_keys {o p : List (Str × Value)} (ho : (o.map Prod.fst).Nodup) (h : Value.eq (.obj o) (.obj p) = true) :
    (o.map Prod.fst).Perm (p.map Prod.fst) := by
  simp only [Value.eq, Bool.and_eq_true, beq_iff_eq] at h
  have hs : o.map Prod.fst ⊆ p.map Prod.fst := by
    intro k hk
    obtain ⟨⟨k', v⟩, hm, rfl⟩ := List.mem_map.mp hk
    obtain ⟨w, hw, _⟩ := eqFields_iff.mp h.2 k' v hm
    exact List.mem_map.mpr ⟨_, lookup_mem hw, rfl⟩
  exact (List.subperm_of_subset ho hs).perm_of_length_le (by simp [h.1])

theorem eq_obj {o p : List (Str × Value)} (ho : (o.map Prod.fst).Nodup) (hp : (p.map Prod.fst).Nodup) :
    Value.eq (.obj o) (.obj p) = true ↔
      (∀ k, k ∈ o.map Prod.fst ↔ k ∈ p.map Prod.fst) ∧ ∀ k v w, (k, v) ∈ o → (k, w) ∈ p → Value.eq v w = true := by
  constructor
  · intro h
    refine ⟨fun k => (eq_keys ho h).mem_iff, ?_⟩
    intro k v w hv hw
    simp only [Value.eq, Bool.and_eq_true, beq_iff_eq] at h
    obtain ⟨w', h1, h2⟩ := eqFields_iff.mp h.2 k v hv
    rw [mem_lookup hp hw] at h1
    cases h1
    exact h2
  · rintro ⟨h1, h2⟩
    simp only [Value.eq, Bool.and_eq_true, beq_iff_eq]
    constructor
    · have := ((List.perm_ext_iff_of_nodup ho hp).mpr h1).length_eq
      simpa using this
    · apply eqFields_iff.mpr
      intro k v hv
      obtain ⟨⟨k', w⟩, hm, rfl⟩ := List.mem_map.mp ((h1 k).mp (List.mem_map.mpr ⟨_, hv, rfl⟩))
      exact ⟨w, mem_lookup hp hm, h2 _ _ _ hv hm⟩

theorem sizeOf_mem_fields {o : List (Str × Value)} {k : Str} {v : Value} (h : (k, v) ∈ o) : sizeOf v < sizeOf (Value.obj o) := by
  have h1 := List.sizeOf_lt_of_mem h
  simp only [Value.obj.sizeOf_spec, Prod.mk.sizeOf_spec] at h1 ⊢
  omega

theorem eqElems_iff {a b : List Value} : Value.eqElems a b = true ↔ a.length = b.length ∧ ∀ (i : Nat) v w, a[i]? = some v → b[i]? = some w → Value.eq v w = true := by
  induction a generalizing b with
  | nil => cases b <;> simp [Value.eqElems]
  | cons v a ih =>
    cases b with
    | nil => simp [Value.eqElems]
    | cons w b =>
      simp only [Value.eqElems, Bool.and_eq_true, ih, List.length_cons, Nat.add_right_cancel_iff]
      constructor
      · rintro ⟨h1, h2, h3⟩
        refine ⟨h2, ?_⟩
        intro i
        cases i with
        | zero => simp only [List.getElem?_cons_zero, Option.some.injEq]; rintro _ _ rfl rfl; exact h1
        | succ i => simpa only [List.getElem?_cons_succ] using h3 i
      · rintro ⟨h2, h3⟩
        refine ⟨h3 0 v w rfl rfl, h2, fun i => by simpa only [List.getElem?_cons_succ] using h3 (i + 1)⟩

theorem plainElems_mem {a : List Value} (h : PlainElems a) {v : Value} (hm : v ∈ a) : Plain v := by
  induction a with
  | nil => cases hm
  | cons w a ih =>
    simp only [PlainElems] at h
    rcases List.mem_cons.mp hm with rfl | hm
    · exact h.1
    · exact ih h.2 hm

theorem sizeOf_mem_elems {a : List Value} {v : Value} (h : v ∈ a) : sizeOf v < sizeOf (Value.arr a) := by
  have h1 := List.sizeOf_lt_of_mem h
  simp only [Value.arr.sizeOf_spec]
  omega

theorem eq_symm (n : Nat) : ∀ v w, sizeOf v ≤ n → Plain v → Plain w → Value.eq v w = true → Value.eq w v = true := by
  induction n with
  | zero => intro v w h; cases v <;> simp at h
  | succ n ih =>
    intro v w hn hv hw h
    cases v <;> cases w <;> first | (simp [Value.eq] at h; done) | skip
    · exact h
    · simp only [Value.eq, beq_iff_eq] at h ⊢; exact h.symm
    · simp only [Value.eq, beq_iff_eq] at h ⊢; exact h.symm
    · simp only [Value.eq, Bool.or_eq_true, Bool.and_eq_true, beq_iff_eq] at h ⊢; exact h.imp Eq.symm And.symm
    · simp only [Value.eq, beq_iff_eq] at h ⊢; exact h.symm
    · rename_i a b
      simp only [Plain] at hv hw
      simp only [Value.eq, eqElems_iff] at h ⊢
      refine ⟨h.1.symm, ?_⟩
      intro i y x hy hx
      have hxm := List.mem_of_getElem? hx
      refine ih x y ?_ (plainElems_mem hv hxm) (plainElems_mem hw (List.mem_of_getElem? hy)) (h.2 i x y hx hy)
      have := sizeOf_mem_elems hxm
      omega
    · rename_i o p
      simp only [Plain] at hv hw
      rw [eq_obj hv.2 hw.2] at h
      rw [eq_obj hw.2 hv.2]
      refine ⟨fun k => (h.1 k).symm, ?_⟩
      intro k y x hy hx
      refine ih x y ?_ (plainFields_mem hv.1 hx) (plainFields_mem hw.1 hy) (h.2 k x y hx hy)
      have := sizeOf_mem_fields hx
      omega

theorem eq_trans (n : Nat) : ∀ u v w, sizeOf u ≤ n → Plain u → Plain v → Plain w → Value.eq u v = true → Value.eq v w = true → Value.eq u w = true := by
  induction n with
  | zero => intro u v w h; cases u <;> simp at h
  | succ n ih =>
    intro u v w hn hu hv hw h h'
    cases u <;> cases v <;> (first | (simp [Value.eq] at h; done) | skip) <;> cases w <;> (first | (simp [Value.eq] at h'; done) | skip)
    · exact h
    · simp only [Value.eq, beq_iff_eq] at h h' ⊢; exact h.trans h'
    · simp only [Value.eq, beq_iff_eq] at h h' ⊢; exact h.trans h'
    · simp only [Value.eq, Bool.or_eq_true, Bool.and_eq_true, beq_iff_eq] at h h' ⊢
      rcases h with rfl | h
      · exact h'
      · rcases h' with rfl | h'
        · exact .inr h
        · exact .inr ⟨h.1, h'.2⟩
    · simp only [Value.eq, beq_iff_eq] at h h' ⊢; exact h.trans h'
    · rename_i a b c
      simp only [Plain] at hu hv hw
      simp only [Value.eq, eqElems_iff] at h h' ⊢
      refine ⟨h.1.trans h'.1, ?_⟩
      intro i x z hx hz
      have hi := (List.getElem?_eq_some_iff.mp hx).1
      have hy : b[i]? = some b[i] := List.getElem?_eq_getElem (by omega)
      have hxm := List.mem_of_getElem? hx
      refine ih x _ z ?_ (plainElems_mem hu hxm) (plainElems_mem hv (List.mem_of_getElem? hy)) (plainElems_mem hw (List.mem_of_getElem? hz))
        (h.2 i x _ hx hy) (h'.2 i _ z hy hz)
      have := sizeOf_mem_elems hxm
      omega
    · rename_i o p q
      simp only [Plain] at hu hv hw
      rw [eq_obj hu.2 hv.2] at h
      rw [eq_obj hv.2 hw.2] at h'
      rw [eq_obj hu.2 hw.2]
      refine ⟨fun k => (h.1 k).trans (h'.1 k), ?_⟩
      intro k x z hx hz
      obtain ⟨⟨k', y⟩, hy, rfl⟩ := List.mem_map.mp ((h.1 k).mp (List.mem_map.mpr ⟨_, hx, rfl⟩))
      refine ih x y z ?_ (plainFields_mem hu.1 hx) (plainFields_mem hv.1 hy) (plainFields_mem hw.1 hz) (h.2 _ x y hx hy) (h'.2 _ y z hy hz)
      have := sizeOf_mem_fields hx
      omega

/-- C72. Comparing documents is an equivalence. -/
theorem C72_equivalence {u v w : Value} (hu : Plain u) (hv : Plain v) (hw : Plain w) :
    Value.eq u u = true ∧ (Value.eq u v = true → Value.eq v u = true) ∧ (Value.eq u v = true → Value.eq v w = true → Value.eq u w = true) :=
  ⟨eq_refl u hu, eq_symm _ u v (Nat.le_refl _) hu hv, eq_trans _ u v w (Nat.le_refl _) hu hv hw⟩

/-- C72. Equal scalars are the same, except that the two zeros among the floats are equal; equal arrays have the same length and equal elements in the same places; equal objects have the same keys,
in whatever order, with equal values. -/
theorem C72_content {v w : Value} (hv : Plain v) (hw : Plain w) :
    Value.eq v w = true ↔
      match v, w with
      | .arr a, .arr b => a.length = b.length ∧ ∀ (i : Nat) x y, a[i]? = some x → b[i]? = some y → Value.eq x y = true
      | .obj o, .obj p => (o.map Prod.fst).Perm (p.map Prod.fst) ∧ ∀ k x y, (k, x) ∈ o → (k, y) ∈ p → Value.eq x y = true
      | .float s, .float t => s = t ∨ (s ∈ [lit "0.0", lit "-0.0"] ∧ t ∈ [lit "0.0", lit "-0.0"])
      | v, w => v = w := by
  cases v <;> cases w <;> (first | (simp [Value.eq, Value.isZero]; done) | skip)
  · exact eqElems_iff
  · simp only [Plain] at hv hw
    constructor
    · intro h; exact ⟨eq_keys hv.2 h, ((eq_obj hv.2 hw.2).mp h).2⟩
    · rintro ⟨h1, h2⟩; exact (eq_obj hv.2 hw.2).mpr ⟨fun k => h1.mem_iff, h2⟩

/-- C72. Documents with the same text are equal. -/
theorem C72_text {v w : Value} (hv : Plain v) (hw : Plain w) (h : v.toJson = w.toJson) : Value.eq v w = true := by
  rw [C39_injective hv hw h]; exact eq_refl w hw

/-- C72. Reordering the entries of an object gives an equal document, whose text differs whenever the order does. -/
theorem C72_order {o p : List (Str × Value)} (ho : Plain (.obj o)) (h : o.Perm p) :
    Plain (.obj p) ∧ Value.eq (.obj o) (.obj p) = true ∧ ((Value.obj o).toJson = (Value.obj p).toJson ↔ o = p) := by
  have hp : Plain (.obj p) := by
    simp only [Plain] at ho ⊢
    exact ⟨plainFields_of_mem fun k v hm => plainFields_mem ho.1 (h.mem_iff.mpr hm), (h.map Prod.fst).nodup_iff.mp ho.2⟩
  refine ⟨hp, ?_, ?_⟩
  · have ho' := ho
    have hp' := hp
    simp only [Plain] at ho' hp'
    refine (eq_obj ho'.2 hp'.2).mpr ⟨fun k => (h.map Prod.fst).mem_iff, ?_⟩
    intro k v w hv hw
    have h1 := mem_lookup hp'.2 (h.mem_iff.mp hv)
    rw [mem_lookup hp'.2 hw] at h1
    cases h1
    exact eq_refl v (plainFields_mem ho'.1 hv)
  · constructor
    · intro ht; injection C39_injective ho hp ht
    · rintro rfl; rfl

/-- C72, oddity: the two zeros are equal documents with different texts. -/
theorem C72_zeros : Value.eq (.float (lit "0.0")) (.float (lit "-0.0")) = true ∧ (Value.float (lit "0.0")).toJson ≠ (Value.float (lit "-0.0")).toJson := by
  decide +kernel

example : Plain (.obj [(lit "a", .int 1), (lit "b", .null)]) ∧
    Value.eq (.obj [(lit "a", .int 1), (lit "b", .null)]) (.obj [(lit "b", .null), (lit "a", .int 1)]) = true ∧
    Value.eq (.arr [.int 1, .null]) (.arr [.null, .int 1]) = false ∧
    [(lit "b", Value.int 5), (lit "c", .int 6), (lit "b", .int 7)].foldlM (fun v e => Value.set v e.1 e.2) (.obj [(lit "a", .int 1), (lit "b", .null)]) =
      .ok (.obj [(lit "a", .int 1), (lit "b", .int 7), (lit "c", .int 6)]) := by
  refine ⟨by simp [Plain, PlainFields, lit], by kernel_rfl, by kernel_rfl, by kernel_rfl⟩

end Cesride
