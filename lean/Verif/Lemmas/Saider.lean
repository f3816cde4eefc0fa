import Verif.Lemmas.Reencode
import Verif.Props.Common
import Verif.Model.Saider

/-! # Lemmas about SAIDs -/

namespace Cesride
open Common Spec

theorem validateDigestCode_ok {code : Str} {u : Unit} : validateDigestCode code = .ok u ↔ ∃ n, (code, n) ∈ digestSizes := by
  unfold validateDigestCode
  split
  · rename_i h
    simp only [true_iff]
    simp only [List.contains_iff_mem, List.mem_cons, List.not_mem_nil, or_false] at h
    rcases h with rfl | rfl | rfl | rfl | rfl | rfl | rfl | rfl | rfl
    all_goals first | exact ⟨32, by decide +kernel⟩ | exact ⟨64, by decide +kernel⟩
  · rename_i h
    simp only [reduceCtorEq, false_iff]
    rintro ⟨n, hn⟩
    apply h
    have : ∀ e ∈ digestSizes, [lit "E", lit "F", lit "G", lit "H", lit "I", lit "0D", lit "0E", lit "0F", lit "0G"].contains e.1 = true := by decide +kernel
    exact this _ hn

theorem validateDigestCode_ne_panic (code : Str) : validateDigestCode code ≠ .panic := by
  unfold validateDigestCode; split <;> simp

theorem hashDigest_eq {H : Hash} {code : Str} {n : Nat} (h : (code, n) ∈ digestSizes) (ser : List UInt8) : hashDigest H code ser = .ok (H.digest code ser) := by
  have : ∀ e ∈ digestSizes, (digestSizes.map Prod.fst).contains e.1 = true := by decide +kernel
  rw [hashDigest, this _ h]; rfl

theorem hashDigest_ok {H : Hash} {code : Str} {ser d : List UInt8} (h : hashDigest H code ser = .ok d) :
    d = H.digest code ser ∧ ∃ n, (code, n) ∈ digestSizes := by
  unfold hashDigest at h
  split at h
  · rename_i hc
    injection h with h
    refine ⟨h.symm, ?_⟩
    simp only [List.contains_iff_mem, List.mem_map] at hc
    obtain ⟨⟨a, b⟩, hm, rfl⟩ := hc
    exact ⟨b, hm⟩
  · cases h

/-- The row of a digest code. -/
theorem digest_row {code : Str} {n : Nat} (h : (code, n) ∈ digestSizes) :
    ∃ z, Matter.sizage code = .ok z ∧ z.fs ≠ u32Max ∧ (z.fs - (z.hs + z.ss)) * 3 / 4 - z.ls = n ∧ z.fs = (if n = 32 then 44 else 88) ∧ (n = 32 ∨ n = 64) := by
  have : ∀ e ∈ digestSizes, ∃ z ∈ Matter.sizes.map Prod.snd, Matter.sizage e.1 = .ok z ∧ z.fs ≠ u32Max ∧ (z.fs - (z.hs + z.ss)) * 3 / 4 - z.ls = e.2 ∧
      z.fs = (if e.2 = 32 then 44 else 88) ∧ (e.2 = 32 ∨ e.2 = 64) := by decide +kernel
  obtain ⟨z, _, h1, h2, h3, h4, h5⟩ := this _ h
  exact ⟨z, h1, h2, h3, h4, h5⟩

/-- A digest in its primitive. -/
theorem digest_matter (E : Env) (H : Hash) {code : Str} {n : Nat} (h : (code, n) ∈ digestSizes) (ser : List UInt8) :
    ∃ z t, Matter.new E (some code) (some (H.digest code ser)) none none none = .ok { code := code, size := 0, raw := H.digest code ser } ∧
      Matter.Wf { code := code, size := 0, raw := H.digest code ser } z ∧ Matter.qb64 E { code := code, size := 0, raw := H.digest code ser } = .ok t := by
  obtain ⟨z, h1, h2, h3, _⟩ := digest_row h
  have hl := H.length code n h ser
  have hm := Matter.new_fixed h1 h2 (H.digest code ser)
  rw [h3, if_neg (by omega), ← hl, List.take_length] at hm
  have w : Matter.Wf { code := code, size := 0, raw := H.digest code ser } z :=
    ⟨h1, fun h => absurd h h2, fun _ => ⟨rfl, by simp only [hl, h3]⟩⟩
  exact ⟨z, _, hm, w, w.infil E⟩

namespace Saider

/-- The map a SAID is computed over, before ignored keys are removed. -/
def prep (kind : Option Str) (o : List (Str × Value)) : Res (List (Str × Value)) :=
  if Value.hasKey o (lit "v") then do
    let r ← sizeify (.obj o) kind
    r.ked.toMap
  else if kind.getD (lit "JSON") = lit "JSON" then .ok o
  else .err .value

theorem hasKey_iff {o : List (Str × Value)} {k : Str} : Value.hasKey o k = true ↔ k ∈ o.map Prod.fst := by
  rw [Value.hasKey]
  cases h : o.lookup k with
  | none => simp only [Option.isSome_none, Bool.false_eq_true, false_iff]; exact lookup_none_iff.mp h
  | some x =>
    simp only [Option.isSome_some, true_iff]
    apply Decidable.byContradiction
    intro hn
    rw [lookup_none_iff.mpr hn] at h
    cases h

theorem hasKey_eq_isSome {o : List (Str × Value)} {k : Str} : Value.hasKey o k = (o.lookup k).isSome := rfl

theorem lookup_shiftRemove (o : List (Str × Value)) (k j : Str) : (Value.shiftRemove o k).lookup j = if j = k then none else o.lookup j := by
  induction o with
  | nil => simp [Value.shiftRemove]
  | cons e o ih =>
    obtain ⟨a, b⟩ := e
    unfold Value.shiftRemove at ih ⊢
    by_cases ha : a = k
    · subst ha
      rw [List.filter_cons_of_neg (by simp), ih]
      split
      · rfl
      · rename_i hj
        have : (j == a) = false := by simp [hj]
        rw [List.lookup_cons, this]
    · rw [List.filter_cons_of_pos (by simp [ha]), List.lookup_cons, ih, List.lookup_cons]
      by_cases hj : j = a
      · subst hj
        simp [ha]
      · have : (j == a) = false := by simp [hj]
        rw [this]

theorem keys_shiftRemove (o : List (Str × Value)) (k : Str) : (Value.shiftRemove o k).map Prod.fst = (o.map Prod.fst).filter (fun x => x ≠ k) := by
  unfold Value.shiftRemove
  rw [List.filter_map]
  rfl

theorem shiftRemove_absent {o : List (Str × Value)} {k : Str} (h : k ∉ o.map Prod.fst) : Value.shiftRemove o k = o := by
  unfold Value.shiftRemove
  rw [List.filter_eq_self]
  intro e he
  simp only [ne_eq, decide_not, Bool.not_eq_eq_eq_not, Bool.not_true, decide_eq_false_iff_not]
  rintro rfl
  exact h (List.mem_map_of_mem he)

/-- Removing keys is filtering. -/
theorem removeKeys_eq (ks : List Str) (o : List (Str × Value)) : removeKeys ks o = o.filter (fun e => e.1 ∉ ks) := by
  induction ks generalizing o with
  | nil => rw [removeKeys, List.filter_eq_self.mpr (by simp)]
  | cons k ks ih =>
    rw [removeKeys, ih]
    have : (if Value.hasKey o k = true then Value.shiftRemove o k else o) = Value.shiftRemove o k := by
      split
      · rfl
      · rename_i h
        rw [shiftRemove_absent (fun hk => h (hasKey_iff.mpr hk))]
    rw [this, Value.shiftRemove, List.filter_filter]
    congr 1
    funext e
    simp [List.mem_cons, Bool.and_comm]

theorem lookup_removeKeys (ks : List Str) (o : List (Str × Value)) (j : Str) : (removeKeys ks o).lookup j = if j ∈ ks then none else o.lookup j := by
  induction ks generalizing o with
  | nil => simp [removeKeys]
  | cons k ks ih =>
    rw [removeKeys, ih]
    have : (if Value.hasKey o k = true then Value.shiftRemove o k else o) = Value.shiftRemove o k := by
      split
      · rfl
      · rename_i h
        rw [shiftRemove_absent (fun hk => h (hasKey_iff.mpr hk))]
    rw [this, lookup_shiftRemove]
    by_cases h1 : j ∈ ks
    · simp [h1]
    · by_cases h2 : j = k <;> simp [h1, h2]

theorem keys_removeKeys (ks : List Str) (o : List (Str × Value)) : (removeKeys ks o).map Prod.fst = (o.map Prod.fst).filter (fun k => k ∉ ks) := by
  rw [removeKeys_eq, List.filter_map]
  rfl

/-- What a prepared map with a version field is. -/
theorem prep_versioned {kind : Option Str} {o o' : List (Str × Value)} (h : prep kind o = .ok o') (hv : Value.hasKey o (lit "v") = true) :
    ∃ r, sizeify (.obj o) kind = .ok r ∧ r.ked = .obj o' ∧ r.kind = lit "JSON" := by
  rw [prep, if_pos hv] at h
  obtain ⟨r, hr, h⟩ := Res.bind_eq_ok.mp h
  obtain ⟨_, _, _, _, e, _, _, _, hk⟩ := C41_size hr
  rw [e] at h
  injection h with h
  exact ⟨r, hr, by rw [e, h], hk⟩

theorem prep_ne_panic (kind : Option Str) (o : List (Str × Value)) : prep kind o ≠ .panic := by
  unfold prep
  split
  · intro h
    rcases Res.bind_eq_panic.mp h with h | ⟨r, hr, h⟩
    · exact sizeify_ne_panic _ _ h
    · obtain ⟨_, _, _, _, e, _⟩ := C41_size hr
      rw [e] at h
      cases h
  · split <;> simp

/-- `derive` in terms of the prepared map. -/
theorem derive_eq (H : Hash) {o : List (Str × Value)} {code label : Str} {n : Nat} {z : Sizage} {kind : Option Str} {ignore : Option (List Str)}
    (hc : (code, n) ∈ digestSizes) (hz : Matter.sizage code = .ok z) :
    (∀ o', prep kind (Value.insert o label (dummy z.fs)) = .ok o' →
      derive H (.obj o) (some code) kind (some label) ignore = .ok (H.digest code (Value.obj (removeKeys (ignore.getD []) o')).toJson, .obj o')) ∧
    (∀ e, prep kind (Value.insert o label (dummy z.fs)) = .err e → ∃ e', derive H (.obj o) (some code) kind (some label) ignore = .err e') := by
  have hval : validateDigestCode code = .ok () := validateDigestCode_ok.mpr ⟨n, hc⟩
  have hset : (Value.obj o).set label (dummy z.fs) = .ok (.obj (Value.insert o label (dummy z.fs))) := rfl
  have hmap : ∀ m, (Value.obj m).toMap = .ok m := fun _ => rfl
  generalize ho0 : Value.insert o label (dummy z.fs) = o0 at hset
  have hder : derive H (.obj o) (some code) kind (some label) ignore = (do
      let (kind, sad) ←
        (if Value.hasKey o0 (lit "v") then do
          let result ← sizeify (.obj o0) kind
          .ok (some result.kind, result.ked)
        else .ok (kind, .obj o0) : Res (Option Str × Value))
      let map ← sad.toMap
      let ser := Value.obj (removeKeys (ignore.getD []) map)
      let cpa ← serialize ser kind
      let digest ← hashDigest H code cpa
      .ok (digest, sad)) := by
    unfold derive
    simp only [Option.getD_some, hval, Res.ok_bind, hz, hset, hmap]
  have hser : ∀ (m : List (Str × Value)) (kd : Option Str), kd.getD (lit "JSON") = lit "JSON" →
      (∀ x, m.lookup (lit "v") = some x → ∃ vs r, x = .str vs ∧ deversify vs = .ok r) → serialize (.obj m) kd = .ok (Value.obj m).toJson := by
    intro m kd hkd hm
    have hdump : ∀ knd, knd = lit "JSON" → dumps (.obj m) (some (kd.getD knd)) = .ok (Value.obj m).toJson := by
      rintro _ rfl
      rw [hkd]; rfl
    unfold serialize
    rw [hmap, Res.ok_bind]
    by_cases hk : Value.hasKey m (lit "v") = true
    · rw [if_pos hk]
      obtain ⟨x, hx⟩ := Option.isSome_iff_exists.mp hk
      obtain ⟨vs, r, rfl, hd⟩ := hm x hx
      have hi : (Value.obj m).index (lit "v") = .ok (.str vs) := by rw [Value.index]; simp only [hx]
      have ht : (Value.str vs).toStr = .ok vs := rfl
      rw [hi, Res.ok_bind, ht, Res.ok_bind, hd]
      simp only [Res.ok_bind]
      exact hdump _ (deversify_ok.mp hd).2.2
    · rw [if_neg hk]
      simp only [Res.ok_bind]
      exact hdump _ rfl
  constructor
  · intro o' hp
    rw [hder]
    by_cases hv : Value.hasKey o0 (lit "v") = true
    · obtain ⟨r, hr, hk, hkd⟩ := prep_versioned hp hv
      obtain ⟨o'', vs, e1, _, e2, hdv, _⟩ := C41_size hr
      injection e1 with e1
      subst e1
      rw [if_pos hv, hr]
      simp only [Res.ok_bind, hk, hmap]
      rw [hser]
      · simp only [Res.ok_bind, hashDigest_eq hc]
      · rw [hkd]; rfl
      · intro x hx
        rw [lookup_removeKeys] at hx
        split at hx
        · cases hx
        rw [hk] at e2
        injection e2 with e2
        rw [e2, lookup_insert_self] at hx
        injection hx with hx
        exact ⟨vs, _, hx.symm, hdv⟩
    · rw [prep, if_neg hv] at hp
      split at hp
      case isFalse => cases hp
      rename_i hkd
      injection hp with hp
      subst hp
      rw [if_neg hv]
      simp only [Res.ok_bind, hmap]
      rw [hser]
      · simp only [Res.ok_bind, hashDigest_eq hc]
      · exact hkd
      · intro x hx
        rw [lookup_removeKeys] at hx
        split at hx
        · cases hx
        rw [hasKey_eq_isSome, hx] at hv
        simp at hv
  · intro e hp
    rw [hder]
    by_cases hv : Value.hasKey o0 (lit "v") = true
    · rw [if_pos hv]
      rw [prep, if_pos hv] at hp
      rcases Res.bind_eq_err.mp hp with hp | ⟨r, hr, hp⟩
      · rw [hp]; exact ⟨e, rfl⟩
      · obtain ⟨_, _, _, _, e2, _⟩ := C41_size hr
        rw [e2] at hp
        cases hp
    · rw [prep, if_neg hv] at hp
      split at hp
      · cases hp
      rename_i hkd
      rw [if_neg hv]
      simp only [Res.ok_bind, hmap]
      have : ∃ e', serialize (.obj (removeKeys (ignore.getD []) o0)) kind = .err e' := by
        have hk2 : ¬ Value.hasKey (removeKeys (ignore.getD []) o0) (lit "v") = true := by
          rw [hasKey_eq_isSome, lookup_removeKeys]
          split
          · simp
          · exact hv
        unfold serialize
        rw [hmap, Res.ok_bind, if_neg hk2]
        simp only [Res.ok_bind]
        unfold dumps
        rw [Option.getD_some, if_neg hkd]
        exact ⟨_, rfl⟩
      obtain ⟨e', he'⟩ := this
      rw [he']
      exact ⟨e', rfl⟩

/-- Inversion of `derive`. -/
theorem derive_ok {H : Hash} {sad sad' : Value} {code label : Str} {kind : Option Str} {ignore : Option (List Str)} {dig : List UInt8}
    (h : derive H sad (some code) kind (some label) ignore = .ok (dig, sad')) :
    ∃ n z o o', (code, n) ∈ digestSizes ∧ Matter.sizage code = .ok z ∧ sad = .obj o ∧ prep kind (Value.insert o label (dummy z.fs)) = .ok o' ∧
      sad' = .obj o' ∧ dig = H.digest code (Value.obj (removeKeys (ignore.getD []) o')).toJson := by
  have hc : ∃ n, (code, n) ∈ digestSizes := by
    unfold derive at h
    obtain ⟨u, hu, _⟩ := Res.bind_eq_ok.mp h
    exact validateDigestCode_ok.mp hu
  obtain ⟨n, hc⟩ := hc
  obtain ⟨z, hz, _⟩ := digest_row hc
  cases sad with
  | obj o =>
    obtain ⟨h1, h2⟩ := derive_eq H (o := o) (label := label) (kind := kind) (ignore := ignore) hc hz
    cases hp : prep kind (Value.insert o label (dummy z.fs)) with
    | ok o' =>
      rw [h1 o' hp] at h
      injection h with h
      injection h with h3 h4
      exact ⟨n, z, o, o', hc, hz, rfl, hp, h4.symm, h3.symm⟩
    | err e =>
      obtain ⟨e', he⟩ := h2 e hp
      rw [he] at h
      cases h
    | panic => exact absurd hp (prep_ne_panic _ _)
  | _ =>
    unfold derive at h
    have hval : validateDigestCode code = .ok () := validateDigestCode_ok.mpr ⟨n, hc⟩
    simp [hval, hz, Value.set] at h

/-- `derive` panics exactly on a value that is not a map (with a digest code). -/
theorem derive_panic {H : Hash} {sad : Value} {code label : Str} {kind : Option Str} {ignore : Option (List Str)} :
    derive H sad (some code) kind (some label) ignore = .panic ↔ (∃ n, (code, n) ∈ digestSizes) ∧ ∀ o, sad ≠ .obj o := by
  by_cases hc : ∃ n, (code, n) ∈ digestSizes
  · obtain ⟨n, hc⟩ := hc
    obtain ⟨z, hz, _⟩ := digest_row hc
    constructor
    · intro h
      refine ⟨⟨n, hc⟩, ?_⟩
      rintro o rfl
      obtain ⟨h1, h2⟩ := derive_eq H (o := o) (label := label) (kind := kind) (ignore := ignore) hc hz
      cases hp : prep kind (Value.insert o label (dummy z.fs)) with
      | ok o' => rw [h1 o' hp] at h; cases h
      | err e =>
        obtain ⟨e', he⟩ := h2 e hp
        rw [he] at h; cases h
      | panic => exact prep_ne_panic _ _ hp
    · rintro ⟨_, h⟩
      cases sad with
      | obj o => exact absurd rfl (h o)
      | _ =>
        unfold derive
        have hval : validateDigestCode code = .ok () := validateDigestCode_ok.mpr ⟨n, hc⟩
        simp [hval, hz, Value.set]
  · constructor
    · intro h
      unfold derive at h
      rcases Res.bind_eq_panic.mp h with h | ⟨u, hu, _⟩
      · exact absurd h (validateDigestCode_ne_panic _)
      · exact absurd (validateDigestCode_ok.mp hu) hc
    · intro h; exact absurd h.1 hc

/-- A prepared map has its label and is stable under preparing again, whatever was in the label. -/
theorem prep_idem {kind kind' : Option Str} {o o' : List (Str × Value)} {label : Str} {x y : Value} (hl : label ≠ lit "v")
    (h : prep kind (Value.insert o label x) = .ok o') (hk' : kind' = none ∨ kind' = some (lit "JSON")) :
    o'.lookup label = some x ∧ prep kind' (Value.insert (Value.insert o' label y) label x) = .ok o' ∧ prep kind' o' = .ok o' := by
  have hkd : kind'.getD (lit "JSON") = lit "JSON" := by rcases hk' with rfl | rfl <;> rfl
  have hlab : o'.lookup label = some x ∧ prep kind' o' = .ok o' := by
    by_cases hv : Value.hasKey (Value.insert o label x) (lit "v") = true
    · obtain ⟨r, hr, hk, hkd⟩ := prep_versioned h hv
      obtain ⟨r', hr', hk2, _⟩ := C41_idempotent hr hk'
      obtain ⟨o'', vs, e1, _, e2, _⟩ := C41_size hr
      injection e1 with e1
      rw [hk] at e2 hk2 hr'
      injection e2 with e2
      constructor
      · rw [e2, lookup_insert_ne _ _ hl, ← e1, lookup_insert_self]
      · rw [prep, if_pos]
        · rw [hr']
          simp only [Res.ok_bind, hk2]
          rfl
        · rw [hasKey_eq_isSome, e2, lookup_insert_self]; rfl
    · rw [prep, if_neg hv] at h
      split at h
      case isFalse => cases h
      injection h with h
      constructor
      · rw [← h, lookup_insert_self]
      · rw [← h, prep, if_neg hv, if_pos hkd]
  refine ⟨hlab.1, ?_, hlab.2⟩
  rw [insert_insert, insert_lookup hlab.1]
  exact hlab.2

/-- With the label `v` nothing can be prepared. -/
theorem prep_label_v {kind : Option Str} {o o' : List (Str × Value)} {n : Nat} : prep kind (Value.insert o (lit "v") (dummy n)) ≠ .ok o' := by
  intro h
  obtain ⟨r, hr, _⟩ := prep_versioned h (by rw [hasKey_eq_isSome, lookup_insert_self]; rfl)
  obtain ⟨o1, o2, vs, i, sz, e, hn, ht, hi, _⟩ := sizeify_ok hr
  injection e with e
  have h1 := lookup_insert_self o (lit "v") (dummy n)
  rw [e, lookup_of_split hn] at h1
  injection h1 with h1
  unfold dummy at h1
  injection h1 with h1
  obtain ⟨x, y, z, rfl, hw, _⟩ := ht
  obtain ⟨hw1, hw2⟩ := hw
  cases i with
  | nil => simp at hw1
  | cons c i =>
    have hc : c ∈ List.replicate n (ch '#') := by rw [← h1]; simp
    rw [List.eq_of_mem_replicate hc] at hw2
    have := hw2 (ch '#') (by simp)
    revert this
    decide +kernel

end Saider
end Cesride
