import Verif.Lemmas.Saider
import Verif.Spec.Said

/-! # Lemmas about SAIDs: content, `saidify`, `verify` -/

namespace Cesride
open Common Spec

namespace Saider

theorem prep_kind {kind : Option Str} {o o' : List (Str × Value)} (h : prep kind o = .ok o') : kind = none ∨ kind = some (lit "JSON") := by
  have : kind.getD (lit "JSON") = lit "JSON" := by
    by_cases hv : Value.hasKey o (lit "v") = true
    · obtain ⟨r, hr, _⟩ := prep_versioned h hv
      obtain ⟨_, _, _, _, _, _, _, _, _, hk⟩ := sizeify_ok hr
      exact hk
    · rw [prep, if_neg hv] at h
      split at h
      · assumption
      · cases h
  cases kind with
  | none => exact .inl rfl
  | some k => right; rw [← this]; rfl

theorem keys_insert (o : List (Str × Value)) (k : Str) (x : Value) :
    (Value.insert o k x).map Prod.fst = o.map Prod.fst ++ if k ∈ o.map Prod.fst then [] else [k] := by
  induction o with
  | nil => simp [Value.insert]
  | cons e o ih =>
    obtain ⟨a, b⟩ := e
    rw [Value.insert]
    by_cases h : a = k
    · subst h
      simp
    · rw [if_neg h, List.map_cons, ih]
      have : (k ∈ List.map Prod.fst ((a, b) :: o)) ↔ k ∈ List.map Prod.fst o := by
        simp only [List.map_cons, List.mem_cons]
        exact ⟨fun h' => h'.resolve_left (fun e => h e.symm), .inr⟩
      simp only [this]
      rfl

/-- The prepared map is the content. -/
theorem prep_content {kind : Option Str} {o o' : List (Str × Value)} {label : Str} {n : Nat} {ignore : List Str}
    (h : prep kind (Value.insert o label (dummy n)) = .ok o') : SaidContent n label ignore o (removeKeys ignore o') := by
  have hl : label ≠ lit "v" := by
    rintro rfl
    exact prep_label_v h
  by_cases hv : Value.hasKey (Value.insert o label (dummy n)) (lit "v") = true
  · obtain ⟨r, hr, hk, _⟩ := prep_versioned h hv
    obtain ⟨o'', vs', e1, _, e2, hdv, hlen, _⟩ := C41_size hr
    obtain ⟨o1, o2, vs, i, sz, e, hn, ht, hi, _⟩ := sizeify_ok hr
    injection e1 with e1
    rw [hk] at e2
    injection e2 with e2
    have hin : lit "v" ∈ (Value.insert o label (dummy n)).map Prod.fst := hasKey_iff.mp hv
    have hold : o.lookup (lit "v") = some (.str vs) := by
      injection e with e
      rw [← lookup_insert_ne o (dummy n) (Ne.symm hl), e, lookup_of_split hn]
    refine ⟨?_, ?_, ?_, ?_⟩
    · rw [keys_removeKeys, e2, ← e1, keys_insert, if_pos hin, List.append_nil, keys_insert]
    · intro hi
      rw [lookup_removeKeys, if_neg hi, e2, lookup_insert_ne _ _ hl, ← e1, lookup_insert_self]
      rfl
    · intro k h1 h2 h3
      rw [lookup_removeKeys, if_neg h1, e2, lookup_insert_ne _ _ h3, ← e1, lookup_insert_ne _ _ h2]
    · intro h1 x hx
      rw [hold] at hx
      injection hx with hx
      obtain ⟨hT, hpi, hkk⟩ := deversify_ok.mp hdv
      have hid : r.ident = i := by
        rw [e] at hr
        rw [sizeify_eq hn ht hi (by
          obtain ⟨_, _, _, _, _, _, _, _, _, hk⟩ := sizeify_ok hr
          exact hk)] at hr
        split at hr
        · injection hr with hr; rw [← hr]
        · cases hr
      refine ⟨vs, vs', i, sz, r.raw.length % 2 ^ 32, hx.symm, ?_, hi, ht, ?_, ?_⟩
      · rw [lookup_removeKeys, if_neg h1, e2, lookup_insert_self]
      · simp only at hT hkk
        rw [hid, hkk] at hT
        exact hT
      · rintro rfl
        rw [hlen, hk]
        rfl
  · rw [prep, if_neg hv] at h
    split at h
    case isFalse => cases h
    injection h with h
    subst h
    refine ⟨?_, ?_, ?_, ?_⟩
    · rw [keys_removeKeys, keys_insert]
    · intro hi
      rw [lookup_removeKeys, if_neg hi, lookup_insert_self]
      rfl
    · intro k h1 h2 h3
      rw [lookup_removeKeys, if_neg h1, lookup_insert_ne _ _ h2]
    · intro h1 x hx
      exfalso
      apply hv
      rw [hasKey_eq_isSome, lookup_insert_ne _ _ (Ne.symm hl), hx]; rfl

/-- Inversion of `saidify`. -/
theorem saidify_ok {E : Env} {H : Hash} {sad sad' : Value} {code kind label : Option Str} {ignore : Option (List Str)} {s : Matter}
    (h : saidify E H sad code kind label ignore = .ok (s, sad')) :
    ∃ n z o o' t, (code.getD (lit "E"), n) ∈ digestSizes ∧ Matter.sizage (code.getD (lit "E")) = .ok z ∧ sad = .obj o ∧
      label.getD (lit "d") ∈ o.map Prod.fst ∧ prep kind (Value.insert o (label.getD (lit "d")) (dummy z.fs)) = .ok o' ∧
      s = { code := code.getD (lit "E"), size := 0, raw := H.digest (code.getD (lit "E")) (Value.obj (removeKeys (ignore.getD []) o')).toJson } ∧
      s.qb64 E = .ok t ∧ sad' = .obj (Value.insert o' (label.getD (lit "d")) (.str t)) := by
  unfold saidify at h
  generalize code.getD (lit "E") = code at h ⊢
  generalize label.getD (lit "d") = label at h ⊢
  dsimp only at h
  obtain ⟨map, hm, h⟩ := Res.bind_eq_ok.mp h
  split at h
  · cases h
  rename_i hk
  obtain ⟨⟨d, sad1⟩, hd, h⟩ := Res.bind_eq_ok.mp h
  obtain ⟨n, z, o, o', hc, hz, rfl, hp, rfl, rfl⟩ := derive_ok hd
  injection hm with hm
  subst hm
  have hl : label ≠ lit "v" := by
    rintro rfl
    exact prep_label_v hp
  obtain ⟨hlab, _, hpi⟩ := prep_idem (y := .null) hl hp (prep_kind hp)
  obtain ⟨s', hs, h⟩ := Res.bind_eq_ok.mp h
  have hin : Value.hasKey o' label = true := by rw [hasKey_eq_isSome, hlab]; rfl
  have hder := (derive_eq H (o := o') (label := label) (kind := kind) (ignore := ignore) hc hz).1 o' (by rw [insert_lookup hlab]; exact hpi)
  have hval : validateDigestCode code = .ok () := validateDigestCode_ok.mpr ⟨n, hc⟩
  obtain ⟨_, t, hnew, _, hq⟩ := digest_matter E H hc (Value.obj (removeKeys (ignore.getD []) o')).toJson
  have hs' : s' = { code := code, size := 0, raw := H.digest code (Value.obj (removeKeys (ignore.getD []) o')).toJson } := by
    unfold new at hs
    have hm : (Value.obj o').toMap = .ok o' := rfl
    simp only [Option.isSome_some, Option.isSome_none, Bool.false_eq_true, or_true, if_true, hm, Res.ok_bind, Option.getD_some, hin, Bool.not_true,
      if_false, hval, hder] at hs
    rw [hnew] at hs
    injection hs with hs
    exact hs.symm
  obtain ⟨t', ht, h⟩ := Res.bind_eq_ok.mp h
  obtain ⟨sad2, hset, h⟩ := Res.bind_eq_ok.mp h
  injection h with h
  injection h with h1 h2
  injection hset with hset
  refine ⟨n, z, o, o', t', hc, hz, rfl, ?_, hp, ?_, ?_, ?_⟩
  · simp only [Bool.not_eq_true, Bool.not_eq_false'] at hk
    exact hasKey_iff.mp (by simpa using hk)
  · rw [← h1, hs']
  · rw [← h1]; exact ht
  · rw [← h2, hset]

/-- When `saidify` succeeds. -/
theorem saidify_of (E : Env) (H : Hash) {o o' : List (Str × Value)} {code label : Str} {n : Nat} {z : Sizage} {kind : Option Str} {ignore : Option (List Str)}
    (hc : (code, n) ∈ digestSizes) (hz : Matter.sizage code = .ok z) (hl : label ∈ o.map Prod.fst)
    (hp : prep kind (Value.insert o label (dummy z.fs)) = .ok o') :
    ∃ s sad', saidify E H (.obj o) (some code) kind (some label) ignore = .ok (s, sad') := by
  have hlv : label ≠ lit "v" := by
    rintro rfl
    exact prep_label_v hp
  have hder := (derive_eq H (o := o) (label := label) (kind := kind) (ignore := ignore) hc hz).1 o' hp
  obtain ⟨hlab, _, hpi⟩ := prep_idem (y := .null) hlv hp (prep_kind hp)
  have hder2 := (derive_eq H (o := o') (label := label) (kind := kind) (ignore := ignore) hc hz).1 o' (by rw [insert_lookup hlab]; exact hpi)
  have hin : Value.hasKey o' label = true := by rw [hasKey_eq_isSome, hlab]; rfl
  have hin0 : Value.hasKey o label = true := hasKey_iff.mpr hl
  have hval : validateDigestCode code = .ok () := validateDigestCode_ok.mpr ⟨n, hc⟩
  obtain ⟨_, t, hnew, _, hq⟩ := digest_matter E H hc (Value.obj (removeKeys (ignore.getD []) o')).toJson
  have hm : ∀ m, (Value.obj m).toMap = .ok m := fun _ => rfl
  have hs : new E H (some (.obj o')) (some label) kind ignore (some code) none none none none =
      .ok { code := code, size := 0, raw := H.digest code (Value.obj (removeKeys (ignore.getD []) o')).toJson } := by
    unfold new
    simp only [Option.isSome_some, Option.isSome_none, Bool.false_eq_true, or_true, if_true, hm, Res.ok_bind, Option.getD_some, hin, Bool.not_true,
      if_false, hval, hder2]
    exact hnew
  unfold saidify
  simp only [Option.getD_some, hm, Res.ok_bind, hin0, Bool.not_true, Bool.false_eq_true, if_false, hder, hs, hq, Value.set]
  exact ⟨_, _, rfl⟩

/-- A yes of `verify` needs a text. -/
theorem verify_text {E : Env} {H : Hash} {s : Matter} {sad : Value} {prefixed versioned : Option Bool}
    {kind label : Option Str} {ignore : Option (List Str)} (h : verify E H s sad prefixed versioned kind label ignore = .ok true) :
    ∃ t, s.qb64 E = .ok t := by
  unfold verify at h
  dsimp only at h
  split at h
  · cases h
  · simp at h
  · split at h
    · cases h
    · simp at h
    · obtain ⟨t, ht, _⟩ := Res.bind_eq_ok.mp h
      exact ⟨t, ht⟩

/-- A constructed SAID is a constructed primitive with a digest code. -/
theorem new_matter {E : Env} {H : Hash} {sad : Option Value} {label kind : Option Str} {ignore : Option (List Str)} {code : Option Str}
    {raw qb64b : Option (List UInt8)} {qb64 : Option Str} {qb2 : Option (List UInt8)} {s : Matter}
    (h : new E H sad label kind ignore code raw qb64b qb64 qb2 = .ok s) :
    (∃ code raw qb64b qb64 qb2, Matter.new E code raw qb64b qb64 qb2 = .ok s) ∧ ∃ n, (s.code, n) ∈ digestSizes := by
  unfold new at h
  split at h
  · dsimp only at h
    obtain ⟨⟨c, r⟩, hcr, h⟩ := Res.bind_eq_ok.mp h
    refine ⟨⟨_, _, _, _, _, h⟩, ?_⟩
    have hc : ∃ n, (c, n) ∈ digestSizes := by
      split at hcr
      · obtain ⟨u, hu, hcr⟩ := Res.bind_eq_ok.mp hcr
        injection hcr with hcr
        injection hcr with h1 h2
        subst h1
        exact validateDigestCode_ok.mp hu
      · split at hcr
        · cases hcr
        · obtain ⟨m, hm, hcr⟩ := Res.bind_eq_ok.mp hcr
          split at hcr
          · cases hcr
          obtain ⟨c', _, hcr⟩ := Res.bind_eq_ok.mp hcr
          obtain ⟨u, hu, hcr⟩ := Res.bind_eq_ok.mp hcr
          obtain ⟨⟨r', _⟩, _, hcr⟩ := Res.bind_eq_ok.mp hcr
          injection hcr with hcr
          injection hcr with h1 h2
          subst h1
          exact validateDigestCode_ok.mp hu
    obtain ⟨n, hc⟩ := hc
    obtain ⟨z, hz, hf, _⟩ := digest_row hc
    have h : Matter.newWithCodeAndRaw c r = .ok s := h
    rw [Matter.new_fixed hz hf] at h
    split at h
    · cases h
    injection h with h
    subst h
    exact ⟨n, hc⟩
  · obtain ⟨m, hm, h⟩ := Res.bind_eq_ok.mp h
    obtain ⟨u, hu, h⟩ := Res.bind_eq_ok.mp h
    injection h with h
    subst h
    exact ⟨⟨_, _, _, _, _, hm⟩, validateDigestCode_ok.mp hu⟩

/-- When `verify` says yes. -/
theorem verify_true {E : Env} {H : Hash} {s : Matter} {zs : Sizage} (ws : Matter.Wf s zs) {sad : Value} {prefixed versioned : Option Bool}
    {kind label : Option Str} {ignore : Option (List Str)} :
    verify E H s sad prefixed versioned kind label ignore = .ok true ↔
    ∃ n o o' t, (s.code, n) ∈ digestSizes ∧ sad = .obj o ∧ prep kind (Value.insert o (label.getD (lit "d")) (dummy zs.fs)) = .ok o' ∧
      s.raw = H.digest s.code (Value.obj (removeKeys (ignore.getD []) o')).toJson ∧ s.qb64 E = .ok t ∧
      (versioned.getD true = true → o.lookup (lit "v") = o'.lookup (lit "v")) ∧
      (prefixed.getD false = true → o.lookup (label.getD (lit "d")) = some (.str t)) := by
  have hq : s.qb64 E = .ok (Matter.text s zs) := ws.infil E
  have hsz : s.size = 0 ∨ ¬ ∃ n, (s.code, n) ∈ digestSizes := by
    by_cases hc : ∃ n, (s.code, n) ∈ digestSizes
    · obtain ⟨n, hc⟩ := hc
      obtain ⟨z, hz, hf, _⟩ := digest_row hc
      have : z = zs := by have := ws.szg; rw [hz] at this; injection this
      subst this
      exact .inl (ws.fix hf).1
    · exact .inr hc
  unfold verify
  generalize label.getD (lit "d") = label
  generalize prefixed.getD false = prefixed
  generalize versioned.getD true = versioned
  dsimp only
  have core : ∀ {n : Nat} {o o' : List (Str × Value)}, (s.code, n) ∈ digestSizes → prep kind (Value.insert o label (dummy zs.fs)) = .ok o' →
      (verify E H s (.obj o) (some prefixed) (some versioned) kind (some label) ignore = .ok true ↔
        s.raw = H.digest s.code (Value.obj (removeKeys (ignore.getD []) o')).toJson ∧
        (versioned = true → o.lookup (lit "v") = o'.lookup (lit "v")) ∧
        (prefixed = true → o.lookup label = some (.str (Matter.text s zs)))) := by
    intro n o o' hc hp
    have hl : label ≠ lit "v" := by
      rintro rfl
      exact prep_label_v hp
    have hder := (derive_eq H (o := o) (label := label) (kind := kind) (ignore := ignore) hc ws.szg).1 o' hp
    obtain ⟨z2, t2, hnew, w2, hq2⟩ := digest_matter E H hc (Value.obj (removeKeys (ignore.getD []) o')).toJson
    generalize hdig : H.digest s.code (Value.obj (removeKeys (ignore.getD []) o')).toJson = dig at hder hnew w2 hq2 ⊢
    have hval : validateDigestCode s.code = .ok () := validateDigestCode_ok.mpr ⟨n, hc⟩
    have hnew' : new E H none none none none (some s.code) (some dig) none none none = .ok { code := s.code, size := 0, raw := dig } := by
      unfold new
      simp only [Option.isSome_some, Option.isSome_none, Bool.false_eq_true, or_false, if_true, hval, Res.ok_bind]
      exact hnew
    have htext : Matter.text s zs = t2 ↔ s.raw = dig := by
      constructor
      · intro e
        have := ws.text_inj w2 (E := E) (by rw [hq, hq2, e])
        rw [this]
      · intro e
        have hs : s = { code := s.code, size := 0, raw := dig } := by
          cases s
          rcases hsz with hsz | hsz
          · simp only at hsz e
            simp [hsz, e]
          · exact absurd ⟨n, hc⟩ hsz
        rw [← hs, hq] at hq2
        injection hq2
    -- versions
    have hver : ∃ b, ((if versioned = true then do
            let map ← (Value.obj o).toMap
            if Value.hasKey map (lit "v") = true then do
              let v ← (Value.obj o).index (lit "v")
              let vs ← v.toStr
              let w ← (Value.obj o').index (lit "v")
              let ws ← w.toStr
              .ok (decide (vs ≠ ws))
            else .ok false
          else .ok false : Res Bool) = .ok b) ∧ (b = false ↔ (versioned = true → o.lookup (lit "v") = o'.lookup (lit "v"))) := by
      cases versioned with
      | false => exact ⟨false, by simp, by simp⟩
      | true =>
        simp only [if_true, forall_const]
        have hm : (Value.obj o).toMap = .ok o := rfl
        rw [hm, Res.ok_bind]
        by_cases hv : Value.hasKey o (lit "v") = true
        · have hv0 : Value.hasKey (Value.insert o label (dummy zs.fs)) (lit "v") = true := by
            rw [hasKey_eq_isSome, lookup_insert_ne _ _ (Ne.symm hl)]; exact hv
          obtain ⟨r, hr, hk, _⟩ := prep_versioned hp hv0
          obtain ⟨o'', vs', e1, _, e2, _⟩ := C41_size hr
          obtain ⟨o1, o2, vs, i, sz, e, hn, ht, hi, _⟩ := sizeify_ok hr
          injection e with e
          have hold : o.lookup (lit "v") = some (.str vs) := by
            rw [← lookup_insert_ne o (dummy zs.fs) (Ne.symm hl), e, lookup_of_split hn]
          have hnew : o'.lookup (lit "v") = some (.str vs') := by
            rw [hk] at e2
            injection e2 with e2
            rw [e2, lookup_insert_self]
          have i1 : (Value.obj o).index (lit "v") = .ok (.str vs) := by rw [Value.index]; simp only [hold]
          have i2 : (Value.obj o').index (lit "v") = .ok (.str vs') := by rw [Value.index]; simp only [hnew]
          have t1 : ∀ x, (Value.str x).toStr = .ok x := fun _ => rfl
          rw [if_pos hv, i1, Res.ok_bind, t1, Res.ok_bind, i2, Res.ok_bind, t1, Res.ok_bind]
          refine ⟨_, rfl, ?_⟩
          rw [hold, hnew]
          simp
        · rw [if_neg hv]
          refine ⟨false, rfl, ?_⟩
          have h1 : o.lookup (lit "v") = none := by
            rw [hasKey_eq_isSome] at hv
            cases hx : o.lookup (lit "v") with
            | none => rfl
            | some x => rw [hx] at hv; exact absurd rfl hv
          have hv0 : ¬ Value.hasKey (Value.insert o label (dummy zs.fs)) (lit "v") = true := by
            rw [hasKey_eq_isSome, lookup_insert_ne _ _ (Ne.symm hl)]; exact hv
          rw [prep, if_neg hv0] at hp
          split at hp
          case isFalse => cases hp
          injection hp with hp
          rw [h1, ← hp, lookup_insert_ne _ _ (Ne.symm hl), h1]
          simp
    obtain ⟨b, hb, hbi⟩ := hver
    unfold verify
    simp only [Option.getD_some]
    rw [hder]
    simp only
    rw [hnew']
    simp only [hq, hq2, Res.ok_bind]
    by_cases hd : s.raw = dig
    · have ht := htext.mpr hd
      rw [if_neg (by simp [ht])]
      simp only [hb, Res.ok_bind]
      cases b with
      | true =>
        have : ¬ (versioned = true → o.lookup (lit "v") = o'.lookup (lit "v")) := fun h => by simpa using hbi.mpr h
        simp [this]
      | false =>
        have hvv := hbi.mp rfl
        have e : (s.raw = dig ∧ (versioned = true → o.lookup (lit "v") = o'.lookup (lit "v")) ∧
            (prefixed = true → o.lookup label = some (.str (Matter.text s zs)))) ↔
            (prefixed = true → o.lookup label = some (.str (Matter.text s zs))) := ⟨fun h => h.2.2, fun h => ⟨hd, hvv, h⟩⟩
        rw [e, if_neg (by simp)]
        cases prefixed with
        | false => simp
        | true =>
          simp only [if_true, forall_const]
          cases hx : o.lookup label with
          | none =>
            have : (Value.obj o).index label = .panic := by rw [Value.index]; simp only [hx]
            rw [this]
            simp
          | some x =>
            have : (Value.obj o).index label = .ok x := by rw [Value.index]; simp only [hx]
            rw [this, Res.ok_bind]
            cases x with
            | str y =>
              have t1 : (Value.str y).toStr = .ok y := rfl
              rw [t1, Res.ok_bind]
              simp only [Res.ok_bind, decide_eq_true_eq]
              by_cases hy : y = Matter.text s zs
              · simp [hy]
              · simp [hy]
            | _ => simp [Value.toStr]
    · rw [if_pos (fun e => hd (htext.mp e))]
      simp [hd]
  constructor
  · intro h
    have h0 := h
    cases hd : derive H sad (some s.code) kind (some label) ignore with
    | panic => rw [hd] at h; cases h
    | err e => rw [hd] at h; simp at h
    | ok r =>
      obtain ⟨raw, dsad⟩ := r
      obtain ⟨n, z, o, o', hc, hz, rfl, hp, rfl, rfl⟩ := derive_ok hd
      have : z = zs := by have := ws.szg; rw [hz] at this; injection this
      subst this
      have := (core hc hp).mp h0
      exact ⟨n, o, o', _, hc, rfl, hp, this.1, hq, this.2.1, this.2.2⟩
  · rintro ⟨n, o, o', t, hc, rfl, hp, h1, h2, h3, h4⟩
    rw [hq] at h2
    injection h2 with h2
    exact (core hc hp).mpr ⟨h1, h3, by rw [h2]; exact h4⟩

end Saider
end Cesride
