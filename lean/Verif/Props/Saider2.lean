import Verif.Props.Diger

/-! # C58: when checking a SAID panics -/

namespace Cesride
open Common Spec

namespace Saider

theorem index_of_mem {o : List (Str × Value)} {k : Str} (h : k ∈ o.map Prod.fst) : ∃ x, (Value.obj o).index k = .ok x := by
  obtain ⟨x, hx⟩ := Option.isSome_iff_exists.mp (hasKey_iff.mpr h)
  exact ⟨x, by rw [Value.index]; simp only [hx]⟩

theorem index_panic {o : List (Str × Value)} {k : Str} : (Value.obj o).index k = .panic ↔ k ∉ o.map Prod.fst := by
  constructor
  · intro h hk
    obtain ⟨x, hx⟩ := index_of_mem hk
    rw [hx] at h
    cases h
  · intro h
    rw [Value.index]
    simp only [lookup_none_iff.mpr h]

theorem toStr_ne_panic (v : Value) : v.toStr ≠ .panic := by cases v <;> simp [Value.toStr]

/-- The check of the field comes last. -/
theorem verify_prefixed {E : Env} {H : Hash} {s : Matter} {sad : Value} {versioned : Option Bool} {kind label : Option Str} {ignore : Option (List Str)} :
    verify E H s sad (some true) versioned kind label ignore =
      (do
        let b ← verify E H s sad (some false) versioned kind label ignore
        if b then do
          let x ← sad.index (label.getD (lit "d"))
          let xs ← x.toStr
          let t ← s.qb64 E
          .ok (decide (xs = t))
        else .ok false) := by
  unfold verify
  dsimp only
  simp only [Option.getD_some, Bool.false_eq_true, if_false, if_true, Res.ok_bind]
  split
  · rfl
  · rfl
  · split
    · rfl
    · rfl
    · cases hs : s.qb64 E with
      | panic => rfl
      | err e => rfl
      | ok t =>
        simp only [Res.ok_bind]
        rename_i sd _
        cases hq : sd.qb64 E with
        | panic => rfl
        | err e => rfl
        | ok t' =>
          simp only [Res.ok_bind]
          split
          · rfl
          · generalize (if versioned.getD true = true then _ else _ : Res Bool) = B
            cases B with
            | panic => rfl
            | err e => rfl
            | ok b =>
              cases b
              · simp only [Res.ok_bind, Bool.false_eq_true, if_false, if_true]
                cases sad.index (label.getD (lit "d")) with
                | panic => rfl
                | err e => rfl
                | ok x =>
                  simp only [Res.ok_bind]
                  cases x.toStr with
                  | panic => rfl
                  | err e => rfl
                  | ok y =>
                    simp only [Res.ok_bind]
                    by_cases hy : y = t
                    · simp [hy]
                    · simp [hy]
              · rfl

theorem verify_object_ne_panic {E : Env} {H : Hash} {s : Matter} {zs : Sizage} (ws : Matter.Wf s zs) {n : Nat} (hn : (s.code, n) ∈ digestSizes)
    {o : List (Str × Value)} {versioned : Option Bool} {kind label : Option Str} {ignore : Option (List Str)} :
    verify E H s (.obj o) (some false) versioned kind label ignore ≠ .panic := by
  have hq : s.qb64 E = .ok (Matter.text s zs) := ws.infil E
  intro h
  unfold verify at h
  dsimp only at h
  split at h
  · rename_i hd
    obtain ⟨_, hno⟩ := derive_panic.mp hd
    exact hno o rfl
  · cases h
  · rename_i raw dsad hd
    obtain ⟨n', z, o1, o', hc, hz, e, hp, rfl, rfl⟩ := derive_ok hd
    injection e with e
    subst e
    obtain ⟨z2, t2, hnew, w2, hq2⟩ := digest_matter E H hc (Value.obj (removeKeys (ignore.getD []) o')).toJson
    have hval : validateDigestCode s.code = .ok () := validateDigestCode_ok.mpr ⟨n, hn⟩
    have hnew' : new E H none none none none (some s.code) (some (H.digest s.code (Value.obj (removeKeys (ignore.getD []) o')).toJson)) none none none =
        .ok { code := s.code, size := 0, raw := H.digest s.code (Value.obj (removeKeys (ignore.getD []) o')).toJson } := by
      unfold new
      simp only [Option.isSome_some, Option.isSome_none, Bool.false_eq_true, or_false, if_true, hval, Res.ok_bind]
      exact hnew
    rw [hnew'] at h
    simp only [hq, hq2, Res.ok_bind, Option.getD_some, Bool.false_eq_true, if_false] at h
    split at h
    · cases h
    · rcases Res.bind_eq_panic.mp h with h | ⟨b, _, h⟩
      · split at h
        · have hm : (Value.obj o).toMap = .ok o := rfl
          rw [hm, Res.ok_bind] at h
          split at h
          · rename_i hv
            have hv1 := hasKey_iff.mp hv
            have hcon := prep_content (ignore := []) hp
            have hv2 : lit "v" ∈ o'.map Prod.fst := by
              have hk := hcon.keys
              rw [List.filter_eq_self.mpr (by simp)] at hk
              have hk : o'.map Prod.fst = _ := hk
              rw [hk]
              exact List.mem_append_left _ hv1
            obtain ⟨x, hx⟩ := index_of_mem hv1
            obtain ⟨y, hy⟩ := index_of_mem hv2
            rw [hx, Res.ok_bind] at h
            rcases Res.bind_eq_panic.mp h with h | ⟨_, _, h⟩
            · exact toStr_ne_panic _ h
            · rw [hy, Res.ok_bind] at h
              rcases Res.bind_eq_panic.mp h with h | ⟨_, _, h⟩
              · exact toStr_ne_panic _ h
              · cases h
          · cases h
        · cases h
      · split at h <;> cases h

end Saider

/-- C58: checking a SAID (that has a text) panics exactly when the value is not a map, or when the field is to be checked, is missing, and all
other checks succeed. -/
theorem C58_panics {E : Env} {H : Hash} {s : Matter} (hs : IsSaid E H s) {t : Str} (ht : s.qb64 E = .ok t) {sad : Value}
    {prefixed versioned : Option Bool} {kind label : Option Str} {ignore : Option (List Str)} :
    Saider.verify E H s sad prefixed versioned kind label ignore = .panic ↔
      (∀ o, sad ≠ .obj o) ∨
      (prefixed = some true ∧ (∃ o, sad = .obj o ∧ label.getD (lit "d") ∉ o.map Prod.fst) ∧
        Saider.verify E H s sad none versioned kind label ignore = .ok true) := by
  obtain ⟨_, _, _, _, _, _, _, _, _, hs⟩ := hs
  obtain ⟨⟨_, _, _, _, _, hm⟩, n, hn⟩ := Saider.new_matter hs
  obtain ⟨z, w⟩ := Matter.new_text_wf hm ht
  have hnone : ∀ sad, Saider.verify E H s sad none versioned kind label ignore = Saider.verify E H s sad (some false) versioned kind label ignore := fun _ => rfl
  by_cases ho : ∃ o, sad = .obj o
  · obtain ⟨o, rfl⟩ := ho
    have hnp := Saider.verify_object_ne_panic (E := E) (H := H) w hn (o := o) (versioned := versioned) (kind := kind) (label := label) (ignore := ignore)
    have hfirst : ¬ ∀ o', Value.obj o ≠ .obj o' := fun h => h o rfl
    have key : ∀ p : Option Bool, p ≠ some true → Saider.verify E H s (.obj o) p versioned kind label ignore ≠ .panic := by
      intro p hp
      rcases p with _ | _ | _
      · exact hnp
      · exact hnp
      · exact absurd rfl hp
    by_cases hp : prefixed = some true
    · subst hp
      rw [Saider.verify_prefixed, hnone]
      generalize hB : Saider.verify E H s (.obj o) (some false) versioned kind label ignore = B at hnp
      cases B with
      | panic => exact absurd rfl hnp
      | err e => simp
      | ok b =>
        cases b with
        | false => simp
        | true =>
          simp only [Res.ok_bind, if_true]
          constructor
          · intro h
            right
            refine ⟨trivial, ⟨o, rfl, ?_⟩, trivial⟩
            rcases Res.bind_eq_panic.mp h with h | ⟨x, hx, h⟩
            · exact Saider.index_panic.mp h
            · rcases Res.bind_eq_panic.mp h with h | ⟨y, hy, h⟩
              · exact absurd h (Saider.toStr_ne_panic x)
              · rw [ht] at h; cases h
          · rintro (h | ⟨_, ⟨o', e, hk⟩, _⟩)
            · exact absurd h hfirst
            · injection e with e
              subst e
              rw [Saider.index_panic.mpr hk]
              rfl
    · constructor
      · intro h
        exact absurd h (key _ hp)
      · rintro (h | ⟨h, _⟩)
        · exact absurd h hfirst
        · exact absurd h hp
  · have hno : ∀ o, sad ≠ .obj o := fun o h => ho ⟨o, h⟩
    constructor
    · intro _
      exact .inl hno
    · intro _
      have := (Saider.derive_panic (H := H) (label := label.getD (lit "d")) (kind := kind) (ignore := ignore)).mpr ⟨⟨n, hn⟩, hno⟩
      unfold Saider.verify
      dsimp only
      rw [this]

/-- C58: `saidify` never panics. -/
theorem C58_saidify (E : Env) (H : Hash) (sad : Value) (code kind label : Option Str) (ignore : Option (List Str)) :
    Saider.saidify E H sad code kind label ignore ≠ .panic := by
  intro h
  unfold Saider.saidify at h
  generalize code.getD (lit "E") = code at h
  generalize label.getD (lit "d") = label at h
  dsimp only at h
  rcases Res.bind_eq_panic.mp h with h | ⟨o, ho, h⟩
  · cases sad <;> cases h
  cases sad with
  | obj o' =>
    have e : o' = o := by injection ho
    subst e
    split at h
    · cases h
    rename_i hk
    rcases Res.bind_eq_panic.mp h with h | ⟨⟨dig, x⟩, hx, h⟩
    · exact (Saider.derive_panic.mp h).2 _ rfl
    obtain ⟨n, z, o1, o2, hc, hz, _, hp, rfl, rfl⟩ := Saider.derive_ok hx
    have hkey : label ∈ o1.map Prod.fst := by
      rename_i e
      injection e with e
      subst e
      exact Saider.hasKey_iff.mp (by simpa using hk)
    obtain ⟨s, sad', hok⟩ := Saider.saidify_of E H (ignore := ignore) hc hz hkey hp
    rename_i e
    injection e with e
    subst e
    unfold Saider.saidify at hok
    simp only [Option.getD_some] at hok
    obtain ⟨_, hm, hok⟩ := Res.bind_eq_ok.mp hok
    have hm' : (Value.obj o').toMap = .ok o' := rfl
    rw [hm'] at hm
    injection hm with hm
    subst hm
    rw [if_neg hk, hx, Res.ok_bind] at hok
    rw [hok] at h
    cases h
  | _ => cases ho

/-- The panics of C58 happen: a list, and a map without the field whose dummied content has the digest. -/
example (E : Env) : ∃ s t, IsSaid E zeroHash s ∧ s.qb64 E = .ok t ∧ Saider.verify E zeroHash s (.arr []) none none none none none = .panic ∧
    Saider.verify E zeroHash s (.obj [(lit "a", .null)]) (some true) none none none none = .panic ∧
    Saider.verify E zeroHash s (.obj [(lit "a", .null)]) none none none none none = .ok true := by
  obtain ⟨s, sad', h⟩ := C43_succeeds_plain E zeroHash (o := [(lit "a", .null), (lit "d", .null)]) (code := lit "E") (label := lit "d") (n := 32) none
    (by decide +kernel) (by decide +kernel) (by decide +kernel)
  obtain ⟨_, _, t, _, _, ht, hcode, _⟩ := C43_map h
  have hs := C44_reachable h
  have hraw : s.raw = zeroHash.digest (lit "E") [] := by
    obtain ⟨n, z, o, o', t, hc, hz, _, hin, hpr, rfl, hq, _⟩ := Saider.saidify_ok h
    rfl
  have hv : Saider.verify E zeroHash s (.obj [(lit "a", .null)]) none none none none none = .ok true := by
    obtain ⟨_, _, _, _, _, _, _, _, _, hs'⟩ := hs
    obtain ⟨⟨_, _, _, _, _, hm⟩, n, hn⟩ := Saider.new_matter hs'
    obtain ⟨z, w⟩ := Matter.new_text_wf hm ht
    rw [Saider.verify_true w]
    refine ⟨n, _, _, t, hn, rfl, rfl, ?_, ht, ?_, by simp⟩
    · rw [hraw, hcode]; rfl
    · intro _; rfl
  refine ⟨s, t, hs, ht, (C58_panics hs ht).mpr (.inl (by simp)), (C58_panics hs ht).mpr (.inr ⟨rfl, ⟨_, rfl, by decide +kernel⟩, hv⟩), hv⟩

end Cesride
