import Verif.Model.Short
import Verif.Props.Saider2
import Verif.Props.Matter
import Verif.Props.Diger

/-! # C77: computing a SAID is stable -/

namespace Cesride
open Common Spec

namespace Saider

/-- With a code, a SAID made from a map is the digest that `derive` computes. -/
theorem newWithSad_code {E : Env} {H : Hash} {sad : Value} {label kind : Option Str} {ignore : Option (List Str)} {code : Str} :
    newWithSad E H sad label kind ignore (some code) =
      (match sad.toMap with
      | .ok map =>
        if Value.hasKey map (label.getD (lit "d")) then (do
          validateDigestCode code
          let (raw, _) ← derive H sad (some code) kind (some (label.getD (lit "d"))) ignore
          Matter.new E (some code) (some raw) none none none)
        else .err .value
      | .err e => .err e
      | .panic => .panic) := by
  unfold newWithSad new
  simp only [Option.isSome_some, Option.isSome_none, Bool.false_eq_true, or_true, if_true]
  cases hm : sad.toMap with
  | panic => rfl
  | err e => rfl
  | ok map =>
    simp only [Res.ok_bind]
    cases hk : Value.hasKey map (label.getD (lit "d")) with
    | false => rfl
    | true =>
      simp only [Bool.not_true, Bool.false_eq_true, if_false, if_true, Res.ok_bind]
      cases validateDigestCode code with
      | panic => rfl
      | err e => rfl
      | ok u =>
        simp only [Res.ok_bind]
        cases derive H sad (some code) kind (some (label.getD (lit "d"))) ignore with
        | panic => rfl
        | err e => rfl
        | ok p => rfl

end Saider

/-- C77. The SAID made from a map with a given code is the one that `saidify` computes, and exists exactly when `saidify` succeeds. -/
theorem C77_same_as_saidify {E : Env} {H : Hash} {sad : Value} {code : Str} {kind label : Option Str} {ignore : Option (List Str)} (s : Matter) :
    Saider.newWithSad E H sad label kind ignore (some code) = .ok s ↔ ∃ sad', Saider.saidify E H sad (some code) kind label ignore = .ok (s, sad') := by
  rw [Saider.newWithSad_code]
  constructor
  · intro h
    split at h
    · rename_i map hm
      split at h
      · rename_i hk
        obtain ⟨u, hu, h⟩ := Res.bind_eq_ok.mp h
        obtain ⟨⟨raw, sad1⟩, hd, h⟩ := Res.bind_eq_ok.mp h
        obtain ⟨n, z, o, o', hc, hz, rfl, hp, rfl, rfl⟩ := Saider.derive_ok hd
        injection hm with hm
        subst hm
        obtain ⟨s', sad', hs⟩ := Saider.saidify_of E H (ignore := ignore) hc hz (Saider.hasKey_iff.mp hk) hp
        have e : Saider.saidify E H (.obj o) (some code) kind label ignore = Saider.saidify E H (.obj o) (some code) kind (some (label.getD (lit "d"))) ignore := rfl
        rw [e]
        refine ⟨sad', ?_⟩
        rw [hs]
        obtain ⟨n2, z2, o2, o3, t, hc2, hz2, e1, _, hp2, e2, _⟩ := Saider.saidify_ok hs
        injection e1 with e1
        subst e1
        simp only [Option.getD_some] at hz2 hp2 e2
        rw [hz] at hz2
        injection hz2 with hz2
        subst hz2
        rw [hp] at hp2
        injection hp2 with hp2
        subst hp2
        obtain ⟨_, _, hnew, _, _⟩ := digest_matter E H hc (Value.obj (Saider.removeKeys (ignore.getD []) o')).toJson
        dsimp only at h
        rw [hnew] at h
        injection h with h
        rw [e2, ← h]
      · cases h
    · cases h
    · cases h
  · rintro ⟨sad', h⟩
    obtain ⟨n, z, o, o', t, hc, hz, rfl, hin, hp, rfl, hq, rfl⟩ := Saider.saidify_ok h
    simp only [Option.getD_some] at hc hz hp hq ⊢
    have hm : (Value.obj o).toMap = .ok o := rfl
    have hder := (Saider.derive_eq H (o := o) (label := label.getD (lit "d")) (kind := kind) (ignore := ignore) hc hz).1 o' hp
    have hval : validateDigestCode code = .ok () := validateDigestCode_ok.mpr ⟨n, hc⟩
    obtain ⟨_, _, hnew, _, _⟩ := digest_matter E H hc (Value.obj (Saider.removeKeys (ignore.getD []) o')).toJson
    simp only [hm, Saider.hasKey_iff.mpr hin, if_true, hval, hder, Res.ok_bind]
    exact hnew

/-- C77. Without a code the code is that of the primitive at the start of the text in the field, or Blake3-256 for an empty text. -/
theorem C77_code_from_field {E : Env} {H : Hash} {o : List (Str × Value)} {kind label : Option Str} {ignore : Option (List Str)} :
    (∀ t m, o.lookup (label.getD (lit "d")) = some (.str t) → t ≠ [] → Matter.ofText E t = .ok m →
      Saider.newWithSad E H (.obj o) label kind ignore none = Saider.newWithSad E H (.obj o) label kind ignore (some m.code)) ∧
    (o.lookup (label.getD (lit "d")) = some (.str []) →
      Saider.newWithSad E H (.obj o) label kind ignore none = Saider.newWithSad E H (.obj o) label kind ignore (some (lit "E"))) ∧
    (∀ t e, o.lookup (label.getD (lit "d")) = some (.str t) → t ≠ [] → Matter.ofText E t = .err e →
      Saider.newWithSad E H (.obj o) label kind ignore none = .err e) ∧
    (∀ v, o.lookup (label.getD (lit "d")) = some v → (∀ t, v ≠ .str t) → Saider.newWithSad E H (.obj o) label kind ignore none = .err .validation) ∧
    (o.lookup (label.getD (lit "d")) = none → Saider.newWithSad E H (.obj o) label kind ignore none = .err .value) := by
  have hm : (Value.obj o).toMap = .ok o := rfl
  have hix : ∀ v, o.lookup (label.getD (lit "d")) = some v → (Value.obj o).index (label.getD (lit "d")) = .ok v := by
    intro v hv
    simp [Value.index, hv]
  have hk : ∀ v, o.lookup (label.getD (lit "d")) = some v → Value.hasKey o (label.getD (lit "d")) = true := by
    intro v hv
    rw [Saider.hasKey_eq_isSome, hv]; rfl
  refine ⟨?_, ?_, ?_, ?_, ?_⟩
  · intro t m ht h0 hmt
    have hmt' : Matter.new E none none none (some t) none = .ok m := hmt
    unfold Saider.newWithSad Saider.new
    simp only [Option.isSome_some, Option.isSome_none, Bool.false_eq_true, or_true, if_true, hm, Res.ok_bind, hk _ ht, Bool.not_true, if_false, hix _ ht,
      Value.toStr, if_neg h0, hmt']
  · intro ht
    unfold Saider.newWithSad Saider.new
    simp only [Option.isSome_some, Option.isSome_none, Bool.false_eq_true, or_true, if_true, hm, Res.ok_bind, hk _ ht, Bool.not_true, if_false, hix _ ht,
      Value.toStr]
  · intro t e ht h0 hmt
    have hmt' : Matter.new E none none none (some t) none = .err e := hmt
    unfold Saider.newWithSad Saider.new
    simp only [Option.isSome_some, Option.isSome_none, Bool.false_eq_true, or_true, if_true, hm, Res.ok_bind, hk _ ht, Bool.not_true, if_false, hix _ ht,
      Value.toStr, if_neg h0, hmt', Res.err_bind]
  · intro v hv hns
    have : v.toStr = .err .conversion := by
      cases v with
      | str t => exact absurd rfl (hns t)
      | _ => rfl
    unfold Saider.newWithSad Saider.new
    simp only [Option.isSome_some, Option.isSome_none, Bool.false_eq_true, or_true, if_true, hm, Res.ok_bind, hk _ hv, Bool.not_true, if_false, hix _ hv,
      this, Res.err_bind]
  · intro hv
    have hk : Value.hasKey o (label.getD (lit "d")) = false := by rw [Saider.hasKey_eq_isSome, hv]; rfl
    unfold Saider.newWithSad Saider.new
    simp only [Option.isSome_some, Option.isSome_none, Bool.false_eq_true, or_true, if_true, hm, Res.ok_bind, hk, Bool.not_false, Res.err_bind]

/-- C77. `saidify` leaves what it made as it is: applied to its own result, with the same arguments, it gives the same SAID and the same map, and the
SAID made from that map without naming a code is the same too. -/
theorem C77_fixed_point {E : Env} {H : Hash} {sad sad' : Value} {code kind label : Option Str} {ignore : Option (List Str)} {s : Matter}
    (h : Saider.saidify E H sad code kind label ignore = .ok (s, sad')) :
    Saider.saidify E H sad' code kind label ignore = .ok (s, sad') ∧ Saider.newWithSad E H sad' label kind ignore none = .ok s := by
  obtain ⟨n, z, o, o', t, hc, hz, rfl, hin, hp, rfl, hq, rfl⟩ := Saider.saidify_ok h
  have hl : label.getD (lit "d") ≠ lit "v" := by
    intro e
    rw [e] at hp
    exact Saider.prep_label_v hp
  obtain ⟨hlab, hp2, _⟩ := Saider.prep_idem (y := .str t) hl hp (Saider.prep_kind hp)
  have hin2 : label.getD (lit "d") ∈ (Value.insert o' (label.getD (lit "d")) (.str t)).map Prod.fst :=
    Saider.hasKey_iff.mp (by rw [Saider.hasKey_eq_isSome, lookup_insert_self]; rfl)
  obtain ⟨s', sad2, h2⟩ := Saider.saidify_of E H (ignore := ignore) hc hz hin2 hp2
  have key : Saider.saidify E H (.obj (Value.insert o' (label.getD (lit "d")) (.str t))) (some (code.getD (lit "E"))) kind (some (label.getD (lit "d"))) ignore =
      .ok ({ code := code.getD (lit "E"), size := 0, raw := H.digest (code.getD (lit "E")) (Value.obj (Saider.removeKeys (ignore.getD []) o')).toJson },
        .obj (Value.insert o' (label.getD (lit "d")) (.str t))) := by
    rw [h2]
    obtain ⟨n3, z3, o3, o4, t3, _, hz3, e1, _, hp3, e2, hq3, e3⟩ := Saider.saidify_ok h2
    simp only [Option.getD_some] at hz3 hp3 e2 hq3 e3
    injection e1 with e1
    rw [hz] at hz3
    injection hz3 with hz3
    subst hz3
    rw [← e1, hp2] at hp3
    injection hp3 with hp3
    subst hp3
    subst e2
    rw [hq] at hq3
    injection hq3 with hq3
    subst hq3
    rw [e3]
  refine ⟨key, ?_⟩
  obtain ⟨_, t', hnew, _, hq'⟩ := digest_matter E H hc (Value.obj (Saider.removeKeys (ignore.getD []) o')).toJson
  have hcode : Spec.IsCode (code.getD (lit "E")) := by
    have : ∀ e ∈ digestSizes, e ∈ Spec.fixedCodes := by decide +kernel
    exact Or.inl ⟨n, this _ hc⟩
  obtain ⟨t2, hq2, _, hmt, _⟩ := C01_text_roundtrip E (Obtained.built hcode hnew)
  rw [hq] at hq2
  injection hq2 with hq2
  subst hq2
  have ht0 : t ≠ [] := by
    rintro rfl
    exact absurd hmt (by intro h; cases h)
  rw [(C77_code_from_field (E := E) (H := H) (kind := kind) (ignore := ignore)).1 t _ (lookup_insert_self _ _ _) ht0 hmt]
  exact (C77_same_as_saidify _).mpr ⟨_, key⟩

/-- C77. What the field held before has no influence. -/
theorem C77_field_ignored {E : Env} {H : Hash} {o : List (Str × Value)} {code kind label : Option Str} {ignore : Option (List Str)} (y : Value)
    (hin : label.getD (lit "d") ∈ o.map Prod.fst) :
    Saider.saidify E H (.obj (Value.insert o (label.getD (lit "d")) y)) code kind label ignore = Saider.saidify E H (.obj o) code kind label ignore := by
  unfold Saider.saidify
  have hm : ∀ m, (Value.obj m).toMap = .ok m := fun _ => rfl
  have h1 : Value.hasKey o (label.getD (lit "d")) = true := Saider.hasKey_iff.mpr hin
  have h2 : Value.hasKey (Value.insert o (label.getD (lit "d")) y) (label.getD (lit "d")) = true := by
    rw [Saider.hasKey_eq_isSome, lookup_insert_self]; rfl
  have h3 : Saider.derive H (.obj (Value.insert o (label.getD (lit "d")) y)) (some (code.getD (lit "E"))) kind (some (label.getD (lit "d"))) ignore =
      Saider.derive H (.obj o) (some (code.getD (lit "E"))) kind (some (label.getD (lit "d"))) ignore := by
    unfold Saider.derive
    simp only [Value.set, Option.getD_some, insert_insert]
  simp only [hm, Res.ok_bind, h1, h2, h3, Bool.not_true, Bool.false_eq_true, if_false]

/-- C77 applies to a versioned map with nested content and an ignored field. -/
example (E : Env) (H : Hash) : ∃ s sad', Saider.saidify E H (.obj ((lit "v", .str (lit "ACDC10JSON000000_")) :: sampleSad)) (some (lit "0D")) none
    (some (lit "d")) (some [lit "x"]) = .ok (s, sad') ∧
    Saider.saidify E H sad' (some (lit "0D")) none (some (lit "d")) (some [lit "x"]) = .ok (s, sad') ∧
    Saider.newWithSad E H sad' (some (lit "d")) none (some [lit "x"]) none = .ok s := by
  obtain ⟨s, sad', h⟩ := C43_succeeds_versioned E H (o := sampleSad) (code := lit "0D") (label := lit "d") (n := 64) (i := lit "ACDC") (m := 0)
    (vs := lit "ACDC10JSON000000_") (some [lit "x"]) (by decide +kernel) (by decide +kernel) (by decide +kernel)
    ⟨lit "1", lit "0", lit "000000", by decide +kernel, ⟨by decide +kernel, by decide +kernel⟩,
      ⟨by decide +kernel, by decide +kernel, by decide +kernel⟩, ⟨by decide +kernel, by decide +kernel, by decide +kernel⟩,
      ⟨by decide +kernel, by decide +kernel⟩, ⟨by decide +kernel, by decide +kernel, by decide +kernel⟩⟩ (by decide +kernel) (by decide +kernel)
  exact ⟨s, sad', h, C77_fixed_point h⟩

/-- C77: without a code, the empty field means Blake3-256. -/
example (E : Env) (H : Hash) : ∃ s, Saider.newWithSad E H (.obj sampleSad) none none none none = .ok s ∧ s.code = lit "E" := by
  obtain ⟨s, sad', h⟩ := C43_succeeds_plain E H (o := sampleSad) (code := lit "E") (label := lit "d") (n := 32) none (by decide +kernel) (by decide +kernel)
    (by decide +kernel)
  refine ⟨s, ?_, ?_⟩
  · rw [(C77_code_from_field (E := E) (H := H) (label := none) (kind := none) (ignore := none)).2.1 rfl]
    exact (C77_same_as_saidify (label := none) s).mpr ⟨sad', h⟩
  · obtain ⟨_, _, _, _, _, _, _, _, _, _, rfl, _⟩ := Saider.saidify_ok h
    rfl

end Cesride
