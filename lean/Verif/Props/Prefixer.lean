import Verif.Lemmas.Prefixer
import Verif.Spec.Prefix

/-! # C47, C48, C63: identifier prefixes -/

namespace Cesride
open Common Spec

namespace Prefixer

theorem inception_iff {ked : Value} {o : List (Str × Value)} : Inception ked o ↔ ∃ ilk, ked = .obj o ∧ o.lookup (lit "t") = some (.str ilk) ∧ ilk ∈ ilks := by
  unfold Inception
  constructor
  · rintro ⟨h, ilk, h1, h2⟩; exact ⟨ilk, h, h1, h2⟩
  · rintro ⟨ilk, h, h1, h2⟩; exact ⟨h, ilk, h1, h2⟩

theorem digestPrefixes_iff {code : Str} : code ∈ digestPrefixes ↔ code ∈ digestCodes := by
  have h1 : ∀ c ∈ digestPrefixes, c ∈ digestCodes := by decide +kernel
  have h2 : ∀ c ∈ digestCodes, c ∈ digestPrefixes := by decide +kernel
  exact ⟨h1 _, h2 _⟩

/-- The code that a prefix is derived with. -/
def Chosen (E : Env) (ked : Value) (code : Option Str) (c : Str) : Prop :=
  code = some c ∨ (code = none ∧ ∃ o s m, ked = .obj o ∧ o.lookup (lit "i") = some (.str s) ∧ Matter.ofText E s = .ok m ∧ m.code = c)

theorem new_ked_ok {E : Env} {H : Hash} {ked : Value} {allows : Option (List Str)} {code : Option Str} {p : Matter} :
    new E H (some ked) allows code none none none none = .ok p ↔
    ∃ c raw c', Chosen E ked code c ∧ c ∈ nontransferableCodes ++ transferableCodes ++ digestCodes ∧ (allows.getD [] = [] ∨ c ∈ allows.getD []) ∧
      derive E H ked c = .ok (raw, c') ∧ Matter.newWithCodeAndRaw c' raw = .ok p := by
  have tail : ∀ c, (do
        validateCode c
        if allows.getD [] ≠ [] ∧ c ∉ allows.getD [] then .err .unexpectedCode
        else do
          let (raw, code) ← derive E H ked c
          Matter.new E (some code) (some raw) none none none) = .ok p ↔
      ∃ raw c', c ∈ nontransferableCodes ++ transferableCodes ++ digestCodes ∧ (allows.getD [] = [] ∨ c ∈ allows.getD []) ∧
      derive E H ked c = .ok (raw, c') ∧ Matter.newWithCodeAndRaw c' raw = .ok p := by
    intro c
    constructor
    · intro h
      obtain ⟨u, hu, h⟩ := Res.bind_eq_ok.mp h
      rw [validateCode_ok] at hu
      split at h
      · cases h
      · rename_i ha
        obtain ⟨⟨raw, c'⟩, hd, h⟩ := Res.bind_eq_ok.mp h
        refine ⟨raw, c', hu, ?_, hd, h⟩
        by_cases h0 : allows.getD [] = []
        · exact .inl h0
        · exact .inr (Decidable.byContradiction fun hn => ha ⟨h0, hn⟩)
    · rintro ⟨raw, c', hu, ha, hd, h⟩
      rw [validateCode_ok (u := ()).mpr hu, Res.ok_bind, if_neg, hd]
      · exact h
      · rintro ⟨h1, h2⟩
        rcases ha with ha | ha
        · exact h1 ha
        · exact h2 ha
  unfold new
  simp only [Option.isSome_none, Bool.false_eq_true, or_self, if_false]
  cases code with
  | some c =>
    simp only [Res.ok_bind, Bool.false_eq_true, if_false]
    rw [tail c]
    constructor
    · rintro ⟨raw, c', h⟩
      exact ⟨c, raw, c', .inl rfl, h⟩
    · rintro ⟨c1, raw, c', h1 | ⟨h1, _⟩, h⟩
      · injection h1 with h1
        subst h1
        exact ⟨raw, c', h⟩
      · cases h1
  | none =>
    cases ked with
    | obj o =>
      have hm : (Value.obj o).toMap = .ok o := rfl
      simp only [hm, Res.ok_bind]
      cases hl : o.lookup (lit "i") with
      | none =>
        simp only [hasKey_none hl, Bool.not_false, if_true, reduceCtorEq, false_iff]
        rintro ⟨c1, raw, c', h1 | ⟨_, o', s, m, e, h1, _⟩, _⟩
        · cases h1
        · injection e with e
          subst e
          rw [hl] at h1
          cases h1
      | some x =>
        simp only [hasKey_some hl, Bool.not_true, Bool.false_eq_true, if_false, Sadder.index_ok.mpr ⟨o, rfl, hl⟩, Res.ok_bind]
        constructor
        · intro h
          obtain ⟨c, hc, h⟩ := Res.bind_eq_ok.mp h
          obtain ⟨s, hs, hc⟩ := Res.bind_eq_ok.mp hc
          obtain ⟨m, hm, hc⟩ := Res.bind_eq_ok.mp hc
          rw [Sadder.toStr_ok] at hs
          injection hc with hc
          obtain ⟨raw, c', h⟩ := (tail c).mp h
          exact ⟨c, raw, c', .inr ⟨rfl, o, s, m, rfl, by rw [hl, hs], hm, hc⟩, h⟩
        · rintro ⟨c1, raw, c', h1 | ⟨_, o', s, m, e, h1, h2, h3⟩, h⟩
          · cases h1
          · injection e with e
            subst e
            rw [hl] at h1
            injection h1 with h1
            subst h1
            have h2' : Matter.new E none none none (some s) none = .ok m := h2
            simp only [Value.toStr, Res.ok_bind, h2', h3]
            exact (tail c1).mpr ⟨raw, c', h⟩
    | _ =>
      simp only [Value.toMap]
      constructor
      · intro h; cases h
      · rintro ⟨c1, raw, c', h1 | ⟨_, o', s, m, e, _⟩, _⟩
        · cases h1
        · cases e

/-- Whatever a prefix was made from, it is a primitive. -/
theorem new_matter {E : Env} {H : Hash} {ked : Option Value} {allows : Option (List Str)} {code : Option Str}
    {raw qb64b : Option (List UInt8)} {qb64 : Option Str} {qb2 : Option (List UInt8)} {p : Matter}
    (h : new E H ked allows code raw qb64b qb64 qb2 = .ok p) : ∃ code raw qb64b qb64 qb2, Matter.new E code raw qb64b qb64 qb2 = .ok p := by
  have h0 := h
  unfold new at h
  split at h
  · obtain ⟨_, _, h⟩ := Res.bind_eq_ok.mp h
    exact ⟨_, _, _, _, _, h⟩
  · rename_i hn
    simp only [not_or, Bool.not_eq_true, Option.isSome_eq_false_iff, Option.isNone_iff_eq_none] at hn
    obtain ⟨rfl, rfl, rfl, rfl⟩ := hn
    cases ked with
    | none => cases h
    | some ked =>
      obtain ⟨c, raw, c', _, _, _, _, h⟩ := new_ked_ok.mp h0
      exact ⟨some c', some raw, none, none, none, h⟩

/-- The code of a prefix that is built from code and raw. -/
theorem new_code {code : Str} {raw : List UInt8} {p : Matter} (h1 : code ∈ nontransferableCodes ++ transferableCodes ++ digestCodes)
    (h2 : Matter.newWithCodeAndRaw code raw = .ok p) : p.code = code := by
  obtain ⟨z, hz, hf⟩ := code_row h1
  rw [Matter.new_fixed hz hf] at h2
  split at h2
  · cases h2
  · injection h2 with h2; rw [← h2]

theorem keys_two (o : List (Str × Value)) (x : Value) :
    (Value.insert o (lit "i") x).map Prod.fst ++ (if lit "d" ∈ (Value.insert o (lit "i") x).map Prod.fst then [] else [lit "d"]) =
      o.map Prod.fst ++ (if lit "i" ∈ o.map Prod.fst then [] else [lit "i"]) ++ (if lit "d" ∈ o.map Prod.fst then [] else [lit "d"]) := by
  have hd : lit "d" ∈ (Value.insert o (lit "i") x).map Prod.fst ↔ lit "d" ∈ o.map Prod.fst := by
    rw [← Saider.hasKey_iff, ← Saider.hasKey_iff, Saider.hasKey_eq_isSome, Saider.hasKey_eq_isSome, lookup_insert_ne _ _ (by decide +kernel)]
  by_cases h : lit "d" ∈ o.map Prod.fst
  · rw [if_pos h, if_pos (hd.mpr h), Saider.keys_insert, List.append_nil]
  · rw [if_neg h, if_neg (fun h' => h (hd.mp h')), Saider.keys_insert]

theorem sizeify_content {o : List (Str × Value)} {n : Nat} {r : Sized}
    (h : sizeify (.obj (Value.insert (Value.insert o (lit "i") (Saider.dummy n)) (lit "d") (Saider.dummy n))) none = .ok r) :
    ∃ c, r.ked = .obj c ∧ PrefixContent n o c ∧ r.raw.length = (Value.obj c).toJson.length ∧
      SaidContent n (lit "d") [] (Value.insert o (lit "i") (Saider.dummy n)) c ∧
      (∀ x rest, o = (lit "v", x) :: rest → r.raw = (Value.obj c).toJson) := by
  obtain ⟨q, vs, e1, h2, e2, hd, hlen, _, hk⟩ := C41_size h
  rw [Value.obj.injEq] at e1
  have hv : Value.hasKey (Value.insert (Value.insert o (lit "i") (Saider.dummy n)) (lit "d") (Saider.dummy n)) (lit "v") = true := by
    rw [e1, Saider.hasKey_eq_isSome]; exact h2
  have hp : Saider.prep none (Value.insert (Value.insert o (lit "i") (Saider.dummy n)) (lit "d") (Saider.dummy n)) =
      .ok (Value.insert q (lit "v") (.str vs)) := by
    rw [Saider.prep, if_pos hv, h, Res.ok_bind, e2]; rfl
  have hcon := Saider.prep_content (ignore := []) hp
  simp only [Saider.removeKeys] at hcon
  rw [e2] at hlen
  obtain ⟨vs0, hvs0⟩ : ∃ x, o.lookup (lit "v") = some x := by
    obtain ⟨x, hx⟩ := Option.isSome_iff_exists.mp hv
    rw [lookup_insert_ne _ _ (by decide +kernel), lookup_insert_ne _ _ (by decide +kernel)] at hx
    exact ⟨x, hx⟩
  refine ⟨_, e2, ⟨?_, ?_, hcon.field (by simp), ?_, ?_⟩, hlen, hcon, ?_⟩
  · have := hcon.keys
    rw [List.filter_eq_self.mpr (by simp)] at this
    rw [this, keys_two]
  · rw [hcon.other _ (by simp) (by decide +kernel) (by decide +kernel), lookup_insert_self]; rfl
  · intro k h1 h2 h3
    rw [hcon.other k (by simp) h2 h3, lookup_insert_ne _ _ h1]
  · obtain ⟨vs1, vs1', ident, m, m', e, e', hi, ht, ht', hm⟩ := hcon.version (by simp) vs0 (by
      rw [lookup_insert_ne _ _ (by decide +kernel), hvs0])
    subst e
    rw [hm rfl] at ht'
    exact ⟨vs1, vs1', ident, m, hvs0, e', hi, ht, ht'⟩
  · rintro x rest rfl
    have e : Value.insert (Value.insert ((lit "v", x) :: rest) (lit "i") (Saider.dummy n)) (lit "d") (Saider.dummy n) =
        (lit "v", x) :: Value.insert (Value.insert rest (lit "i") (Saider.dummy n)) (lit "d") (Saider.dummy n) := by
      rw [Value.insert, if_neg (by decide +kernel), Value.insert, if_neg (by decide +kernel)]
    rw [e] at h
    have := C41_bytes (o1 := []) h (by simp) (by rw [← find_none_iff]; decide +kernel)
    rw [this, e2]

end Prefixer

/-! ## C47 -/

/-- C47: a digest prefix derived from an event verifies against it, and against the event with the prefix put into its field `i` and
anything put into its field `d`, where the field `i` may be checked too. -/
theorem C47_digest {E : Env} {H : Hash} {ked : Value} {allows : Option (List Str)} {code : Option Str} {p : Matter}
    (h : Prefixer.new E H (some ked) allows code none none none none = .ok p) (hc : p.code ∈ digestPrefixes) :
    ∃ o t, Inception ked o ∧ p.qb64 E = .ok t ∧ Prefixer.verify E H p ked (some false) = .ok true ∧ Prefixer.verify E H p ked none = .ok true ∧
      ∀ prefixed, Prefixer.verify E H p (.obj (Value.insert o (lit "i") (.str t))) prefixed = .ok true ∧
        ∀ y, Prefixer.verify E H p (.obj (Value.insert (Value.insert o (lit "i") (.str t)) (lit "d") y)) prefixed = .ok true := by
  obtain ⟨c, raw, c', _, _, _, hd, hp⟩ := Prefixer.new_ked_ok.mp h
  obtain ⟨o, ilk, rfl, hil, hilk, hd⟩ := Prefixer.derive_eq.mp hd
  have hcode := @Prefixer.new_code
  rw [Prefixer.digestPrefixes_iff] at hc
  have hd' : c ∈ Prefixer.digestCodes ∧ Prefixer.deriveDigest H (.obj o) c = .ok (raw, c') := by
    have h12 : ∀ c ∈ Prefixer.nontransferableCodes ++ Prefixer.transferableCodes, c ∉ Prefixer.digestCodes := by decide +kernel
    rcases hd with ⟨hcc, hd⟩ | ⟨hcc, hd⟩ | hd
    · exfalso
      unfold Prefixer.deriveNontransferable at hd
      obtain ⟨m, hm, hd⟩ := Res.bind_eq_ok.mp hd
      split at hd
      · cases hd
      · rename_i hmc
        simp only [ne_eq, Decidable.not_not] at hmc
        obtain ⟨_, _, hd⟩ := Res.bind_eq_ok.mp hd
        obtain ⟨_, _, hd⟩ := Res.bind_eq_ok.mp hd
        obtain ⟨_, _, hd⟩ := Res.bind_eq_ok.mp hd
        simp only [Res.ok.injEq, Prod.mk.injEq] at hd
        rw [← hd.2, hmc] at hp
        rw [hcode (by simp [hcc]) hp] at hc
        exact h12 _ (by simp [hcc]) hc
    · exfalso
      unfold Prefixer.deriveTransferable at hd
      obtain ⟨m, hm, hd⟩ := Res.bind_eq_ok.mp hd
      split at hd
      · cases hd
      · rename_i hmc
        simp only [ne_eq, Decidable.not_not] at hmc
        simp only [Res.ok.injEq, Prod.mk.injEq] at hd
        rw [← hd.2, hmc] at hp
        rw [hcode (by simp [hcc]) hp] at hc
        exact h12 _ (by simp [hcc]) hc
    · exact hd
  obtain ⟨hcd, hd⟩ := hd'
  obtain ⟨n, hn⟩ := Prefixer.digestCodes_iff.mp hcd
  obtain ⟨z, hz, _⟩ := digest_row hn
  obtain ⟨o', r, e, rfl, hr, rfl⟩ := (Prefixer.deriveDigest_ok hn hz).mp hd
  injection e with e
  subst e
  obtain ⟨z', t, hnew, w, hq⟩ := digest_matter E H hn r.raw
  have hpe : p = { code := c', size := 0, raw := H.digest c' r.raw } := by
    have : Matter.newWithCodeAndRaw c' (H.digest c' r.raw) = .ok { code := c', size := 0, raw := H.digest c' r.raw } := hnew
    rw [this] at hp
    injection hp with hp
    exact hp.symm
  subst hpe
  have hzz : z' = z := by have := w.szg; simp only at this; rw [hz] at this; injection this with this; exact this.symm
  subst hzz
  have key : ∀ (q : List (Str × Value)) (prefixed : Option Bool), q.lookup (lit "t") = o.lookup (lit "t") →
      Value.insert (Value.insert q (lit "i") (Saider.dummy z'.fs)) (lit "d") (Saider.dummy z'.fs) =
        Value.insert (Value.insert o (lit "i") (Saider.dummy z'.fs)) (lit "d") (Saider.dummy z'.fs) →
      (prefixed.getD false = true → q.lookup (lit "i") = some (.str t)) →
      Prefixer.verify E H { code := c', size := 0, raw := H.digest c' r.raw } (.obj q) prefixed = .ok true := by
    intro q prefixed h1 h2 h3
    rw [Prefixer.verify_eq hq]
    refine ⟨q, ilk, rfl, by rw [h1, hil], hilk, .inr (.inr ⟨hcd, ?_⟩)⟩
    rw [Prefixer.verifyDigest_true w hq hn]
    exact ⟨⟨r, by rw [h2]; exact hr, rfl⟩, h3⟩
  refine ⟨o, t, Prefixer.inception_iff.mpr ⟨ilk, rfl, hil, hilk⟩, hq, key o _ rfl rfl (by simp), key o _ rfl rfl (by simp), ?_⟩
  intro prefixed
  refine ⟨key _ _ (lookup_insert_ne _ _ (by decide +kernel)) (by rw [insert_insert]) (fun _ => lookup_insert_self _ _ _), ?_⟩
  intro y
  refine key _ _ ?_ ?_ ?_
  · rw [lookup_insert_ne _ _ (by decide +kernel), lookup_insert_ne _ _ (by decide +kernel)]
  · rw [← insert_comm' (k := lit "i") (j := lit "d") (by decide +kernel) (by rw [lookup_insert_self]; rfl), insert_insert, insert_insert]
  · intro _
    rw [lookup_insert_ne _ _ (by decide +kernel), lookup_insert_self]

/-- C47: from every event with a current version string in front a digest prefix can be derived with any digest code, as long as the
serialization of the event with dummied fields stays below 16 MiB. -/
theorem C47_digest_derives (E : Env) (H : Hash) {o : List (Str × Value)} {code vs i : Str} {m : Nat}
    (hi : Inception (.obj ((lit "v", .str vs) :: o)) ((lit "v", .str vs) :: o)) (hc : code ∈ digestPrefixes)
    (ht : VersionText vs i 1 0 (lit "JSON") m) (hp : i ∈ protocols)
    (hsize : ∀ k ≤ 88, (Value.obj ((lit "v", .str vs) :: Value.insert (Value.insert o (lit "i") (.str (List.replicate k (ch '#')))) (lit "d")
      (.str (List.replicate k (ch '#'))))).toJson.length < 2 ^ 24) :
    ∃ p, Prefixer.new E H (some (.obj ((lit "v", .str vs) :: o))) none (some code) none none none none = .ok p ∧ p.code = code := by
  rw [Prefixer.digestPrefixes_iff] at hc
  obtain ⟨n, hn⟩ := Prefixer.digestCodes_iff.mp hc
  obtain ⟨z, hz, _, _, hfs, _⟩ := digest_row hn
  have hfs' : z.fs ≤ 88 := by rw [hfs]; split <;> omega
  obtain ⟨r, hr, _⟩ := C41_version_first ht hp (hsize _ hfs')
  obtain ⟨z', t, hnew, w, hq⟩ := digest_matter E H hn r.raw
  obtain ⟨ilk, _, h1, h2⟩ := Prefixer.inception_iff.mp hi
  refine ⟨_, Prefixer.new_ked_ok.mpr ⟨code, H.digest code r.raw, code, .inl rfl, by simp [hc], .inl rfl, Prefixer.derive_eq.mpr
    ⟨_, ilk, rfl, h1, h2, .inr (.inr ⟨hc, (Prefixer.deriveDigest_ok hn hz).mpr ⟨_, r, rfl, rfl, ?_, rfl⟩⟩)⟩, hnew⟩, rfl⟩
  rw [Value.insert, if_neg (by decide +kernel), Value.insert, if_neg (by decide +kernel)]
  exact hr

theorem Prefixer.basic_ok {E : Env} {H : Hash} {ked : Value} {allows : Option (List Str)} {code : Option Str} {p : Matter}
    (h : Prefixer.new E H (some ked) allows code none none none none = .ok p) (hc : p.code ∈ nontransferableKeys ++ transferableKeys) :
    ∃ o t rest, Inception ked o ∧ p.qb64 E = .ok t ∧ o.lookup (lit "k") = some (.arr [.str (t ++ rest)]) ∧
      (p.code ∈ nontransferableKeys → ∀ l ∈ [lit "n", lit "b", lit "a"], o.lookup l = none ∨ o.lookup l = some (.str [])) := by
  obtain ⟨c, raw, c', _, _, _, hd, hp⟩ := Prefixer.new_ked_ok.mp h
  obtain ⟨o, ilk, rfl, hil, hilk, hd⟩ := Prefixer.derive_eq.mp hd
  have hcode := @Prefixer.new_code
  have fin : ∀ m, Prefixer.theKey E (.obj o) = .ok m → m.code = c → c ∈ Prefixer.nontransferableCodes ++ Prefixer.transferableCodes ++ Prefixer.digestCodes →
      (m.raw, m.code) = (raw, c') → ∃ t rest, p.qb64 E = .ok t ∧ o.lookup (lit "k") = some (.arr [.str (t ++ rest)]) := by
    intro m hm hmc hcc he
    obtain ⟨o', s, e, hl, ht, _⟩ := Prefixer.theKey_ok.mp hm
    injection e with e
    subst e
    simp only [Prod.mk.injEq] at he
    obtain ⟨z, hz, hf⟩ := Prefixer.code_row hcc
    rw [← hmc] at hz
    rw [← he.1, ← he.2] at hp
    have ht' : Matter.exfil s = .ok m := ht
    obtain ⟨rfl, w⟩ := Matter.rebuild ht' hz hf hp
    obtain ⟨rest, hs⟩ := Matter.exfil_text (E := E) ht' (w.infil E)
    exact ⟨_, rest, w.infil E, by rw [hl, hs]⟩
  rcases hd with ⟨hcc, hd⟩ | ⟨hcc, hd⟩ | ⟨hcc, hd⟩
  · unfold Prefixer.deriveNontransferable at hd
    obtain ⟨m, hm, hd⟩ := Res.bind_eq_ok.mp hd
    split at hd
    · cases hd
    · rename_i hmc
      simp only [ne_eq, Decidable.not_not] at hmc
      obtain ⟨_, h1, hd⟩ := Res.bind_eq_ok.mp hd
      obtain ⟨_, h2, hd⟩ := Res.bind_eq_ok.mp hd
      obtain ⟨_, h3, hd⟩ := Res.bind_eq_ok.mp hd
      injection hd with hd
      obtain ⟨t, rest, hq, hk⟩ := fin m hm hmc (by simp [hcc]) hd
      refine ⟨o, t, rest, Prefixer.inception_iff.mpr ⟨ilk, rfl, hil, hilk⟩, hq, hk, ?_⟩
      intro _ l hl
      simp only [List.mem_cons, List.not_mem_nil, or_false] at hl
      rcases hl with rfl | rfl | rfl
      · exact Prefixer.refuseField_ok.mp h1
      · exact Prefixer.refuseField_ok.mp h2
      · exact Prefixer.refuseField_ok.mp h3
  · unfold Prefixer.deriveTransferable at hd
    obtain ⟨m, hm, hd⟩ := Res.bind_eq_ok.mp hd
    split at hd
    · cases hd
    · rename_i hmc
      simp only [ne_eq, Decidable.not_not] at hmc
      injection hd with hd
      obtain ⟨t, rest, hq, hk⟩ := fin m hm hmc (by simp [hcc]) hd
      refine ⟨o, t, rest, Prefixer.inception_iff.mpr ⟨ilk, rfl, hil, hilk⟩, hq, hk, ?_⟩
      intro hn
      exfalso
      have h12 : ∀ c ∈ Prefixer.transferableCodes, c ∉ nontransferableKeys := by decide +kernel
      have : c' = c := by rw [← hmc]; simp only [Prod.mk.injEq] at hd; exact hd.2.symm
      rw [hcode (by rw [this]; simp [hcc]) hp, this] at hn
      exact h12 _ hcc hn
  · exfalso
    obtain ⟨n, hn⟩ := Prefixer.digestCodes_iff.mp hcc
    obtain ⟨z, hz, _⟩ := digest_row hn
    obtain ⟨o', r, e, rfl, hr, rfl⟩ := (Prefixer.deriveDigest_ok hn hz).mp hd
    rw [hcode (by simp [hcc]) hp] at hc
    have h12 : ∀ c ∈ Prefixer.digestCodes, c ∉ nontransferableKeys ++ transferableKeys := by decide +kernel
    exact h12 _ hcc hc

/-! ## C48 -/

/-- The prefixes a caller can obtain. -/
def IsPrefix (E : Env) (H : Hash) (p : Matter) : Prop :=
  ∃ ked allows code raw qb64b qb64 qb2, Prefixer.new E H ked allows code raw qb64b qb64 qb2 = .ok p

/-- C48: a prefix with the code of a transferable key verifies against exactly those inception events whose only key is the prefix (and
whose field `i` is the prefix, if that is checked). -/
theorem C48_transferable {E : Env} {H : Hash} {p : Matter} {t : Str} (ht : p.qb64 E = .ok t) (hc : p.code ∈ transferableKeys) {ked : Value} {prefixed : Option Bool} :
    Prefixer.verify E H p ked prefixed = .ok true ↔ ∃ o, Inception ked o ∧ o.lookup (lit "k") = some (.arr [.str t]) ∧
      (prefixed.getD false = true → o.lookup (lit "i") = some (.str t)) := by
  have h23 : ∀ c ∈ transferableKeys, c ∉ Prefixer.nontransferableCodes ∧ c ∉ Prefixer.digestCodes := by decide +kernel
  have hc' : p.code ∈ Prefixer.transferableCodes := hc
  obtain ⟨h2, h3⟩ := h23 _ hc
  rw [Prefixer.verify_eq ht]
  simp only [h2, h3, hc', false_and, true_and, false_or, or_false]
  constructor
  · rintro ⟨o, ilk, rfl, h1, h2, h⟩
    exact ⟨o, Prefixer.inception_iff.mpr ⟨ilk, rfl, h1, h2⟩, Prefixer.verifyTransferable_true.mp h⟩
  · rintro ⟨o, hi, h⟩
    obtain ⟨ilk, rfl, h1, h2⟩ := Prefixer.inception_iff.mp hi
    exact ⟨o, ilk, rfl, h1, h2, Prefixer.verifyTransferable_true.mpr h⟩

/-- C48: a prefix with the code of a non-transferable key verifies against exactly those inception events whose only key is the prefix,
without a next key (neither a non-empty list nor a non-empty text in `n`). -/
theorem C48_nontransferable {E : Env} {H : Hash} {p : Matter} {t : Str} (ht : p.qb64 E = .ok t) (hc : p.code ∈ nontransferableKeys) {ked : Value}
    {prefixed : Option Bool} :
    Prefixer.verify E H p ked prefixed = .ok true ↔ ∃ o, Inception ked o ∧ o.lookup (lit "k") = some (.arr [.str t]) ∧
      (prefixed.getD false = true → o.lookup (lit "i") = some (.str t)) ∧
      (∀ a, o.lookup (lit "n") = some (.arr a) → a = []) ∧ (∀ s, o.lookup (lit "n") = some (.str s) → s = []) := by
  have h23 : ∀ c ∈ nontransferableKeys, c ∉ Prefixer.transferableCodes ∧ c ∉ Prefixer.digestCodes := by decide +kernel
  have hc' : p.code ∈ Prefixer.nontransferableCodes := hc
  obtain ⟨h2, h3⟩ := h23 _ hc
  rw [Prefixer.verify_eq ht]
  simp only [h2, h3, hc', false_and, true_and, or_false]
  constructor
  · rintro ⟨o, ilk, rfl, h1, h2, h⟩
    exact ⟨o, Prefixer.inception_iff.mpr ⟨ilk, rfl, h1, h2⟩, Prefixer.verifyNontransferable_true.mp h⟩
  · rintro ⟨o, hi, h⟩
    obtain ⟨ilk, rfl, h1, h2⟩ := Prefixer.inception_iff.mp hi
    exact ⟨o, ilk, rfl, h1, h2, Prefixer.verifyNontransferable_true.mpr h⟩

/-- C48: a digest prefix that verifies against an event is the digest of the content of that event. The bytes that are hashed are as
many as those of the content, and are the content when the version string is the first field. -/
theorem C48_digest {E : Env} {H : Hash} {p : Matter} (hp : IsPrefix E H p) {t : Str} (ht : p.qb64 E = .ok t) (hc : p.code ∈ digestPrefixes) {ked : Value}
    {prefixed : Option Bool} (h : Prefixer.verify E H p ked prefixed = .ok true) :
    ∃ o c bytes, Inception ked o ∧ PrefixContent t.length o c ∧ p.raw = H.digest p.code bytes ∧ bytes.length = (Value.obj c).toJson.length ∧
      (∀ x rest, o = (lit "v", x) :: rest → bytes = (Value.obj c).toJson) ∧
      (prefixed.getD false = true → o.lookup (lit "i") = some (.str t)) := by
  obtain ⟨_, _, _, _, _, _, _, hp⟩ := hp
  obtain ⟨_, _, _, _, _, hm⟩ := Prefixer.new_matter hp
  obtain ⟨z, w⟩ := Matter.new_text_wf hm ht
  rw [Prefixer.digestPrefixes_iff] at hc
  have h3 : ∀ c ∈ Prefixer.digestCodes, c ∉ Prefixer.nontransferableCodes ∧ c ∉ Prefixer.transferableCodes := by decide +kernel
  obtain ⟨h1, h2⟩ := h3 _ hc
  obtain ⟨n, hn⟩ := Prefixer.digestCodes_iff.mp hc
  rw [Prefixer.verify_eq ht] at h
  simp only [h1, h2, hc, false_and, true_and, false_or] at h
  obtain ⟨o, ilk, rfl, hil, hilk, h⟩ := h
  rw [Prefixer.verifyDigest_true w ht hn] at h
  obtain ⟨⟨r, hr, hraw⟩, hi⟩ := h
  have hfs : z.fs = t.length := by
    have : p.qb64 E = .ok (Matter.text p z) := w.infil E
    rw [ht] at this
    injection this with this
    rw [this, w.text_length, Matter.total]
    obtain ⟨z2, hz2, hf, _⟩ := digest_row hn
    have : z2 = z := by have := w.szg; rw [hz2] at this; injection this
    subst this
    rw [if_neg hf]
  rw [hfs] at hr
  obtain ⟨c, hk, hcon, hlen, _, hfirst⟩ := Prefixer.sizeify_content hr
  exact ⟨o, c, r.raw, Prefixer.inception_iff.mpr ⟨ilk, rfl, hil, hilk⟩, hcon, hraw, hlen, hfirst, hi⟩


/-- The contents as those of a SAID. -/
theorem Spec.PrefixContent.said' {n : Nat} {o c : List (Str × Value)} (h : PrefixContent n o c) :
    SaidContent n (lit "d") [] (Value.insert o (lit "i") (Saider.dummy n)) c := by
  refine ⟨?_, fun _ => h.said, ?_, ?_⟩
  · rw [List.filter_eq_self.mpr (by simp), Prefixer.keys_two, h.keys]
  · intro k _ h1 h2
    by_cases hi : k = lit "i"
    · subst hi
      rw [h.pre, lookup_insert_self]; rfl
    · rw [h.other k hi h1 h2, lookup_insert_ne _ _ hi]
  · intro _ x hx
    rw [lookup_insert_ne _ _ (by decide +kernel)] at hx
    obtain ⟨vs, vs', ident, m, h1, h2, h3, h4, h5⟩ := h.version
    rw [h1] at hx
    injection hx with hx
    exact ⟨vs, vs', ident, m, _, hx.symm, h2, h3, h4, h5, fun _ => rfl⟩

theorem Spec.PrefixContent.plain {n : Nat} {o c : List (Str × Value)} (h : PrefixContent n o c)
    (ho : Plain (.obj o)) : Plain (.obj c) := saidContent_plain h.said' (plain_insert ho trivial)

theorem Spec.PrefixContent.same {n : Nat} {a b c : List (Str × Value)} (ha : PrefixContent n a c) (hb : PrefixContent n b c) :
    SameContent (lit "i") [lit "d"] a b := by
  have hs := saidContent_same ha.said' hb.said' (by decide +kernel)
  have hf : ∀ o : List (Str × Value), ((Value.insert o (lit "i") (Saider.dummy n)).map Prod.fst).filter (fun k => k ∉ [lit "d"]) =
      (o.map Prod.fst ++ if lit "i" ∈ o.map Prod.fst then [] else [lit "i"]).filter (fun k => k ∉ [lit "d"]) := by
    intro o; rw [Saider.keys_insert]
  refine ⟨?_, ?_, ?_⟩
  · have := hs.keys
    rw [hf a, hf b] at this
    rw [← filter_label (l := a.map Prod.fst), ← filter_label (l := b.map Prod.fst), this]
  · intro k h1 h2 h3
    simp only [List.mem_singleton] at h1
    rw [← ha.other k h2 h1 h3, hb.other k h2 h1 h3]
  · intro _ x hx
    obtain ⟨vs, vs', ident, m, m', e, h2, h3, h4⟩ := hs.version (by simp) x (by rw [lookup_insert_ne _ _ (by decide +kernel), hx])
    rw [lookup_insert_ne _ _ (by decide +kernel)] at h2
    exact ⟨vs, vs', ident, m, m', e, h2, h3, h4⟩

/-- C48: if a digest prefix verifies against two events that start with their version string, the events have the same content: the same
keys in the same order and the same values, except for the fields `i` and `d` and the size in the version string - or two different
serializations have the same digest. The two serializations are those of the contents of the events. -/
theorem C48_binds {E : Env} {H : Hash} {p : Matter} (hp : IsPrefix E H p) {t : Str} (ht : p.qb64 E = .ok t) (hc : p.code ∈ digestPrefixes)
    {x y : Value} {a b : List (Str × Value)} (ha : Plain (.obj ((lit "v", x) :: a))) (hb : Plain (.obj ((lit "v", y) :: b))) {prefixed prefixed' : Option Bool}
    (h1 : Prefixer.verify E H p (.obj ((lit "v", x) :: a)) prefixed = .ok true) (h2 : Prefixer.verify E H p (.obj ((lit "v", y) :: b)) prefixed' = .ok true) :
    ∃ ca cb, PrefixContent t.length ((lit "v", x) :: a) ca ∧ PrefixContent t.length ((lit "v", y) :: b) cb ∧
      (((Value.obj ca).toJson ≠ (Value.obj cb).toJson ∧ H.digest p.code (Value.obj ca).toJson = H.digest p.code (Value.obj cb).toJson) ∨
       SameContent (lit "i") [lit "d"] ((lit "v", x) :: a) ((lit "v", y) :: b)) := by
  obtain ⟨oa, ca, ba, hia, hca, hra, _, hfa, _⟩ := C48_digest hp ht hc h1
  obtain ⟨ob, cb, bb, hib, hcb, hrb, _, hfb, _⟩ := C48_digest hp ht hc h2
  obtain ⟨e, _⟩ := hia
  injection e with e
  subst e
  obtain ⟨e, _⟩ := hib
  injection e with e
  subst e
  obtain rfl := hfa x a rfl
  obtain rfl := hfb y b rfl
  refine ⟨ca, cb, hca, hcb, ?_⟩
  by_cases he : (Value.obj ca).toJson = (Value.obj cb).toJson
  · right
    have hcc : Value.obj ca = Value.obj cb := C39_injective (hca.plain ha) (hcb.plain hb) he
    injection hcc with hcc
    subst hcc
    exact hca.same hcb
  · left
    exact ⟨he, by rw [← hra, ← hrb]⟩

end Cesride
