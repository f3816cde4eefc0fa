import Verif.Props.Prefixer

/-! # C47, C48, C63: basic prefixes, exceptions, panics and examples -/

namespace Cesride
open Common Spec

namespace Prefixer

theorem verifyTransferable_false {o : List (Str × Value)} {s t : Str} {b : Bool} (hk : o.lookup (lit "k") = some (.arr [.str s])) (hne : s ≠ t) :
    verifyTransferable (.obj o) t b = .ok false := by
  unfold verifyTransferable
  have hm : (Value.obj o).toMap = .ok o := rfl
  have h0 : (Value.arr [.str s]).indexNat 0 = .ok (.str s) := rfl
  rw [hm, Res.ok_bind, hasKey_some hk, Sadder.index_ok.mpr ⟨o, rfl, hk⟩]
  simp [Value.toVec, h0, Value.toStr, hne]

theorem verifyNontransferable_false {o : List (Str × Value)} {s t : Str} {b : Bool} (hk : o.lookup (lit "k") = some (.arr [.str s])) (hne : s ≠ t) :
    verifyNontransferable (.obj o) t b = .ok false := by
  unfold verifyNontransferable
  have hm : (Value.obj o).toMap = .ok o := rfl
  have h0 : (Value.arr [.str s]).indexNat 0 = .ok (.str s) := rfl
  rw [hm, Res.ok_bind, hasKey_some hk, Sadder.index_ok.mpr ⟨o, rfl, hk⟩]
  simp [Value.toVec, h0, Value.toStr, hne]

theorem code_of_ked {E : Env} {H : Hash} {ked : Value} {allows : Option (List Str)} {code : Str} {p : Matter}
    (h : new E H (some ked) allows (some code) none none none none = .ok p) : p.code = code := by
  obtain ⟨c, raw, c', hch, hv, _, hd, hp⟩ := new_ked_ok.mp h
  have hcc : c = code := by
    rcases hch with h | ⟨h, _⟩
    · injection h with h; exact h.symm
    · cases h
  subst hcc
  obtain ⟨o, ilk, rfl, _, _, hd⟩ := derive_eq.mp hd
  have : c' = c := by
    rcases hd with ⟨hcc, hd⟩ | ⟨hcc, hd⟩ | ⟨hcc, hd⟩
    · unfold deriveNontransferable at hd
      obtain ⟨m, hm, hd⟩ := Res.bind_eq_ok.mp hd
      split at hd
      · cases hd
      · rename_i hmc
        simp only [ne_eq, Decidable.not_not] at hmc
        obtain ⟨_, _, hd⟩ := Res.bind_eq_ok.mp hd
        obtain ⟨_, _, hd⟩ := Res.bind_eq_ok.mp hd
        obtain ⟨_, _, hd⟩ := Res.bind_eq_ok.mp hd
        simp only [Res.ok.injEq, Prod.mk.injEq] at hd
        rw [← hd.2, hmc]
    · unfold deriveTransferable at hd
      obtain ⟨m, hm, hd⟩ := Res.bind_eq_ok.mp hd
      split at hd
      · cases hd
      · rename_i hmc
        simp only [ne_eq, Decidable.not_not] at hmc
        simp only [Res.ok.injEq, Prod.mk.injEq] at hd
        rw [← hd.2, hmc]
    · obtain ⟨n, hn⟩ := digestCodes_iff.mp hcc
      obtain ⟨z, hz, _⟩ := digest_row hn
      obtain ⟨_, _, _, h, _⟩ := (deriveDigest_ok hn hz).mp hd
      exact h
  subst this
  exact new_code hv hp

end Prefixer

/-- C47: a basic prefix derived from an event is its only key. It verifies against the event, and against the event with the prefix in its
field `i` (which may be checked too), unless the key text goes on after the key. -/
theorem C47_basic {E : Env} {H : Hash} {ked : Value} {allows : Option (List Str)} {code : Option Str} {p : Matter}
    (h : Prefixer.new E H (some ked) allows code none none none none = .ok p) (hc : p.code ∈ nontransferableKeys ++ transferableKeys) :
    ∃ o t rest, Inception ked o ∧ p.qb64 E = .ok t ∧ o.lookup (lit "k") = some (.arr [.str (t ++ rest)]) ∧
      Prefixer.verify E H p ked (some false) = .ok (decide (rest = [])) ∧ Prefixer.verify E H p ked none = .ok (decide (rest = [])) ∧
      ∀ prefixed, Prefixer.verify E H p (.obj (Value.insert o (lit "i") (.str t))) prefixed = .ok (decide (rest = [])) := by
  obtain ⟨o, t, rest, hi, ht, hk, hf⟩ := Prefixer.basic_ok h hc
  refine ⟨o, t, rest, hi, ht, hk, ?_⟩
  have hil := hi
  obtain ⟨rfl, ilk, h1, h2⟩ := hi
  have key : ∀ (q : List (Str × Value)) (prefixed : Option Bool), (∀ k, k ≠ lit "i" → q.lookup k = o.lookup k) →
      (prefixed.getD false = true → q.lookup (lit "i") = some (.str t)) → Prefixer.verify E H p (.obj q) prefixed = .ok (decide (rest = [])) := by
    intro q prefixed hq hpre
    have hqi : Inception (.obj q) q := ⟨rfl, ilk, by rw [hq _ (by decide +kernel), h1], h2⟩
    have hqk : q.lookup (lit "k") = some (.arr [.str (t ++ rest)]) := by rw [hq _ (by decide +kernel), hk]
    by_cases hr : rest = []
    · subst hr
      rw [List.append_nil] at hqk
      simp only [decide_true]
      rcases List.mem_append.mp hc with hc | hc
      · rw [C48_nontransferable ht hc]
        have hn := hf hc (lit "n") (by simp)
        rw [← hq _ (by decide +kernel)] at hn
        refine ⟨q, hqi, hqk, hpre, ?_, ?_⟩
        · intro a ha
          rcases hn with hn | hn <;> (rw [hn] at ha; simp at ha)
        · intro a ha
          rcases hn with hn | hn
          · rw [hn] at ha; cases ha
          · rw [hn] at ha
            injection ha with ha
            injection ha with ha
            exact ha.symm
      · rw [C48_transferable ht hc]
        exact ⟨q, hqi, hqk, hpre⟩
    · have hne : t ++ rest ≠ t := by
        intro e
        exact hr (by simpa using e)
      simp only [hr, decide_false]
      rw [Prefixer.verify_eq ht]
      obtain ⟨ilk', e, h1', h2'⟩ := Prefixer.inception_iff.mp hqi
      refine ⟨q, ilk', rfl, h1', h2', ?_⟩
      rcases List.mem_append.mp hc with hc | hc
      · exact .inl ⟨hc, Prefixer.verifyNontransferable_false hqk hne⟩
      · exact .inr (.inl ⟨hc, Prefixer.verifyTransferable_false hqk hne⟩)
  refine ⟨key o _ (fun _ _ => rfl) (by simp), key o _ (fun _ _ => rfl) (by simp), ?_⟩
  intro prefixed
  exact key _ _ (fun k hk => lookup_insert_ne _ _ hk) (fun _ => lookup_insert_self _ _ _)

/-- C47: from an inception event whose only key is a basic prefix that prefix is derived; for a key that cannot be rotated the fields
`n`, `b`, `a` have to be missing or the empty text. -/
theorem C47_basic_derives (E : Env) (H : Hash) {ked : Value} {o : List (Str × Value)} {p : Matter} {t : Str} (hi : Inception ked o)
    (hp : Matter.ofText E t = .ok p) (ht : p.qb64 E = .ok t) (hc : p.code ∈ nontransferableKeys ++ transferableKeys)
    (hk : o.lookup (lit "k") = some (.arr [.str t]))
    (hf : p.code ∈ nontransferableKeys → ∀ l ∈ [lit "n", lit "b", lit "a"], o.lookup l = none ∨ o.lookup l = some (.str [])) :
    Prefixer.new E H (some ked) none (some p.code) none none none none = .ok p := by
  obtain ⟨ilk, rfl, h1, h2⟩ := Prefixer.inception_iff.mp hi
  have hv : p.code ∈ Prefixer.nontransferableCodes ++ Prefixer.transferableCodes ++ Prefixer.digestCodes := List.mem_append_left _ hc
  have hvf : p.code ∈ verferCodes := by
    have : ∀ c ∈ nontransferableKeys ++ transferableKeys, c ∈ verferCodes := by decide +kernel
    exact this _ hc
  obtain ⟨z, hz, hfs⟩ := Prefixer.code_row hv
  have hp' : Matter.exfil t = .ok p := hp
  obtain ⟨z', w⟩ := Matter.exfil_wf hp' (E := E) ht
  have hzz : z' = z := by have := w.szg; rw [hz] at this; injection this with this; exact this.symm
  subst hzz
  have hnew : Matter.newWithCodeAndRaw p.code p.raw = .ok p := by
    obtain ⟨e1, e2⟩ := w.fix hfs
    rw [Matter.new_fixed hz hfs, if_neg (by omega), List.take_of_length_le (by omega)]
    cases p
    simp only at e1
    subst e1
    rfl
  have hkey : Prefixer.theKey E (.obj o) = .ok p := Prefixer.theKey_ok.mpr ⟨o, t, rfl, hk, hp, hvf⟩
  refine Prefixer.new_ked_ok.mpr ⟨p.code, p.raw, p.code, .inl rfl, hv, .inl rfl, Prefixer.derive_eq.mpr ⟨o, ilk, rfl, h1, h2, ?_⟩, hnew⟩
  rcases List.mem_append.mp hc with hc | hc
  · refine .inl ⟨hc, ?_⟩
    have hn := hf hc
    unfold Prefixer.deriveNontransferable
    rw [hkey, Res.ok_bind, if_neg (by simp), Prefixer.refuseField_ok (u := ()).mpr (hn _ (by simp)), Res.ok_bind,
      Prefixer.refuseField_ok (u := ()).mpr (hn _ (by simp)), Res.ok_bind, Prefixer.refuseField_ok (u := ()).mpr (hn _ (by simp))]
    rfl
  · refine .inr (.inl ⟨hc, ?_⟩)
    unfold Prefixer.deriveTransferable
    rw [hkey, Res.ok_bind, if_neg (by simp)]

/-- C47, exception: an event with any list in `n`, `b` or `a`, be it empty, yields no prefix that cannot be rotated, although with an empty
list in `n` (and anything in `b` and `a`) the prefix verifies against the event. -/
theorem C47_list_refused {E : Env} {H : Hash} {o : List (Str × Value)} {code l : Str} {a : List Value} (hc : code ∈ nontransferableKeys)
    (hl : l ∈ [lit "n", lit "b", lit "a"]) (ha : o.lookup l = some (.arr a)) (allows : Option (List Str)) (p : Matter) :
    Prefixer.new E H (some (.obj o)) allows (some code) none none none none ≠ .ok p := by
  intro h
  have hpc := Prefixer.code_of_ked h
  obtain ⟨o', t, rest, ⟨e, _⟩, _, _, hf⟩ := Prefixer.basic_ok h (by rw [hpc]; exact List.mem_append_left _ hc)
  injection e with e
  subst e
  rcases hf (by rw [hpc]; exact hc) l hl with h | h <;> (rw [ha] at h; simp at h)

/-! ## C63 -/

/-- C63: checking a prefix (that has a text) panics exactly when the event is not a map or has no field `t`. -/
theorem C63_verify_panics {E : Env} {H : Hash} {p : Matter} {t : Str} (ht : p.qb64 E = .ok t) {ked : Value} {prefixed : Option Bool} :
    Prefixer.verify E H p ked prefixed = .panic ↔ (∀ o, ked ≠ .obj o) ∨ ∃ o, ked = .obj o ∧ lit "t" ∉ o.map Prod.fst := by
  rw [← Sadder.index_panic]
  constructor
  · intro h
    unfold Prefixer.verify at h
    dsimp only at h
    rcases Res.bind_eq_panic.mp h with h1 | ⟨x, hx, h1⟩
    · exact h1
    · exfalso
      obtain ⟨o, rfl, hl⟩ := Sadder.index_ok.mp hx
      have hm : (Value.obj o).toMap = .ok o := rfl
      rcases Res.bind_eq_panic.mp h1 with h2 | ⟨y, hy, h2⟩
      · exact Saider.toStr_ne_panic _ h2
      · split at h2
        · cases h2
        split at h2
        · rw [ht, Res.ok_bind] at h2
          unfold Prefixer.verifyNontransferable at h2
          rw [hm, Res.ok_bind] at h2
          cases hk : o.lookup (lit "k") with
          | none => simp [hasKey_none hk] at h2
          | some k =>
            rw [hasKey_some hk, Sadder.index_ok.mpr ⟨o, rfl, hk⟩] at h2
            cases k with
            | arr a =>
              match a with
              | [] => simp [Value.toVec] at h2
              | [v] =>
                have h0 : (Value.arr [v]).indexNat 0 = .ok v := rfl
                cases v with
                | str s =>
                  simp only [Bool.not_true, Bool.false_eq_true, if_false, Res.ok_bind, Value.toVec, List.length_singleton, ne_eq, not_true, h0, Value.toStr] at h2
                  split at h2
                  · cases h2
                  · rcases Res.bind_eq_panic.mp h2 with h3 | ⟨b, _, h3⟩
                    · exact Prefixer.prefixMismatch_ne_panic h3
                    · split at h3
                      · cases h3
                      · split at h3
                        · rename_i hn
                          obtain ⟨n, hn⟩ := Option.isSome_iff_exists.mp hn
                          rw [Sadder.index_ok.mpr ⟨o, rfl, hn⟩, Res.ok_bind] at h3
                          cases n <;> simp only [reduceCtorEq] at h3
                          · split at h3 <;> cases h3
                          · split at h3 <;> cases h3
                        · cases h3
                | _ => simp [Value.toVec, h0, Value.toStr] at h2
              | _ :: _ :: _ => simp [Value.toVec] at h2
            | _ => simp [Value.toVec] at h2
        split at h2
        · rw [ht, Res.ok_bind] at h2
          unfold Prefixer.verifyTransferable at h2
          rw [hm, Res.ok_bind] at h2
          cases hk : o.lookup (lit "k") with
          | none => simp [hasKey_none hk] at h2
          | some k =>
            rw [hasKey_some hk, Sadder.index_ok.mpr ⟨o, rfl, hk⟩] at h2
            cases k with
            | arr a =>
              match a with
              | [] => simp [Value.toVec] at h2
              | [v] =>
                have h0 : (Value.arr [v]).indexNat 0 = .ok v := rfl
                cases v with
                | str s =>
                  simp only [Bool.not_true, Bool.false_eq_true, if_false, Res.ok_bind, Value.toVec, List.length_singleton, ne_eq, not_true, h0, Value.toStr] at h2
                  split at h2
                  · cases h2
                  · rcases Res.bind_eq_panic.mp h2 with h3 | ⟨b, _, h3⟩
                    · exact Prefixer.prefixMismatch_ne_panic h3
                    · split at h3 <;> cases h3
                | _ => simp [Value.toVec, h0, Value.toStr] at h2
              | _ :: _ :: _ => simp [Value.toVec] at h2
            | _ => simp [Value.toVec] at h2
        split at h2
        · rename_i hd
          rw [List.contains_iff_mem, Prefixer.digestCodes_iff] at hd
          obtain ⟨n, hn⟩ := hd
          rw [ht, Res.ok_bind] at h2
          unfold Prefixer.verifyDigest at h2
          rcases Res.bind_eq_panic.mp h2 with h3 | ⟨⟨d, c⟩, hd, h3⟩
          · exact (Prefixer.deriveDigest_panic hn).mp h3 o rfl
          · obtain ⟨z, hz, _⟩ := digest_row hn
            obtain ⟨o', r, e, rfl, hr, rfl⟩ := (Prefixer.deriveDigest_ok hn hz).mp hd
            obtain ⟨z2, t2, hnew, w2, hq2⟩ := digest_matter E H hn r.raw
            have hdn : Diger.new E H none (some p.code) (some (H.digest p.code r.raw)) none none none = .ok ⟨p.code, 0, H.digest p.code r.raw⟩ := by
              unfold Diger.new
              rw [hnew]
              simp [validateDigestCode_ok (u := ()).mpr ⟨n, hn⟩]
            simp only [hdn, Res.ok_bind, hq2, hm] at h3
            split at h3
            · cases h3
            · rcases Res.bind_eq_panic.mp h3 with h4 | ⟨b, _, h4⟩
              · exact Prefixer.prefixMismatch_ne_panic h4
              · split at h4 <;> cases h4
        · cases h2
  · intro h
    unfold Prefixer.verify
    dsimp only
    rw [h]; rfl

/-! ## Examples and exceptions -/

/-- A key that cannot be rotated. -/
def sampleKeyB : Str := lit "BAAAAAAAAAAAAAAAAAAAAAAAAAAAAAAAAAAAAAAAAAAA"
/-- A key that can be rotated. -/
def sampleKeyD : Str := lit "DAAAAAAAAAAAAAAAAAAAAAAAAAAAAAAAAAAAAAAAAAAA"

/-- An event with one key and some further fields. -/
def sampleIcp (key : Str) (more : List (Str × Value)) : List (Str × Value) :=
  [(lit "t", .str (lit "icp")), (lit "k", .arr [.str key]), (lit "s", .str (lit "0")), (lit "x", .arr [.int 1, .obj []])] ++ more

/-- C47, C48: a digest prefix is derived and verifies against an event without `i` and `d`. -/
example (E : Env) (H : Hash) : ∃ p, Prefixer.new E H (some (.obj ((lit "v", .str (lit "KERI10JSON000000_")) :: sampleIcp sampleKeyD []))) none (some (lit "0D")) none none none none
    = .ok p ∧ p.code ∈ digestPrefixes ∧ IsPrefix E H p ∧
    Prefixer.verify E H p (.obj ((lit "v", .str (lit "KERI10JSON000000_")) :: sampleIcp sampleKeyD [])) none = .ok true := by
  obtain ⟨p, hp, hc⟩ := C47_digest_derives E H (o := sampleIcp sampleKeyD []) (code := lit "0D") (vs := lit "KERI10JSON000000_") (i := lit "KERI") (m := 0)
    ⟨rfl, lit "icp", rfl, by decide +kernel⟩ (by decide +kernel) (sample_text (by decide +kernel)) (by decide +kernel) (by decide +kernel)
  have hd : p.code ∈ digestPrefixes := by rw [hc]; decide +kernel
  obtain ⟨_, _, _, _, _, h, _⟩ := C47_digest hp hd
  exact ⟨p, hp, hd, ⟨_, _, _, _, _, _, _, hp⟩, h⟩

/-- C47: basic prefixes are derived; the key that cannot be rotated from an event with an empty text in `n`. -/
example (E : Env) (H : Hash) : ∃ p q, Prefixer.new E H (some (.obj (sampleIcp sampleKeyD [(lit "n", .arr [.str []])]))) none (some (lit "D")) none none none none = .ok p ∧
    Prefixer.new E H (some (.obj (sampleIcp sampleKeyB [(lit "n", .str [])]))) none (some (lit "B")) none none none none = .ok q := by
  have hD : Matter.ofText E sampleKeyD = .ok ⟨lit "D", 0, List.replicate 32 0⟩ := by
    have : Matter.exfil sampleKeyD = .ok ⟨lit "D", 0, List.replicate 32 0⟩ := by decide +kernel
    exact this
  have hB : Matter.ofText E sampleKeyB = .ok ⟨lit "B", 0, List.replicate 32 0⟩ := by
    have : Matter.exfil sampleKeyB = .ok ⟨lit "B", 0, List.replicate 32 0⟩ := by decide +kernel
    exact this
  have wD : Matter.Wf ⟨lit "D", 0, List.replicate 32 0⟩ ⟨1, 0, 0, 44⟩ := ⟨by decide +kernel, by decide +kernel, by decide +kernel⟩
  have wB : Matter.Wf ⟨lit "B", 0, List.replicate 32 0⟩ ⟨1, 0, 0, 44⟩ := ⟨by decide +kernel, by decide +kernel, by decide +kernel⟩
  have tD : Matter.qb64 E ⟨lit "D", 0, List.replicate 32 0⟩ = .ok sampleKeyD := (wD.infil E).trans (by decide +kernel)
  have tB : Matter.qb64 E ⟨lit "B", 0, List.replicate 32 0⟩ = .ok sampleKeyB := (wB.infil E).trans (by decide +kernel)
  refine ⟨_, _, C47_basic_derives E H ⟨rfl, lit "icp", rfl, by decide +kernel⟩ hD tD (by decide +kernel) rfl (fun h => absurd h (by decide +kernel)),
    C47_basic_derives E H ⟨rfl, lit "icp", rfl, by decide +kernel⟩ hB tB (by decide +kernel) rfl ?_⟩
  intro _ l hl
  simp only [List.mem_cons, List.not_mem_nil, or_false] at hl
  rcases hl with rfl | rfl | rfl
  · exact .inr rfl
  · exact .inl rfl
  · exact .inl rfl

/-- C47, exception: with text after the key a prefix is derived that does not verify. -/
theorem C47_trailing_defect (H : Hash) : ∃ ked p, Prefixer.new Env.release H (some ked) none (some (lit "D")) none none none none = .ok p ∧
    Prefixer.verify Env.release H p ked none = .ok false := by
  have hx : Matter.ofText Env.release (sampleKeyD ++ lit "!") = .ok ⟨lit "D", 0, List.replicate 32 0⟩ := by decide +kernel
  have hnew : Prefixer.new Env.release H (some (.obj (sampleIcp (sampleKeyD ++ lit "!") []))) none (some (lit "D")) none none none none =
      .ok ⟨lit "D", 0, List.replicate 32 0⟩ := by
    have hkey : Prefixer.theKey Env.release (.obj (sampleIcp (sampleKeyD ++ lit "!") [])) = .ok ⟨lit "D", 0, List.replicate 32 0⟩ :=
      Prefixer.theKey_ok.mpr ⟨_, _, rfl, rfl, hx, by decide +kernel⟩
    refine Prefixer.new_ked_ok.mpr ⟨lit "D", List.replicate 32 0, lit "D", .inl rfl, by decide +kernel, .inl rfl,
      Prefixer.derive_eq.mpr ⟨_, lit "icp", rfl, rfl, by decide +kernel, .inr (.inl ⟨by decide +kernel, ?_⟩)⟩, by decide +kernel⟩
    unfold Prefixer.deriveTransferable
    rw [hkey]; rfl
  obtain ⟨o, t, rest, ⟨e, _⟩, ht, hk, _, h, _⟩ := C47_basic hnew (by decide +kernel)
  refine ⟨_, _, hnew, ?_⟩
  rw [h]
  injection e with e
  subst e
  have hk' : (Value.arr [.str (sampleKeyD ++ lit "!")]) = .arr [.str (t ++ rest)] := by
    have : (sampleIcp (sampleKeyD ++ lit "!") []).lookup (lit "k") = some (.arr [.str (sampleKeyD ++ lit "!")]) := rfl
    rw [this] at hk
    injection hk
  have ht' : t = sampleKeyD := by
    have : Matter.qb64 Env.release ⟨lit "D", 0, List.replicate 32 0⟩ = .ok sampleKeyD := by decide +kernel
    rw [this] at ht
    injection ht with ht
    exact ht.symm
  subst ht'
  have hr : rest = lit "!" := by
    simp only [Value.arr.injEq, List.cons.injEq, Value.str.injEq, and_true] at hk'
    exact (List.append_cancel_left hk').symm
  rw [hr]
  decide +kernel

/-- An event with a key that looks like a version string in front of the version field. -/
def C48_trap (k : Str) : List (Str × Value) := [(k, .int 0), (lit "v", .str (lit "KERI10JSON000000_")), (lit "t", .str (lit "icp"))]

/-- C48, exception: a digest prefix derived from an event with a version-like key in front of its version field verifies against an event
with another key, for all hash functions. -/
theorem C48_defect (E : Env) (H : Hash) : ∃ p, Prefixer.new E H (some (.obj (C48_trap (lit "KERI10JSON000000_")))) none (some (lit "E")) none none none none = .ok p ∧
    Prefixer.verify E H p (.obj (C48_trap (lit "KERI10JSON000001_"))) none = .ok true := by
  have hn : ∀ k, k ≠ lit "v" → lit "v" ∉ [(k, Value.int 0)].map Prod.fst := by
    intro k hk h
    simp only [List.map_cons, List.map_nil, List.mem_singleton] at h
    exact hk h.symm
  have ht : VersionText (lit "KERI10JSON000000_") (lit "KERI") 1 0 (lit "JSON") 0 := sample_text (by decide +kernel)
  have hins : ∀ k, k ∈ [lit "KERI10JSON000000_", lit "KERI10JSON000001_"] → Value.insert (Value.insert (C48_trap k) (lit "i") (Saider.dummy 44)) (lit "d") (Saider.dummy 44) =
      [(k, .int 0)] ++ (lit "v", .str (lit "KERI10JSON000000_")) :: [(lit "t", .str (lit "icp")), (lit "i", Saider.dummy 44), (lit "d", Saider.dummy 44)] := by
    intro k hk
    simp only [List.mem_cons, List.not_mem_nil, or_false] at hk
    rcases hk with rfl | rfl <;> rfl
  have e1 := sizeify_eq (o2 := [(lit "t", .str (lit "icp")), (lit "i", Saider.dummy 44), (lit "d", Saider.dummy 44)]) (kind := none)
    (hn (lit "KERI10JSON000000_") (by decide +kernel)) ht (by decide +kernel) rfl
  have e2 := sizeify_eq (o2 := [(lit "t", .str (lit "icp")), (lit "i", Saider.dummy 44), (lit "d", Saider.dummy 44)]) (kind := none)
    (hn (lit "KERI10JSON000001_") (by decide +kernel)) ht (by decide +kernel) rfl
  dsimp only at e1 e2
  rw [if_pos (by decide +kernel), ← hins _ (by decide +kernel)] at e1 e2
  have hd : (lit "E", 32) ∈ digestSizes := by decide +kernel
  have hz : Matter.sizage (lit "E") = .ok ⟨1, 0, 0, 44⟩ := by decide +kernel
  generalize hr1 : Sized.mk _ _ _ _ _ = r1 at e1
  generalize hr2 : Sized.mk _ _ _ _ _ = r2 at e2
  have hraw : r1.raw = r2.raw := by
    rw [← hr1, ← hr2]
    dsimp only
    decide +kernel
  obtain ⟨z', t, hnew, w, hq⟩ := digest_matter E H hd r1.raw
  refine ⟨_, Prefixer.new_ked_ok.mpr ⟨lit "E", _, lit "E", .inl rfl, by decide +kernel, .inl rfl, Prefixer.derive_eq.mpr ⟨_, lit "icp", rfl, rfl, by decide +kernel,
    .inr (.inr ⟨by decide +kernel, (Prefixer.deriveDigest_ok hd hz).mpr ⟨_, r1, rfl, rfl, e1, rfl⟩⟩)⟩, hnew⟩, ?_⟩
  have hzz : z' = ⟨1, 0, 0, 44⟩ := by have := w.szg; simp only at this; rw [hz] at this; injection this with this; exact this.symm
  subst hzz
  rw [Prefixer.verify_eq hq]
  refine ⟨_, lit "icp", rfl, rfl, by decide +kernel, .inr (.inr ⟨show lit "E" ∈ Prefixer.digestCodes by decide +kernel, ?_⟩)⟩
  have := (Prefixer.verifyDigest_true w hq (H := H) hd (o := C48_trap (lit "KERI10JSON000001_")) (b := false)).mpr ⟨⟨r2, e2, by rw [hraw]⟩, by simp⟩
  exact this

end Cesride
