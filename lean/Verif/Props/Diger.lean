import Verif.Props.Saider

/-! # C55: digests, and concrete instances for C43, C44 -/

namespace Cesride
open Common Spec

/-- What `saidify` returns is a SAID in the sense of C44. -/
theorem C44_reachable {E : Env} {H : Hash} {sad sad' : Value} {code kind label : Option Str} {ignore : Option (List Str)} {s : Matter}
    (h : Saider.saidify E H sad code kind label ignore = .ok (s, sad')) : IsSaid E H s := by
  unfold Saider.saidify at h
  dsimp only at h
  obtain ⟨_, _, h⟩ := Res.bind_eq_ok.mp h
  split at h
  · cases h
  · obtain ⟨⟨_, x⟩, _, h⟩ := Res.bind_eq_ok.mp h
    obtain ⟨y, hy, h⟩ := Res.bind_eq_ok.mp h
    obtain ⟨_, _, h⟩ := Res.bind_eq_ok.mp h
    obtain ⟨_, _, h⟩ := Res.bind_eq_ok.mp h
    injection h with h
    injection h with h
    subst h
    exact ⟨_, _, _, _, _, _, _, _, _, hy⟩

theorem plain_insert {o : List (Str × Value)} {k : Str} {v : Value} (ho : Plain (.obj o)) (hv : Plain v) : Plain (.obj (Value.insert o k v)) := by
  obtain ⟨h1, h2⟩ := ho
  have hn : ((Value.insert o k v).map Prod.fst).Nodup := by
    rw [Saider.keys_insert]
    split
    · simpa using h2
    · rename_i hk
      rw [List.nodup_append]
      refine ⟨h2, by simp, ?_⟩
      intro a ha b hb
      simp only [List.mem_singleton] at hb
      rintro rfl
      rw [hb] at ha
      exact hk ha
  refine ⟨plainFields_iff.mpr ?_, hn⟩
  rintro ⟨j, w⟩ he
  have hlook := lookup_of_mem_nodup he hn
  by_cases hj : j = k
  · subst hj
    rw [lookup_insert_self] at hlook
    injection hlook with hlook
    rw [← hlook]; exact hv
  · rw [lookup_insert_ne _ _ hj] at hlook
    exact plainFields_iff.mp h1 _ (lookup_mem_value hlook)

/-- `saidify` of a plain map returns a plain map. -/
theorem saidify_plain {E : Env} {H : Hash} {sad sad' : Value} {code kind label : Option Str} {ignore : Option (List Str)} {s : Matter}
    (h : Saider.saidify E H sad code kind label ignore = .ok (s, sad')) (hp : Plain sad) : Plain sad' := by
  obtain ⟨n, z, o, o', t, hc, hz, rfl, hin, hpr, rfl, hq, rfl⟩ := Saider.saidify_ok h
  have hcon := Saider.prep_content (ignore := []) hpr
  exact plain_insert (saidContent_plain hcon hp) trivial

/-! ## C55 -/

/-- The digests a caller can obtain. -/
def IsDiger (E : Env) (H : Hash) (d : Matter) : Prop :=
  ∃ ser code raw qb64b qb64 qb2, Diger.new E H ser code raw qb64b qb64 qb2 = .ok d

theorem digestSizes_contains {code : Str} (h : validateDigestCode code = .ok ()) : ∃ n, (code, n) ∈ digestSizes :=
  validateDigestCode_ok.mp h

/-- C55/C54: a digest object has one of the nine digest codes. -/
theorem C55_code {E : Env} {H : Hash} {d : Matter} (h : IsDiger E H d) : ∃ n, (d.code, n) ∈ digestSizes := by
  obtain ⟨ser, code, raw, qb64b, qb64, qb2, h⟩ := h
  unfold Diger.new at h
  split at h
  · cases h
  · obtain ⟨u, hu, h⟩ := Res.bind_eq_ok.mp h
    injection h with h
    subst h
    exact validateDigestCode_ok.mp hu
  · split at h
    · obtain ⟨u, hu, h⟩ := Res.bind_eq_ok.mp h
      obtain ⟨n, hn⟩ := validateDigestCode_ok.mp hu
      obtain ⟨dig, hd, h⟩ := Res.bind_eq_ok.mp h
      obtain ⟨rfl, _⟩ := hashDigest_ok hd
      obtain ⟨z, t, hm, _⟩ := digest_matter E H hn (by assumption)
      rw [hm] at h
      injection h with h
      subst h
      exact ⟨n, hn⟩
    · cases h

/-- C55: `verify` tells whether the raw of the digest is the digest of the data under its code; it never fails. -/
theorem C55_verify {E : Env} {H : Hash} {d : Matter} (h : IsDiger E H d) (ser : List UInt8) :
    Diger.verify H d ser = .ok (decide (H.digest d.code ser = d.raw)) := by
  obtain ⟨n, hn⟩ := C55_code h
  rw [Diger.verify, hashDigest_eq hn]
  rfl

/-- C55: the digest of data under a digest code is that of the hash function and verifies; without a code it is Blake3-256. -/
theorem C55_hash (E : Env) (H : Hash) (ser : List UInt8) {code : Option Str} {n : Nat} (hc : (code.getD (lit "E"), n) ∈ digestSizes) :
    ∃ d t, Diger.new E H (some ser) code none none none none = .ok d ∧ d.code = code.getD (lit "E") ∧ d.raw = H.digest d.code ser ∧ d.qb64 E = .ok t ∧
      Diger.verify H d ser = .ok true := by
  obtain ⟨z, t, hm, _, ht⟩ := digest_matter E H hc ser
  have hval : validateDigestCode (code.getD (lit "E")) = .ok () := validateDigestCode_ok.mpr ⟨n, hc⟩
  have hnew : Diger.new E H (some ser) code none none none none = .ok { code := code.getD (lit "E"), size := 0, raw := H.digest (code.getD (lit "E")) ser } := by
    unfold Diger.new
    have : Matter.new E code none none none none = .err .validation := rfl
    rw [this]
    dsimp only
    rw [hval]
    simp only [Res.ok_bind, hashDigest_eq hc]
    exact hm
  refine ⟨_, t, hnew, rfl, rfl, ht, ?_⟩
  rw [C55_verify ⟨_, _, _, _, _, _, hnew⟩]
  simp

/-- C55: comparing with another digest object. With equal texts: true. With different texts: true exactly when the codes differ and
both are digests of the data. -/
theorem C55_compare {E : Env} {H : Hash} {d e : Matter} (hd : IsDiger E H d) (he : IsDiger E H e) (ser : List UInt8) {s t : Str}
    (hs : d.qb64 E = .ok s) (ht : e.qb64 E = .ok t) :
    Diger.compare E H d ser none (some e) =
      .ok (decide (s = t ∨ (d.code ≠ e.code ∧ H.digest d.code ser = d.raw ∧ H.digest e.code ser = e.raw))) := by
  unfold Diger.compare Diger.compareDiger
  simp only [hs, ht, Res.ok_bind]
  by_cases h1 : t = s
  · simp [h1]
  · rw [if_neg h1]
    by_cases h2 : e.code = d.code
    · rw [if_pos h2]
      have : ¬ (s = t ∨ (d.code ≠ e.code ∧ H.digest d.code ser = d.raw ∧ H.digest e.code ser = e.raw)) := by
        rintro (h | ⟨h, _⟩)
        · exact h1 h.symm
        · exact h h2.symm
      rw [decide_eq_false this]
    · rw [if_neg h2, C55_verify he, C55_verify hd]
      simp only [Res.ok_bind]
      by_cases h3 : H.digest e.code ser = e.raw
      · simp [h3, Ne.symm h1, Ne.symm h2]
      · simp [h3, Ne.symm h1]

/-- C55: on objects with a text, "equal texts" means the same digest, so comparing is equality of digests or being digests of the
same data under different codes. -/
theorem C55_compare_same {E : Env} {H : Hash} {d e : Matter} (hd : IsDiger E H d) (he : IsDiger E H e) {s t : Str}
    (hs : d.qb64 E = .ok s) (ht : e.qb64 E = .ok t) : s = t ↔ d.code = e.code ∧ d.raw = e.raw := by
  have wf : ∀ {x : Matter} {u : Str}, IsDiger E H x → x.qb64 E = .ok u → ∃ z, Matter.Wf x z ∧ z.fs ≠ u32Max := by
    rintro x u hx hu
    have hx' := hx
    obtain ⟨n, hn⟩ := C55_code hx
    obtain ⟨z, hz, hf, _⟩ := digest_row hn
    obtain ⟨ser, code, raw, qb64b, qb64, qb2, h⟩ := hx
    unfold Diger.new at h
    have key : ∀ {code : Option Str} {raw qb64b : Option (List UInt8)} {qb64 : Option Str} {qb2 : Option (List UInt8)},
        Matter.new E code raw qb64b qb64 qb2 = .ok x → ∃ z, Matter.Wf x z ∧ z.fs ≠ u32Max := by
      intro _ _ _ _ _ hm
      obtain ⟨z', w⟩ := Matter.new_text_wf hm hu
      have : z' = z := by have := w.szg; rw [hz] at this; injection this with this; exact this.symm
      exact ⟨z', w, by rw [this]; exact hf⟩
    split at h
    · cases h
    · rename_i y hm
      obtain ⟨_, _, h⟩ := Res.bind_eq_ok.mp h
      injection h with h
      subst h
      exact key hm
    · split at h
      · obtain ⟨_, _, h⟩ := Res.bind_eq_ok.mp h
        obtain ⟨_, _, h⟩ := Res.bind_eq_ok.mp h
        exact key h
      · cases h
  obtain ⟨z, w, hf⟩ := wf hd hs
  obtain ⟨y, w', hf'⟩ := wf he ht
  constructor
  · rintro rfl
    have : d = e := Matter.Wf.text_inj w w' (by rw [hs, ht])
    subst this
    exact ⟨rfl, rfl⟩
  · rintro ⟨h1, h2⟩
    have h3 : d.size = e.size := by rw [(w.fix hf).1, (w'.fix hf').1]
    have : d = e := by
      cases d; cases e
      simp only at h1 h2 h3
      subst h1 h2 h3
      rfl
    subst this
    rw [hs] at ht
    injection ht

/-- C55: comparing with a digest given as text. The text of the digest itself: true. Any other text: the error of parsing it, or
false if its code is the same (also for the own text followed by more text), an error if its code is not a digest code, and else
whether both are digests of the data. -/
theorem C55_compare_text {E : Env} {H : Hash} {d : Matter} (hd : IsDiger E H d) (ser dig : List UInt8) (diger : Option Matter) {s : Str}
    (hs : d.qb64 E = .ok s) :
    (dig = s → Diger.compare E H d ser (some dig) diger = .ok true) ∧
    (dig ≠ s → ∀ err, Matter.new E none none (some dig) none none = .err err → Diger.compare E H d ser (some dig) diger = .err err) ∧
    (dig ≠ s → ∀ m, Matter.new E none none (some dig) none none = .ok m →
      ((∃ n, (m.code, n) ∈ digestSizes) → Diger.compare E H d ser (some dig) diger =
        .ok (decide (d.code ≠ m.code ∧ H.digest d.code ser = d.raw ∧ H.digest m.code ser = m.raw))) ∧
      ((∀ n, (m.code, n) ∉ digestSizes) → Diger.compare E H d ser (some dig) diger = .err .unexpectedCode)) := by
  have hs' : d.qb64b E = .ok s := hs
  refine ⟨?_, ?_, ?_⟩
  · rintro rfl
    unfold Diger.compare Diger.compareDig
    simp [hs']
  · intro hne err herr
    unfold Diger.compare Diger.compareDig
    simp [hs', hne, herr]
  · intro hne m hm
    unfold Diger.compare Diger.compareDig
    simp only [hs', Res.ok_bind, if_neg hne, hm]
    constructor
    · rintro ⟨n, hn⟩
      have hv : Diger.verify H m ser = .ok (decide (H.digest m.code ser = m.raw)) := by rw [Diger.verify, hashDigest_eq hn]; rfl
      by_cases h2 : m.code = d.code
      · rw [if_pos h2, decide_eq_false]
        rintro ⟨h, _⟩
        exact h h2.symm
      · rw [if_neg h2, hv, C55_verify hd]
        simp only [Res.ok_bind]
        by_cases h3 : H.digest m.code ser = m.raw
        · simp [h3, Ne.symm h2]
        · simp [h3]
    · intro hn
      obtain ⟨n, hdn⟩ := C55_code hd
      have h2 : m.code ≠ d.code := by
        intro e
        rw [← e] at hdn
        exact hn n hdn
      have hv : Diger.verify H m ser = .err .unexpectedCode := by
        rw [Diger.verify]
        cases hh : hashDigest H m.code ser with
        | ok x => obtain ⟨_, n, hn'⟩ := hashDigest_ok hh; exact absurd hn' (hn n)
        | err x =>
          unfold hashDigest at hh
          split at hh
          · cases hh
          · injection hh with hh; rw [← hh]; rfl
        | panic => unfold hashDigest at hh; split at hh <;> cases hh
      rw [if_neg h2, hv]
      rfl

/-! ## Concrete instances -/

/-- A hash whose digests are all zeros, for examples only. -/
def zeroHash : Hash where
  digest code _ := List.replicate (if code.length = 1 then 32 else 64) 0
  length := by
    intro code n h ser
    have : ∀ e ∈ digestSizes, (if e.1.length = 1 then 32 else 64) = e.2 := by decide +kernel
    rw [List.length_replicate]
    exact this _ h

/-- Digests of different codes of the same data compare equal. -/
example (E : Env) (H : Hash) (ser : List UInt8) : ∃ d e s, Diger.new E H (some ser) none none none none none = .ok d ∧
    Diger.new E H (some ser) (some (lit "0G")) none none none none = .ok e ∧ d.qb64 E = .ok s ∧ d.code ≠ e.code ∧
    Diger.compare E H d ser none (some e) = .ok true := by
  obtain ⟨d, s, hd, hc, hr, hs, _⟩ := C55_hash E H ser (code := none) (n := 32) (by decide +kernel)
  obtain ⟨e, t, he, hc', hr', ht, _⟩ := C55_hash E H ser (code := some (lit "0G")) (n := 64) (by decide +kernel)
  have hne : d.code ≠ e.code := by rw [hc, hc']; decide +kernel
  refine ⟨d, e, s, hd, he, hs, hne, ?_⟩
  rw [C55_compare ⟨_, _, _, _, _, _, hd⟩ ⟨_, _, _, _, _, _, he⟩ ser hs ht, decide_eq_true]
  exact Or.inr ⟨hne, hr.symm, hr'.symm⟩

/-- The map of the examples below. -/
def sampleSad : List (Str × Value) := [(lit "d", .str []), (lit "a", .arr [.int 7, .null]), (lit "x", .obj [(lit "y", .bool true)])]

/-- C43 applies to a versioned map with nested content, with an ignored field. -/
example (E : Env) (H : Hash) : ∃ s sad', Saider.saidify E H (.obj ((lit "v", .str (lit "ACDC10JSON000000_")) :: sampleSad)) (some (lit "0D")) none
    (some (lit "d")) (some [lit "x"]) = .ok (s, sad') ∧ Saider.verify E H s sad' (some true) (some true) none (some (lit "d")) (some [lit "x"]) = .ok true := by
  obtain ⟨s, sad', h⟩ := C43_succeeds_versioned E H (o := sampleSad) (code := lit "0D") (label := lit "d") (n := 64) (i := lit "ACDC") (m := 0)
    (vs := lit "ACDC10JSON000000_") (some [lit "x"]) (by decide +kernel) (by decide +kernel) (by decide +kernel)
    ⟨lit "1", lit "0", lit "000000", by decide +kernel, ⟨by decide +kernel, by decide +kernel⟩,
      ⟨by decide +kernel, by decide +kernel, by decide +kernel⟩, ⟨by decide +kernel, by decide +kernel, by decide +kernel⟩,
      ⟨by decide +kernel, by decide +kernel⟩, ⟨by decide +kernel, by decide +kernel, by decide +kernel⟩⟩ (by decide +kernel) (by decide +kernel)
  exact ⟨s, sad', h, C43_verifies h _ _ (Or.inl rfl)⟩

/-- C44: the premises are met by the result of `saidify` (a SAID that verifies against its map). -/
example (E : Env) (H : Hash) : ∃ s sad', IsSaid E H s ∧ Plain sad' ∧ Saider.verify E H s sad' none none none none none = .ok true := by
  obtain ⟨s, sad', h⟩ := C43_succeeds_plain E H (o := sampleSad) (code := lit "E") (label := lit "d") (n := 32) none (by decide +kernel) (by decide +kernel)
    (by decide +kernel)
  obtain ⟨o, o', t, ho, rfl, ht, _, hl, hk, hother⟩ := C43_map h
  injection ho with ho
  subst ho
  have hver := C43_verifies h none none (kind' := none) (Or.inl rfl)
  refine ⟨s, _, ?_, ?_, hver⟩
  · exact C44_reachable h
  · exact saidify_plain h (by unfold sampleSad; simp [Plain, PlainFields, PlainElems]; decide +kernel)

end Cesride
