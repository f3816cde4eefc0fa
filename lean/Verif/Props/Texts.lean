import Verif.Props.Prims

/-! # Properties C31 - C33: Base64 texts and date-times -/

namespace Cesride
open Matter

/-! ## C31, C32 -/

theorem bextCodes_row : ∀ code ∈ Spec.bextCodes, ∃ z, sizage code = .ok z ∧ z.fs = u32Max ∧ code.getLast? = some (ch 'A') := by
  intro code h
  simp only [Spec.bextCodes, List.mem_cons, List.not_mem_nil, or_false] at h
  rcases h with rfl | rfl | rfl | rfl | rfl | rfl <;> exact ⟨_, rfl, rfl, rfl⟩

/-- What `rawify` makes of a Base64 text: the bytes whose encoding, after `ls` zero bytes, is the text after `ws` times
the character `A`. -/
theorem rawify_spec {t : Str} (ht : Spec.IsB64Text t) :
    ∃ raw ls ws, Bexter.rawify t = .ok raw ∧ ls ≤ 2 ∧ raw.length + ls = 3 * ((t.length + 3) / 4) ∧
      ((t.length % 4 = 0 ∧ ws = 0 ∧ ls = 0) ∨ (t.length % 4 = 3 ∧ ws = 1 ∧ ls = 0) ∨
        (t.length % 4 = 2 ∧ ws = 2 ∧ ls = 1) ∨ (t.length % 4 = 1 ∧ ws = 3 ∧ ls = 2)) ∧
      b64Encode (List.replicate ls 0 ++ raw) = List.replicate ws (ch 'A') ++ t := by
  obtain ⟨d, hd, hdt⟩ := exists_encD ((isB64Text_iff t).mp ht)
  have hdl : d.length = t.length := by rw [← hdt]; simp [encD]
  generalize hws : (4 - t.length % 4) % 4 = ws
  generalize hls : (3 - t.length % 4) % 3 = ls
  have hcase : (t.length % 4 = 0 ∧ ws = 0 ∧ ls = 0) ∨ (t.length % 4 = 3 ∧ ws = 1 ∧ ls = 0) ∨
        (t.length % 4 = 2 ∧ ws = 2 ∧ ls = 1) ∨ (t.length % 4 = 1 ∧ ws = 3 ∧ ls = 2) := by
    have h4 : t.length % 4 = 0 ∨ t.length % 4 = 1 ∨ t.length % 4 = 2 ∨ t.length % 4 = 3 := by omega
    subst hws; subst hls
    rcases h4 with h | h | h | h <;> simp [h]
  have hD : ∀ x ∈ List.replicate ws 0 ++ d, x < 64 := by
    intro x hx
    rcases List.mem_append.mp hx with hx | hx
    · rw [List.eq_of_mem_replicate hx]; decide
    · exact hd x hx
  have hDl : (List.replicate ws 0 ++ d).length = ws + t.length := by simp [hdl]
  obtain ⟨v, hvl, hv⟩ := exists_sextets hD (by rw [hDl]; omega)
  rw [hDl] at hvl
  have hv3 : v.length % 3 = 0 := by omega
  have hq : v.length = 3 * ((t.length + 3) / 4) := by omega
  have henc : encD (sextets v) = List.replicate ws (ch 'A') ++ t := by
    rw [hv, ← hdt, encD, List.map_append, ← encD, ← encD, encD_replicate]
  have hlead : v.take ls = List.replicate ls 0 := by
    have hval : beNat v = valB 64 d := by
      rw [← valB_sextets hv3, hv, valB_append, valB_replicate_zero]; omega
    have h0 : beNat (v.take ls) = 0 := by
      rw [beNat_take, hval]
      apply Nat.div_eq_of_lt
      have hb := valB_lt hd
      refine Nat.lt_of_lt_of_le hb ?_
      rw [show (64 : Nat) = 2 ^ 6 from rfl, show (256 : Nat) = 2 ^ 8 from rfl, ← Nat.pow_mul, ← Nat.pow_mul]
      apply Nat.pow_le_pow_right (by decide)
      omega
    have := beNat_zero_replicate h0
    rw [List.length_take, Nat.min_eq_left (by omega)] at this
    exact this
  have hv' : List.replicate ls 0 ++ v.drop ls = v := by rw [← hlead]; exact List.take_append_drop ..
  refine ⟨v.drop ls, ls, ws, ?_, by omega, ?_, hcase, ?_⟩
  · simp only [Bexter.rawify, hws, hls]
    rw [← henc, b64Decode_encD_sextets hv3]
    simp only [Res.ok_bind]
    rw [slice_to_end (by omega)]
  · rw [List.length_drop]; omega
  · rw [hv', b64Encode_eq hv3, henc]

/-- C31. A Base64URL text of any length up to the size limit builds a Bexter under each of the six codes, which parses
back from its encodings; `bext` returns the text, except that a text whose length is a multiple of four loses a leading
`A`. -/
theorem C31_bext_roundtrip (E : Env) {code t : Str} (hc : code ∈ Spec.bextCodes) (ht : Spec.IsB64Text t)
    (hl : t.length ≤ 4 * (64 ^ 4 - 1)) :
    ∃ x q b, Bexter.ofBext E code t = .ok x ∧ x.code ∈ Spec.bextCodes ∧
      Bexter.bext x = .ok (if t.length % 4 = 0 ∧ t.head? = some (ch 'A') then t.tail else t) ∧
      x.qb64 E = .ok q ∧ x.qb2 E = .ok b ∧
      Bexter.ofText E q = .ok x ∧ Bexter.ofTextBytes E q = .ok x ∧ Bexter.ofBinary E b = .ok x := by
  obtain ⟨z, hz, hf, hlast⟩ := bextCodes_row code hc
  obtain ⟨raw, ls, ws, hr, hls, hrl, hcase, henc⟩ := rawify_spec ht
  obtain ⟨f, hf1, hs, hb, hnew⟩ := new_var hz hf (raw := raw) (by omega)
  have hfA : f = ch 'A' := by rw [hlast] at hf1; injection hf1 with hf1; exact hf1.symm
  subst hfA
  have hlead : leadSize raw.length = ls := by unfold leadSize; omega
  have hquad : quadlets raw.length = (t.length + 3) / 4 := by
    have := quad_lead raw.length; omega
  -- the object that is built
  obtain ⟨x, zx, hx, hxc, hxz, hxls, hxr⟩ : ∃ x zx, newWithCodeAndRaw code raw = .ok x ∧ x.code ∈ Spec.bextCodes ∧
      sizage x.code = .ok zx ∧ zx.ls = ls ∧ x.raw = raw := by
    rw [hnew, hlead]
    split
    · rename_i hh
      refine ⟨_, _, rfl, ?_, hs ls hls hh.1, rfl, rfl⟩
      have hm : ∀ l ≤ 2, (smallVrzDex.getD l 0 :: [ch 'A']) ∈ Spec.bextCodes := by decide +kernel
      exact hm ls hls
    · rw [if_pos (by omega)]
      refine ⟨_, _, rfl, ?_, hb ls hls, rfl, rfl⟩
      have hm : ∀ l ≤ 2, (largeVrzDex.getD l 0 :: lit "AA" ++ [ch 'A']) ∈ Spec.bextCodes := by decide +kernel
      exact hm ls hls
  obtain ⟨zz, w⟩ := new_wf' hz hx
  obtain ⟨q, b, q1, q2, q3, q4, q5⟩ := w.transport E
  have hhas : Bexter.hasCode x.code = true := by
    have : ∀ c ∈ Spec.bextCodes, Bexter.hasCode c = true := by decide +kernel
    exact this _ hxc
  refine ⟨x, q, b, ?_, hxc, ?_, q1, q2, ?_, ?_, ?_⟩
  · show (do let m ← (if Bexter.reB64 t = false then .err .value
                      else do let raw ← Bexter.rawify t; Matter.new E (some code) (some raw) none none none : Res Matter)
             if Bexter.hasCode m.code then .ok m else .err .unexpectedCode) = _
    rw [(reB64_iff t).mpr ht, hr]
    simp only [Bool.true_eq_false, if_false, Res.ok_bind]
    rw [show Matter.new E (some code) (some raw) none none none = newWithCodeAndRaw code raw from rfl, hx]
    simp [hhas]
  · simp only [Bexter.bext, hxz, Res.ok_bind, hxls, hxr, henc]
    have hta : Ascii t := ascii_of_isB64 ((isB64Text_iff t).mp ht)
    have hA : Ascii (List.replicate ws (ch 'A') ++ t) := by
      apply ascii_append _ hta
      intro c hc; rw [List.eq_of_mem_replicate hc]; decide
    rcases hcase with ⟨h1, rfl, rfl⟩ | ⟨h1, rfl, rfl⟩ | ⟨h1, rfl, rfl⟩ | ⟨h1, rfl, rfl⟩
    · simp only [List.replicate_zero, List.nil_append, if_true, h1, true_and]
      by_cases hh : t.head? = some (ch 'A')
      · simp only [hh, if_true]
        cases t with
        | nil => simp at hh
        | cons c t => rw [sliceStr_ascii_to_end hta (by simp)]; rfl
      · simp only [hh, if_false]
        rw [sliceStr_ascii_to_end hta (by omega)]; rfl
    · have hne : ¬ (t.length % 4 = 0 ∧ t.head? = some (ch 'A')) := by omega
      simp only [if_neg hne, if_true]
      have hhd : (List.replicate 1 (ch 'A') ++ t).head? = some (ch 'A') := rfl
      simp only [hhd, if_true]
      rw [sliceStr_ascii_to_end hA (by simp)]
      rfl
    · have hne : ¬ (t.length % 4 = 0 ∧ t.head? = some (ch 'A')) := by omega
      simp only [if_neg hne]
      rw [if_neg (show ¬ (1 : Nat) = 0 by decide)]
      rw [sliceStr_ascii_to_end hA (by simp)]
      rfl
    · have hne : ¬ (t.length % 4 = 0 ∧ t.head? = some (ch 'A')) := by omega
      simp only [if_neg hne]
      rw [if_neg (show ¬ (2 : Nat) = 0 by decide)]
      rw [sliceStr_ascii_to_end hA (by simp)]
      rfl
  · show (do let m ← newWithQb64 q; if Bexter.hasCode m.code then .ok m else .err .unexpectedCode) = _
    rw [q3]; simp [hhas]
  · show (do let m ← newWithQb64b q; if Bexter.hasCode m.code then .ok m else .err .unexpectedCode) = _
    rw [q4]; simp [hhas]
  · show (do let m ← newWithQb2 E b; if Bexter.hasCode m.code then .ok m else .err .unexpectedCode) = _
    rw [q5]; simp [hhas]

/-- C31, positive part by itself: the text comes back unless its length is a multiple of four and it starts with `A`. -/
theorem C31_bext_exact (E : Env) {code t : Str} (hc : code ∈ Spec.bextCodes) (ht : Spec.IsB64Text t)
    (hl : t.length ≤ 4 * (64 ^ 4 - 1)) (ha : t.length % 4 ≠ 0 ∨ t.head? ≠ some (ch 'A')) :
    ∃ x, Bexter.ofBext E code t = .ok x ∧ Bexter.bext x = .ok t := by
  obtain ⟨x, _, _, h1, _, h2, _⟩ := C31_bext_roundtrip E hc ht hl
  refine ⟨x, h1, ?_⟩
  rw [h2, if_neg]
  intro h; rcases ha with ha | ha
  · exact ha h.1
  · exact ha h.2

/-- C31, the defect: two different texts build the same object. -/
theorem C31_bext_not_injective (E : Env) {code t : Str} (hc : code ∈ Spec.bextCodes) (ht : Spec.IsB64Text t)
    (hl : t.length + 1 ≤ 4 * (64 ^ 4 - 1)) (h3 : t.length % 4 = 3) :
    Bexter.ofBext E code (ch 'A' :: t) = Bexter.ofBext E code t ∧ ∃ x, Bexter.ofBext E code t = .ok x := by
  have ht' : Spec.IsB64Text (ch 'A' :: t) := by
    intro c hc; rcases List.mem_cons.mp hc with rfl | hc
    · decide +kernel
    · exact ht c hc
  refine ⟨?_, let ⟨x, _, _, h, _⟩ := C31_bext_roundtrip E hc ht (by omega); ⟨x, h⟩⟩
  obtain ⟨raw, ls, ws, hr, _, _, hcase, henc⟩ := rawify_spec ht
  obtain ⟨raw', ls', ws', hr', _, _, hcase', henc'⟩ := rawify_spec ht'
  simp only [List.length_cons] at hcase'
  have e1 : ls = 0 ∧ ws = 1 := by omega
  have e2 : ls' = 0 ∧ ws' = 0 := by omega
  obtain ⟨rfl, rfl⟩ := e1
  obtain ⟨rfl, rfl⟩ := e2
  have : raw' = raw := by
    simp only [List.replicate_zero, List.nil_append] at henc henc'
    have he : b64Encode raw' = b64Encode raw := by rw [henc', henc]; rfl
    have hl1 : raw'.length % 3 = 0 := by omega
    have hl2 : raw.length % 3 = 0 := by omega
    rw [b64Encode_eq hl1, b64Encode_eq hl2] at he
    exact sextets_inj hl1 hl2 (encD_inj (sextets_lt _) (sextets_lt _) he)
  show (do let m ← (if Bexter.reB64 (ch 'A' :: t) = false then .err .value
                      else do let raw ← Bexter.rawify (ch 'A' :: t); Matter.new E (some code) (some raw) none none none : Res Matter)
           if Bexter.hasCode m.code then .ok m else .err .unexpectedCode) =
       (do let m ← (if Bexter.reB64 t = false then .err .value
                      else do let raw ← Bexter.rawify t; Matter.new E (some code) (some raw) none none none : Res Matter)
           if Bexter.hasCode m.code then .ok m else .err .unexpectedCode)
  rw [(reB64_iff t).mpr ht, (reB64_iff _).mpr ht', hr, hr', this]

/-- C32. Text with a character outside the alphabet is refused, whatever the code. -/
theorem C32_bext_refused (E : Env) (code : Option Str) {t : Str} (ht : ∃ c ∈ t, c ∉ Spec.alphabet) :
    Bexter.new E (some t) code none none none none = .err .value := by
  have : Bexter.reB64 t = false := by
    cases h : Bexter.reB64 t with
    | false => rfl
    | true =>
      obtain ⟨c, h1, h2⟩ := ht
      exact absurd ((reB64_iff t).mp h c h1) h2
  simp [Bexter.new, this]

example : Bexter.ofBext Env.debug (lit "4A") (lit "-a-b-c") = .ok { code := lit "5A", size := 2, raw := [15, 154, 249, 191, 156] } := by decide +kernel
example : (do let x ← Bexter.ofBext Env.debug (lit "4A") (lit "-a-b-c"); Bexter.bext x) = .ok (lit "-a-b-c") := by decide +kernel
example : (do let x ← Bexter.ofBext Env.debug (lit "4A") (lit "AABC"); Bexter.bext x) = .ok (lit "ABC") := by decide +kernel
example : Bexter.new Env.debug (some (lit "a=b")) none none none none none = .err .value := C32_bext_refused _ _ ⟨ch '=', by decide, by decide⟩

/-! ## C33 -/

/-- The character map of `iso_8601_to_b64`. -/
def isoChar (c : UInt8) : UInt8 := if c = ch ':' then ch 'c' else if c = ch '.' then ch 'd' else if c = ch '+' then ch 'p' else c
/-- The character map of `b64_to_iso_8601`. -/
def unIsoChar (c : UInt8) : UInt8 := if c = ch 'c' then ch ':' else if c = ch 'd' then ch '.' else if c = ch 'p' then ch '+' else c

theorem isoToB64_eq (s : Str) : Dater.isoToB64 s = s.map isoChar := by
  simp only [Dater.isoToB64, List.map_map]
  apply List.map_congr_left
  intro c _
  simp only [Function.comp, isoChar]
  by_cases h1 : c = ch ':'
  · subst h1; decide
  · by_cases h2 : c = ch '.'
    · subst h2; decide
    · simp [h1, h2]

theorem b64ToIso_eq (s : Str) : Dater.b64ToIso s = s.map unIsoChar := by
  simp only [Dater.b64ToIso, List.map_map]
  apply List.map_congr_left
  intro c _
  simp only [Function.comp, unIsoChar]
  by_cases h1 : c = ch 'c'
  · subst h1; decide
  · by_cases h2 : c = ch 'd'
    · subst h2; decide
    · simp [h1, h2]

theorem isoChar_facts : ∀ c : UInt8, (isoChar c < 0x80 ↔ c < 0x80) ∧ (¬ c < 0x80 → isoChar c = c) ∧
    ((c ∈ lit ":.+" ∨ (c ∈ Spec.alphabet ∧ c ∉ lit "cdp")) → isoChar c ∈ Spec.alphabet ∧ unIsoChar (isoChar c) = c) :=
  byte_forall (P := fun c => (isoChar c < 0x80 ↔ c < 0x80) ∧ (¬ c < 0x80 → isoChar c = c) ∧
    ((c ∈ lit ":.+" ∨ (c ∈ Spec.alphabet ∧ c ∉ lit "cdp")) → isoChar c ∈ Spec.alphabet ∧ unIsoChar (isoChar c) = c)) (by decide +kernel)

theorem utf8Valid_iso (s : Str) (h : utf8Valid s = true) : utf8Valid (s.map isoChar) = true := by
  have big : ∀ c : UInt8, ¬ c < 0x80 → isoChar c = c := fun c => (isoChar_facts c).2.1
  have hcont : ∀ c : UInt8, isCont c = true → ¬ c < 0x80 := byte_forall (P := fun c => isCont c = true → ¬ c < 0x80) (by decide +kernel)
  generalize hk : s.length = k
  induction k using Nat.strongRecOn generalizing s with
  | _ k ih =>
    cases s with
    | nil => rfl
    | cons a r =>
      by_cases ha : a < 0x80
      · have ha' := (isoChar_facts a).1.mpr ha
        rw [utf8Valid.eq_def] at h ⊢
        simp only [List.map_cons, if_pos ha, if_pos ha'] at h ⊢
        exact ih _ (by simp at hk; omega) r h rfl
      · rw [List.map_cons, big a ha]
        rw [utf8Valid.eq_def] at h ⊢
        simp only [if_neg ha] at h ⊢
        have hge : ∀ {x y : UInt8}, (x ≤ y) → ¬ x < 0x80 → ¬ y < 0x80 := by
          intro x y h1 h2
          rw [UInt8.lt_iff_toNat_lt] at h2 ⊢
          rw [UInt8.le_iff_toNat_le] at h1
          omega
        by_cases h2 : (0xC2 ≤ a && a ≤ 0xDF) = true
        · rw [if_pos h2] at h ⊢
          cases r with
          | nil => exact h
          | cons b r =>
            simp only [Bool.and_eq_true] at h
            simp only [List.map_cons, big b (hcont b h.1), h.1, Bool.true_and]
            exact ih _ (by simp at hk; omega) r h.2 rfl
        · rw [if_neg h2] at h ⊢
          by_cases h3 : (0xE0 ≤ a && a ≤ 0xEF) = true
          · rw [if_pos h3] at h ⊢
            match r, h with
            | b :: c :: r, h =>
              simp only [Bool.and_eq_true] at h
              have hb : ¬ b < 0x80 := by
                have hb := h.1.1
                split at hb
                · simp only [Bool.and_eq_true, decide_eq_true_eq] at hb; exact hge hb.1 (by decide)
                · split at hb
                  · simp only [Bool.and_eq_true, decide_eq_true_eq] at hb; exact hge hb.1 (by decide)
                  · exact hcont b hb
              simp only [List.map_cons, big b hb, big c (hcont c h.1.2), Bool.and_eq_true]
              exact ⟨h.1, ih _ (by simp at hk; omega) r h.2 rfl⟩
          · rw [if_neg h3] at h ⊢
            by_cases h4 : (0xF0 ≤ a && a ≤ 0xF4) = true
            · rw [if_pos h4] at h ⊢
              match r, h with
              | b :: c :: d :: r, h =>
                simp only [Bool.and_eq_true] at h
                have hb : ¬ b < 0x80 := by
                  have hb := h.1.1.1
                  split at hb
                  · simp only [Bool.and_eq_true, decide_eq_true_eq] at hb; exact hge hb.1 (by decide)
                  · split at hb
                    · simp only [Bool.and_eq_true, decide_eq_true_eq] at hb; exact hge hb.1 (by decide)
                    · exact hcont b hb
                simp only [List.map_cons, big b hb, big c (hcont c h.1.1.2), big d (hcont d h.1.2), Bool.and_eq_true]
                exact ⟨h.1, ih _ (by simp at hk; omega) r h.2 rfl⟩
            · rw [if_neg h4] at h
              cases h

theorem Dater.ofDts_eq (E : Env) (now t : Str) : Dater.ofDts E now t =
    (do let m ← newWithQb64 (lit "1AAG" ++ t.map isoChar); if m.code = lit "1AAG" then .ok m else .err .unexpectedCode) := by
  rw [← isoToB64_eq]; rfl

/-- C33. Every 32-character date-time text builds a Dater whose `dts` is that text, also after transport; whatever follows
the 32 characters is dropped silently. The clock is not consulted. -/
theorem C33_date_roundtrip (E : Env) (now : Str) {t : Str} (ht : Spec.IsDateTimeText t) (hl : t.length = 32) :
    ∃ x q b, Dater.ofDts E now t = .ok x ∧ x.code = lit "1AAG" ∧ x.raw.length = 24 ∧ Dater.dts E x = .ok t ∧
      x.qb64 E = .ok q ∧ x.qb2 E = .ok b ∧ q = lit "1AAG" ++ q.drop 4 ∧
      Dater.ofText E now q = .ok x ∧ Dater.ofTextBytes E now q = .ok x ∧ Dater.ofBinary E now b = .ok x ∧
      (∀ rest, utf8Valid rest = true → Dater.ofDts E now (t ++ rest) = .ok x) := by
  have hb : ∀ c ∈ t.map isoChar, isB64 c = true := by
    intro c hc
    obtain ⟨a, ha, rfl⟩ := List.mem_map.mp hc
    exact (mem_alphabet _).mp ((isoChar_facts a).2.2 (ht a ha)).1
  obtain ⟨d, hd, hdt⟩ := exists_encD hb
  have hdl : d.length = 32 := by rw [← hl, ← List.length_map (f := isoChar) (as := t), ← hdt]; simp [encD]
  obtain ⟨v, hvl, hv⟩ := exists_sextets hd (by omega)
  rw [hdl] at hvl
  have hf : (lit "1AAG", 24) ∈ Spec.fixedCodes := by decide +kernel
  obtain ⟨z, w⟩ := fixed_wf hf hvl
  have hz : z = { hs := 4, ss := 0, fs := 36, ls := 0 } := by
    have := w.szg
    rw [show sizage (lit "1AAG") = .ok { hs := 4, ss := 0, fs := 36, ls := 0 } from rfl] at this
    injection this with this; exact this.symm
  have htext : text { code := lit "1AAG", size := 0, raw := v } z = lit "1AAG" ++ t.map isoChar := by
    rw [text_split w.szg, hz]
    simp only [digitsB]
    rw [← hdt, ← hv]
    rfl
  obtain ⟨q, b, q1, q2, q3, q4, q5⟩ := w.transport E
  have hq : q = lit "1AAG" ++ t.map isoChar := by
    have := w.infil E
    rw [Matter.qb64, this] at q1
    injection q1 with q1
    rw [← q1, htext]
  refine ⟨_, q, b, ?_, rfl, hvl, ?_, q1, q2, ?_, ?_, ?_, ?_, ?_⟩
  · rw [Dater.ofDts_eq, ← hq, q3]; simp
  · simp only [Dater.dts]
    rw [show sizage (lit "1AAG") = .ok { hs := 4, ss := 0, fs := 36, ls := 0 } from rfl, q1]
    simp only [Res.ok_bind]
    have hA : Ascii q := by
      rw [hq, ← htext]; exact w.text_ascii
    rw [sliceStr_ascii_to_end hA (by rw [hq]; simp [show (lit "1AAG").length = 4 from rfl])]
    simp only [Res.ok_bind]
    rw [hq, List.drop_left' (by rfl), b64ToIso_eq, List.map_map]
    congr 1
    conv => rhs; rw [← List.map_id t]
    apply List.map_congr_left
    intro c hc
    exact ((isoChar_facts c).2.2 (ht c hc)).2
  · conv => lhs; rw [hq]
    rw [hq, List.drop_left' (by rfl)]
  · show (do let m ← newWithQb64 q; if m.code = lit "1AAG" then .ok m else .err .unexpectedCode) = _
    rw [q3]; simp
  · show (do let m ← newWithQb64b q; if m.code = lit "1AAG" then .ok m else .err .unexpectedCode) = _
    rw [q4]; simp
  · show (do let m ← newWithQb2 E b; if m.code = lit "1AAG" then .ok m else .err .unexpectedCode) = _
    rw [q5]; simp
  · intro rest hrest
    rw [Dater.ofDts_eq, List.map_append, ← List.append_assoc, ← htext, newWithQb64, w.exfil (utf8Valid_iso rest hrest)]
    simp

/-- C33. Shorter text (in bytes) is refused as a shortage, whatever it contains. -/
theorem C33_date_short (E : Env) (now : Str) {t : Str} (hv : utf8Valid t = true) (hl : t.length < 32) :
    Dater.ofDts E now t = .err .shortage := by
  have hv' := utf8Valid_iso t hv
  rw [Dater.ofDts_eq]
  have key : newWithQb64 (lit "1AAG" ++ t.map isoChar) = .err .shortage := by
    have hA : Ascii (lit "1AAG") := by intro c hc; revert c; decide +kernel
    have h1 : sliceStr (lit "1AAG" ++ t.map isoChar) 0 4 = .ok (lit "1AAG") := by
      rw [sliceStr_prefix hA hv' (by omega) (by decide)]; rfl
    have h2 : (lit "1AAG" ++ t.map isoChar).length < 36 := by
      simp [show (lit "1AAG").length = 4 from rfl]; omega
    have h3 : ¬ (lit "1AAG" ++ t.map isoChar).length < 4 := by simp [show (lit "1AAG").length = 4 from rfl]
    have hcons : lit "1AAG" ++ t.map isoChar = ch '1' :: (lit "AAG" ++ t.map isoChar) := rfl
    rw [newWithQb64, Matter.exfil.eq_def]
    generalize hs : lit "1AAG" ++ t.map isoChar = s at *
    cases s with
    | nil => cases hcons
    | cons c r =>
      injection hcons with hc _
      subst hc
      dsimp only
      rw [show hardage (ch '1') = .ok 4 from rfl]
      simp only [Res.ok_bind, if_neg h3, h1]
      rw [show sizage (lit "1AAG") = .ok { hs := 4, ss := 0, fs := 36, ls := 0 } from rfl]
      simp only [Res.ok_bind]
      rw [if_neg (show ¬ (36 : Nat) = u32Max by decide)]
      simp only [Res.ok_bind]
      rw [if_pos h2]
  rw [key]; rfl

/-- The textual date-times of RFC 3339 with microseconds and an offset are covered. -/
example : Spec.IsDateTimeText (lit "2020-08-22T17:50:09.988921+00:00") ∧ (lit "2020-08-22T17:50:09.988921+00:00").length = 32 := by
  unfold Spec.IsDateTimeText; decide +kernel
example : (do let x ← Dater.ofDts Env.debug [] (lit "2020-08-22T17:50:09.988921+00:00"); Matter.qb64 Env.debug x) =
    .ok (lit "1AAG2020-08-22T17c50c09d988921p00c00") := by decide +kernel

end Cesride
