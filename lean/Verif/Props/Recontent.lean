import Verif.Spec.Shown
import Verif.Props.Texts
import Verif.Props.Typed
import Verif.Props.Short
import Verif.Lemmas.KernelRfl

/-! # C86: the content of an object determines the object -/

namespace Cesride
open Matter Spec

theorem b64Encode_isB64 {l : List UInt8} (h : l.length % 3 = 0) : IsB64Text (b64Encode l) := by
  rw [isB64Text_iff, b64Encode_eq h]
  exact encD_isB64 (sextets_lt _)

/-- One zero byte in front: the first two characters. -/
theorem enc_lead1 (a b : UInt8) (rest : List UInt8) :
    b64Encode (0 :: a % 16 :: b :: rest) = ch 'A' :: ch 'A' :: (b64Encode (0 :: a :: b :: rest)).drop 2 := by
  have ha := a.toNat_lt
  have hb := b.toNat_lt
  have h16 : (a % 16).toNat = a.toNat % 16 := rfl
  have h0 : (0 : UInt8).toNat = 0 := rfl
  have hA : sextetChar 0 = ch 'A' := by decide
  simp only [b64Encode, h16, h0, List.drop_succ_cons, List.drop_zero]
  rw [show (0 * 65536 + a.toNat % 16 * 256 + b.toNat) / 262144 % 64 = 0 by omega, show (0 * 65536 + a.toNat % 16 * 256 + b.toNat) / 4096 % 64 = 0 by omega,
    show (0 * 65536 + a.toNat % 16 * 256 + b.toNat) / 64 % 64 = (0 * 65536 + a.toNat * 256 + b.toNat) / 64 % 64 by omega,
    show (0 * 65536 + a.toNat % 16 * 256 + b.toNat) % 64 = (0 * 65536 + a.toNat * 256 + b.toNat) % 64 by omega, hA]

/-- Two zero bytes in front: the first three characters. -/
theorem enc_lead2 (a : UInt8) (rest : List UInt8) :
    b64Encode (0 :: 0 :: a % 64 :: rest) = ch 'A' :: ch 'A' :: ch 'A' :: (b64Encode (0 :: 0 :: a :: rest)).drop 3 := by
  have ha := a.toNat_lt
  have h16 : (a % 64).toNat = a.toNat % 64 := rfl
  have h0 : (0 : UInt8).toNat = 0 := rfl
  have hA : sextetChar 0 = ch 'A' := by decide
  simp only [b64Encode, h16, h0, List.drop_succ_cons, List.drop_zero]
  rw [show (0 * 65536 + 0 * 256 + a.toNat % 64) / 262144 % 64 = 0 by omega, show (0 * 65536 + 0 * 256 + a.toNat % 64) / 4096 % 64 = 0 by omega,
    show (0 * 65536 + 0 * 256 + a.toNat % 64) / 64 % 64 = 0 by omega,
    show (0 * 65536 + 0 * 256 + a.toNat % 64) % 64 = (0 * 65536 + 0 * 256 + a.toNat) % 64 by omega, hA]

theorem enc_length {l : List UInt8} (h : l.length % 3 = 0) : (b64Encode l).length = l.length / 3 * 4 := by
  rw [b64Encode_eq h, encD_length, sextets_length]

theorem shown_length (raw : List UInt8) : (shown raw).length = raw.length := by
  cases raw <;> rfl

theorem b64Encode_inj {a b : List UInt8} (ha : a.length % 3 = 0) (hb : b.length % 3 = 0) (h : b64Encode a = b64Encode b) : a = b := by
  rw [b64Encode_eq ha, b64Encode_eq hb] at h
  have h1 := b64Decode_encD_sextets ha
  rw [h, b64Decode_encD_sextets hb] at h1
  exact (Res.ok.inj h1).symm

/-- The text of a Bexter, and what it is read as. -/
theorem bext_rawify {m : Matter} {z : Sizage} (hz : sizage m.code = .ok z) (hls : z.ls ≤ 2) (h3 : (m.raw.length + z.ls) % 3 = 0) :
    ∃ t, Bexter.bext m = .ok t ∧ IsB64Text t ∧ Bexter.rawify t = .ok (shown m.raw) := by
  have hl : (List.replicate z.ls (0 : UInt8) ++ m.raw).length % 3 = 0 := by simp; omega
  have hT := b64Encode_isB64 hl
  have hlen := enc_length hl
  have hA := ascii_of_isB64 ((isB64Text_iff _).mp hT)
  have sub : ∀ k, IsB64Text ((b64Encode (List.replicate z.ls 0 ++ m.raw)).drop k) := fun k => by
    rw [isB64Text_iff] at hT ⊢
    exact fun c hc => hT c (List.mem_of_mem_drop hc)
  have fin : ∀ k t, t = (b64Encode (List.replicate z.ls 0 ++ m.raw)).drop k → k ≤ (b64Encode (List.replicate z.ls 0 ++ m.raw)).length →
      b64Encode (List.replicate z.ls 0 ++ shown m.raw) = List.replicate k (ch 'A') ++ t → k ≤ 3 → (z.ls = 0 → k ≤ 1) → (z.ls ≠ 0 → k = z.ls + 1) →
      sliceStr (b64Encode (List.replicate z.ls 0 ++ m.raw)) k (b64Encode (List.replicate z.ls 0 ++ m.raw)).length = .ok t ∧ IsB64Text t ∧
        Bexter.rawify t = .ok (shown m.raw) := by
    rintro k t ht hk henc hk3 h0 h1
    refine ⟨by rw [sliceStr_ascii_to_end hA hk, ht], by rw [ht]; exact sub k, ?_⟩
    obtain ⟨raw, ls, ws, hr, hls', hrl, hcase, henc'⟩ := rawify_spec (t := t) (by rw [ht]; exact sub k)
    have htl : t.length = (b64Encode (List.replicate z.ls 0 ++ m.raw)).length - k := by rw [ht, List.length_drop]
    have hll : (List.replicate z.ls (0 : UInt8) ++ m.raw).length = z.ls + m.raw.length := by simp
    rw [hlen, hll] at htl hk
    have hkw : k = ws ∧ z.ls = ls := by omega
    obtain ⟨rfl, rfl⟩ := hkw
    rw [← henc'] at henc
    have := b64Encode_inj (by simp [shown_length]; omega) (by simp; omega) henc
    rw [hr, List.append_cancel_left this]
  simp only [Bexter.bext, hz, Res.ok_bind]
  generalize hraw : m.raw = raw at *
  generalize z.ls = ls at *
  rcases ls with _ | _ | _ | ls
  · have hsh : shown raw = raw := by
      cases raw with
      | nil => rfl
      | cons a r =>
        simp only [List.length_cons] at h3
        rw [shown, if_neg (by omega), if_neg (by omega)]
    simp only [if_true]
    split
    · rename_i hh
      refine ⟨_, fin 1 _ rfl ?_ ?_ (by omega) (by omega) (by omega)⟩
      · cases hb : b64Encode (List.replicate 0 0 ++ raw) with
        | nil => rw [hb] at hh; cases hh
        | cons a t => simp
      · rw [hsh]
        cases hb : b64Encode (List.replicate 0 0 ++ raw) with
        | nil => rw [hb] at hh; cases hh
        | cons a t =>
          rw [hb] at hh
          simp only [List.head?_cons, Option.some.injEq] at hh
          subst hh
          rfl
    · exact ⟨_, fin 0 _ rfl (by omega) (by rw [hsh]; rfl) (by omega) (by omega) (by omega)⟩
  · rw [if_neg (by decide)]
    obtain ⟨a, b, r, rfl⟩ : ∃ a b r, raw = a :: b :: r := by
      match raw, h3 with
      | a :: b :: r, _ => exact ⟨a, b, r, rfl⟩
      | [_], h3 => simp at h3
      | [], h3 => simp at h3
    refine ⟨_, fin 2 _ rfl ?_ ?_ (by omega) (by omega) (by omega)⟩
    · rw [hlen]; simp; omega
    · rw [shown, if_pos (by simp only [List.length_cons] at h3 ⊢; omega)]
      exact enc_lead1 a b r
  · rw [if_neg (by decide)]
    obtain ⟨a, r, rfl⟩ : ∃ a r, raw = a :: r := by
      match raw, h3 with
      | a :: r, _ => exact ⟨a, r, rfl⟩
      | [], h3 => simp at h3
    refine ⟨_, fin 3 _ rfl ?_ ?_ (by omega) (by omega) (by omega)⟩
    · rw [hlen]; simp; omega
    · rw [shown, if_neg (by simp only [List.length_cons] at h3 ⊢; omega), if_pos (by simp only [List.length_cons] at h3 ⊢; omega)]
      exact enc_lead2 a r
  · omega

theorem bextCodes_var : ∀ code ∈ bextCodes, ∃ large l z, l ≤ 2 ∧ code = varCode large l (ch 'A') ∧ sizage code = .ok z ∧ z.ls = l ∧ z.fs = u32Max ∧
    z.ss = (if large then 4 else 2) := by
  intro code h
  simp only [bextCodes, List.mem_cons, List.not_mem_nil, or_false] at h
  rcases h with rfl | rfl | rfl | rfl | rfl | rfl
  · exact ⟨false, 0, _, by decide, by decide +kernel, rfl, rfl, rfl, rfl⟩
  · exact ⟨false, 1, _, by decide, by decide +kernel, rfl, rfl, rfl, rfl⟩
  · exact ⟨false, 2, _, by decide, by decide +kernel, rfl, rfl, rfl, rfl⟩
  · exact ⟨true, 0, _, by decide, by decide +kernel, rfl, rfl, rfl, rfl⟩
  · exact ⟨true, 1, _, by decide, by decide +kernel, rfl, rfl, rfl, rfl⟩
  · exact ⟨true, 2, _, by decide, by decide +kernel, rfl, rfl, rfl, rfl⟩

/-- C86 (texts). Any Bexter that has an encoding, however constructed, has a Base64URL text; the Bexter made from that text with the same code has the same
code and size, and the raw bytes which the text shows. So it is the same Bexter exactly when the bits the text does not show are zero. -/
theorem C86_bexter (E : Env) {bext code raw qb64b qb64 qb2} {m : Matter} {q : Str} (h : Bexter.new E bext code raw qb64b qb64 qb2 = .ok m) (hq : m.qb64 E = .ok q) :
    ∃ t, Bexter.bext m = .ok t ∧ IsB64Text t ∧
      Bexter.new E (some t) (some m.code) none none none none = .ok { code := m.code, size := m.size, raw := shown m.raw } ∧
      (Bexter.new E (some t) (some m.code) none none none none = .ok m ↔ shown m.raw = m.raw) := by
  obtain ⟨_, _, _, _, _, hc⟩ := Bexter.constructed h
  obtain ⟨z, w⟩ := new_text_wf hc hq
  have hb : m.code ∈ bextCodes := by
    have hall : ∀ c, Bexter.hasCode c = true → c ∈ bextCodes := fun c hc => List.contains_iff_mem.mp hc
    unfold Bexter.new at h
    simp only [] at h
    split at h
    · cases h
    · obtain ⟨x, _, h⟩ := Res.bind_eq_ok.mp h
      split at h
      · rename_i hx
        cases h
        exact hall _ hx
      · cases h
  obtain ⟨large, l, z', hl, hcode, hz, hls, hfs, hss⟩ := bextCodes_var _ hb
  have hzz : z = z' := by have := w.szg; rw [hz] at this; exact (Res.ok.inj this).symm
  subst hzz
  obtain ⟨h1, h2⟩ := w.var hfs
  obtain ⟨t, ht1, ht2, ht3⟩ := bext_rawify hz (by omega) (by omega)
  have hsz : m.size < 64 ^ 4 ∧ (large = false → m.size < 64 ^ 2) := by
    cases large with
    | false => rw [hss] at h1; simp only [Bool.false_eq_true, if_false] at h1; exact ⟨by omega, fun _ => h1⟩
    | true => rw [hss] at h1; simp only [if_true] at h1; exact ⟨h1, by simp⟩
  have hnew : Matter.ofRaw E m.code (shown m.raw) = .ok { code := m.code, size := m.size, raw := shown m.raw } := by
    have := C11_variable_code E large hl (.inl rfl) (shown m.raw) (lead := l) (q := m.size) hl (by rw [shown_length]; omega) (by rw [shown_length]; omega)
    rw [← hcode] at this
    rw [this]
    cases large with
    | false => rw [if_pos ⟨rfl, hsz.2 rfl⟩, ← hcode]
    | true => rw [if_neg (by simp), if_pos hsz.1, ← hcode]
  have hhas : Bexter.hasCode m.code = true := by
    have : ∀ c ∈ bextCodes, Bexter.hasCode c = true := by decide +kernel
    exact this _ hb
  have hfin : Bexter.new E (some t) (some m.code) none none none none = .ok { code := m.code, size := m.size, raw := shown m.raw } := by
    show (do let x ← (if Bexter.reB64 t = false then .err .value
                      else do let raw ← Bexter.rawify t; Matter.ofRaw E m.code raw : Res Matter)
             if Bexter.hasCode x.code then .ok x else .err .unexpectedCode) = _
    rw [(reB64_iff t).mpr ht2, ht3]
    simp only [Bool.true_eq_false, if_false, Res.ok_bind]
    rw [hnew]
    simp [hhas]
  refine ⟨t, ht1, ht2, hfin, ?_⟩
  rw [hfin]
  constructor
  · intro e; exact congrArg Matter.raw (Res.ok.inj e)
  · intro e; rw [e]

/-- C86 (texts, known exception, a defect): two different Bexters with the same code have the same text. -/
theorem C86_bexter_defect (E : Env) : ∃ m y t, Bexter.new E none (some (lit "4A")) (some [0x10, 0x00]) none none none = .ok m ∧
    Bexter.new E none (some (lit "4A")) (some [0x20, 0x00]) none none none = .ok y ∧ m ≠ y ∧ Bexter.bext m = .ok t ∧ Bexter.bext y = .ok t := by
  refine ⟨⟨lit "5A", 1, [0x10, 0]⟩, ⟨lit "5A", 1, [0x20, 0]⟩, lit "AA", ?_, ?_, by decide, by decide +kernel, by decide +kernel⟩ <;>
    kernel_rfl

/-- C86 (sequence numbers). A sequence number object is determined by its number. -/
theorem C86_seqner (E : Env) {sn snh code raw qb64b qb64 qb2} {m : Matter} {q : Str} (h : Seqner.new E sn snh code raw qb64b qb64 qb2 = .ok m) (hq : m.qb64 E = .ok q) :
    ∃ n, n < 2 ^ 128 ∧ Seqner.sn m = .ok n ∧ Seqner.newWithSn E n = .ok m := by
  obtain ⟨_, _, _, _, _, hc⟩ := Seqner.constructed h
  obtain ⟨z, w⟩ := new_text_wf hc hq
  have hcode : m.code = lit "0A" := by
    unfold Seqner.new at h
    obtain ⟨_, _, h⟩ := Res.bind_eq_ok.mp h
    obtain ⟨x, _, h⟩ := Res.bind_eq_ok.mp h
    split at h
    · rename_i hx; cases h; exact hx
    · cases h
  have hz : sizage (lit "0A") = .ok ⟨2, 0, 0, 24⟩ := rfl
  have hzz : z = ⟨2, 0, 0, 24⟩ := by have := w.szg; rw [hcode, hz] at this; exact (Res.ok.inj this).symm
  subst hzz
  obtain ⟨h0, hl⟩ := w.fix (by decide)
  have hl : m.raw.length = 16 := hl
  have hlt := beNat_lt m.raw
  rw [hl] at hlt
  have hm : m = { code := lit "0A", size := 0, raw := toBe 16 (beNat m.raw) } := by
    have := toBe_beNat m.raw
    rw [hl] at this
    rw [this, ← hcode, ← h0]
  refine ⟨beNat m.raw, by omega, ?_, ?_⟩
  · rw [Seqner.sn_eq (by omega), List.take_of_length_le (by omega)]
  · have := Seqner.build E (beNat m.raw)
    rw [← hm] at this
    exact this

theorem isoChar_un : ∀ c : UInt8, isB64 c = true → isoChar (unIsoChar c) = c :=
  byte_forall (P := fun c => isB64 c = true → isoChar (unIsoChar c) = c) (by decide +kernel)

/-- C86 (date-times). A date-time object is determined by its text of 32 characters. -/
theorem C86_dater (E : Env) {now dts code raw qb64b qb64 qb2} {m : Matter} {q : Str} (h : Dater.new E now dts code raw qb64b qb64 qb2 = .ok m) (hq : m.qb64 E = .ok q) :
    ∃ t, Dater.dts E m = .ok t ∧ t.length = 32 ∧ ∀ now' code', Dater.newWithDts E now' t code' = .ok m := by
  obtain ⟨_, _, _, _, _, hc⟩ := Dater.constructed h
  obtain ⟨z, w⟩ := new_text_wf hc hq
  have hcode : m.code = lit "1AAG" := by
    unfold Dater.new at h
    obtain ⟨x, _, h⟩ := Res.bind_eq_ok.mp h
    split at h
    · rename_i hx; cases h; exact hx
    · cases h
  have hz : sizage (lit "1AAG") = .ok ⟨4, 0, 0, 36⟩ := rfl
  have hzz : z = ⟨4, 0, 0, 36⟩ := by have := w.szg; rw [hcode, hz] at this; exact (Res.ok.inj this).symm
  subst hzz
  obtain ⟨h0, hl⟩ := w.fix (by decide)
  have hl : m.raw.length = 24 := hl
  obtain ⟨q', b, q1, q2, q3, q4, q5⟩ := w.transport E
  rw [hq] at q1
  cases q1
  have htext : q = lit "1AAG" ++ encD (sextets m.raw) := by
    have := w.infil E
    rw [Matter.qb64, this] at hq
    rw [← Res.ok.inj hq, text_split w.szg, hcode]
    rfl
  have hA : Ascii q := by
    have := w.infil E
    rw [Matter.qb64, this] at hq
    rw [← Res.ok.inj hq]
    exact w.text_ascii
  refine ⟨(encD (sextets m.raw)).map unIsoChar, ?_, ?_, ?_⟩
  · unfold Dater.dts
    rw [hcode, hz, Res.ok_bind, hq, Res.ok_bind, sliceStr_ascii_to_end hA (by rw [htext]; simp [show (lit "1AAG").length = 4 from rfl]), Res.ok_bind, htext,
      List.drop_left' (by rfl), b64ToIso_eq]
  · simp [sextets_length, hl]
  · intro now' code'
    have e : Dater.newWithDts E now' ((encD (sextets m.raw)).map unIsoChar) code' = Dater.ofDts E now' ((encD (sextets m.raw)).map unIsoChar) := by
      cases code' <;> rfl
    rw [e, Dater.ofDts_eq, List.map_map]
    have hid : List.map (isoChar ∘ unIsoChar) (encD (sextets m.raw)) = encD (sextets m.raw) := by
      conv => rhs; rw [← List.map_id (encD (sextets m.raw))]
      apply List.map_congr_left
      intro c hc
      exact isoChar_un c (encD_isB64 (sextets_lt _) c hc)
    rw [hid, ← htext, q3, Res.ok_bind, if_pos hcode]

/-- C86 (numbers). The object made from the number of an object has the same number, and is the same object exactly when the smallest code was used. -/
theorem C86_number (E : Env) {num numh code raw qb64b qb64 qb2} {m : Matter} {q : Str} (h : Number.new E num numh code raw qb64b qb64 qb2 = .ok m) (hq : m.qb64 E = .ok q)
    (hn : ∃ k, (m.code, k) ∈ numberCodes) :
    ∃ n y, n < 2 ^ 128 ∧ Number.num m = .ok n ∧ Number.newWithNum E n = .ok y ∧ Number.num y = .ok n ∧
      (y = m ↔ ∀ c k, (c, k) ∈ numberCodes → n < 256 ^ k → m.raw.length ≤ k) := by
  obtain ⟨_, _, _, _, _, hc⟩ := Number.constructed h
  obtain ⟨z, w⟩ := new_text_wf hc hq
  obtain ⟨k, hk⟩ := hn
  have hl : m.size = 0 ∧ m.raw.length = k ∧ k ≤ 16 := by
    have key : ∀ e ∈ numberCodes, ∃ z, sizage e.1 = .ok z ∧ z.fs ≠ u32Max ∧ (z.fs - (z.hs + z.ss)) * 3 / 4 - z.ls = e.2 ∧ e.2 ≤ 16 := by
      intro e he
      simp only [numberCodes, List.mem_cons, List.not_mem_nil, or_false] at he
      rcases he with rfl | rfl | rfl | rfl <;> exact ⟨_, rfl, by decide, by decide, by decide⟩
    obtain ⟨z', h1, h2, h3, h4⟩ := key _ hk
    have := w.szg
    rw [h1] at this
    cases this
    obtain ⟨h0, hl⟩ := w.fix h2
    exact ⟨h0, by rw [hl, h3], h4⟩
  have hlt := beNat_lt m.raw
  have hlt2 : beNat m.raw < 2 ^ 128 := by
    refine Nat.lt_of_lt_of_le hlt ?_
    rw [hl.2.1]
    calc 256 ^ k ≤ 256 ^ 16 := Nat.pow_le_pow_right (by decide) hl.2.2
      _ = 2 ^ 128 := by decide
  obtain ⟨y, _, _, _, y1, y2, _, _, _, ⟨s, hs1, hs2, hs3, hs4⟩, _⟩ := C28_number_roundtrip E hlt2
  refine ⟨beNat m.raw, y, hlt2, ?_, y1, y2, ?_⟩
  · rw [Number.num_eq (size := k) hk, if_pos hl.2.1]
  · constructor
    · rintro rfl c k' hc hlt'
      rw [hs2]
      exact hs4 c k' hc hlt'
    · intro hmin
      have hsk : s = k := by
        have a := hs4 _ _ hk (by rw [← hl.2.1]; exact hlt)
        have b := hmin _ _ hs1 hs3
        rw [hl.2.1] at b
        omega
      subst hsk
      have hcode : y.code = m.code := by
        have key : ∀ a ∈ numberCodes, ∀ b ∈ numberCodes, a.2 = b.2 → a.1 = b.1 := by decide +kernel
        exact key _ hs1 _ hk rfl
      have hyn : beNat y.raw = beNat m.raw := by
        rw [Number.num_eq (size := s) hs1, if_pos hs2] at y2
        exact Res.ok.inj y2
      have hraw : y.raw = m.raw := by
        rw [← toBe_beNat y.raw, ← toBe_beNat m.raw, hyn, hs2, hl.2.1]
      obtain ⟨cy, sy, ry⟩ := y
      obtain ⟨cm, sm, rm⟩ := m
      dsimp only at hcode hraw hl
      subst hcode; subst hraw
      have : sy = 0 := by
        obtain ⟨code, size, h1, h2, h3, h4, h5⟩ := Number.build E hlt2
        dsimp only at h5 y1
        rw [h5] at y1
        exact (congrArg Matter.size (Res.ok.inj y1)).symm
      rw [this, hl.1]

/-- A text of five characters, made from its raw bytes, is determined by its text; one whose first byte has spare bits is not. -/
example : ∃ m t, Bexter.new Env.release none none (some [0x01, 0x23, 0x45, 0x67]) none none none = .ok m ∧ Bexter.bext m = .ok t ∧ t = lit "BI0Vn" ∧
    Bexter.new Env.release (some t) (some m.code) none none none none = .ok m := by
  refine ⟨⟨lit "6A", 2, [0x01, 0x23, 0x45, 0x67]⟩, lit "BI0Vn", ?_, ?_, rfl, ?_⟩ <;> decide +kernel
example : shown [0xF1, 0x23] = [0x01, 0x23] ∧ shown [0xF1] = [0x31] ∧ shown [0xF1, 0x23, 0x45] = [0xF1, 0x23, 0x45] := by decide

/-- A date-time object made from arbitrary raw bytes still has a text, from which it is made again. -/
example : ∃ m q, Dater.new Env.release [] none none (some (List.replicate 24 0x71)) none none none = .ok m ∧ m.qb64 Env.release = .ok q ∧
    Dater.dts Env.release m = .ok (lit ":XFx:XFx:XFx:XFx:XFx:XFx:XFx:XFx") := by
  refine ⟨⟨lit "1AAG", 0, List.replicate 24 0x71⟩, lit "1AAGcXFxcXFxcXFxcXFxcXFxcXFxcXFxcXFx", ?_, ?_, ?_⟩ <;> decide +kernel

/-- A number that was made with a larger code than necessary. -/
example : ∃ m y, Number.new Env.release none none (some (lit "0H")) (some [0, 0, 0, 7]) none none none = .ok m ∧ Number.num m = .ok 7 ∧
    Number.newWithNum Env.release 7 = .ok y ∧ Number.num y = .ok 7 ∧ y ≠ m := by
  refine ⟨⟨lit "0H", 0, [0, 0, 0, 7]⟩, ⟨lit "M", 0, [0, 7]⟩, ?_, ?_, ?_, ?_, ?_⟩ <;> decide +kernel

end Cesride
