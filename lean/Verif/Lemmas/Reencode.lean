import Verif.Lemmas.Matter6

/-! # Every constructed primitive that has a text is well formed -/

namespace Cesride

/-- A decoding whose length is a multiple of three comes from a text without pad characters. -/
theorem decode_nopad_of_mod3 : ∀ {s : Str} {l : List UInt8}, b64DecodeOpt s = some l → l.length % 3 = 0 → ∀ c ∈ s, c ≠ ch '='
  | [], _, _, _ => by simp
  | [_], _, h, _ => by simp [b64DecodeOpt] at h
  | [_, _], _, h, _ => by simp [b64DecodeOpt] at h
  | [_, _, _], _, h, _ => by simp [b64DecodeOpt] at h
  | [a, b, c, d], l, h, h3 => by
    rw [decode_last] at h
    by_cases hd : d = ch '='
    · unfold decodeLastQuad at h
      rw [if_pos hd] at h
      split at h
      · split at h
        · split at h
          · cases h; simp at h3
          · cases h
        · cases h
      · split at h
        · split at h
          · cases h; simp at h3
          · cases h
        · cases h
    · rw [decodeLastQuad_of_ne hd] at h
      obtain ⟨_, he⟩ := decodeQuad_some h
      intro x hx
      rw [← he] at hx
      exact isB64_ne_pad x (encD_isB64 (sextets_lt _) x hx)
  | a :: b :: c :: d :: u :: v, l, h, h3 => by
    rw [decode_cons] at h
    split at h
    · rename_i x y hx hy
      cases h
      obtain ⟨hl, he⟩ := decodeQuad_some hx
      have ih := decode_nopad_of_mod3 hy (by simp only [List.length_append] at h3; omega)
      intro z hz
      have hz' : z ∈ [a, b, c, d] ++ (u :: v) := by simpa using hz
      rcases List.mem_append.mp hz' with hz | hz
      · rw [← he] at hz
        exact isB64_ne_pad z (encD_isB64 (sextets_lt _) z hz)
      · exact ih z hz
    · cases h

namespace Matter

/-- What the length of a raw satisfies when a text exists. -/
theorem infil_pad {E : Env} {m : Matter} {t : Str} {z : Sizage} (hz : sizage m.code = .ok z) (h : m.infil E = .ok t) :
    (m.raw.length + (z.hs + z.ss) % 4 + z.ls) % 3 = 0 := by
  have r := row_of_sizage hz
  have hls := r.ls
  unfold Matter.infil at h
  rw [hz] at h
  simp only [Res.ok_bind] at h
  split at h
  · rename_i hf
    have hv := r.var hf
    split at h
    · cases h
    rename_i h4
    split at h
    · cases h
    rename_i hs
    rw [Res.bind_eq_ok] at h
    obtain ⟨soft, hsoft, h⟩ := h
    split at h
    · cases h
    rename_i hc
    have h64 : m.size < 64 ^ z.ss := by
      have : 0 < 64 ^ z.ss := Nat.pos_of_ne_zero (by simp)
      omega
    have h24 : 64 ^ z.ss ≤ 64 ^ 4 := Nat.pow_le_pow_right (by decide) r.ss4
    rw [uintToB64_eq E h64 (by omega)] at hsoft
    injection hsoft with hsoft
    have hl : (m.code ++ soft).length = z.hs + z.ss := by
      rw [← hsoft]; simp [r.len, digitsB_length]
    rw [hl] at hc
    omega
  · rename_i hf
    have hfx := r.fix hf
    rw [Res.bind_eq_ok] at h
    obtain ⟨d, hd, h⟩ := h
    split at h
    · cases h
    rename_i hc
    have hl := r.len
    unfold Env.subU32 at hd
    split at hd
    · injection hd with hd
      have := hfx.1
      omega
    · split at hd
      · cases hd
      · injection hd with hd
        omega

/-- A parsed text that can be written again is well formed. -/
theorem exfil_wf {E : Env} {s t : Str} {m : Matter} (h : Matter.exfil s = .ok m) (ht : m.infil E = .ok t) : ∃ z, Wf m z := by
  obtain ⟨z, paw, hz, hcode, hvar, hfix, hT, hdec, hpz, hlz, hpl, hraw⟩ := exfil_ok h
  obtain ⟨y, hy, _, hw⟩ := exfil_canonical h
  have : y = z := by rw [hz] at hy; injection hy with hy; exact hy.symm
  subst this
  have hp := infil_pad hz ht
  have hl := congrArg List.length hraw
  rw [List.length_drop] at hl
  have hno := decode_nopad_of_mod3 hdec (by omega)
  have r := row_of_sizage hz
  refine ⟨y, (hw ?_).1⟩
  intro c hc
  have e := (List.take_append_drop (y.hs + y.ss) (s.take (total m y)))
  rw [← e] at hc
  rcases List.mem_append.mp hc with hc | hc
  · -- characters of the head
    rw [List.take_take] at hc
    have hc : c ∈ s.take (y.hs + y.ss) := by
      have : (s.take (min (y.hs + y.ss) (total m y))) <+: s.take (y.hs + y.ss) := by
        apply List.take_prefix_take_left
        omega
      exact this.subset hc
    have e2 := (List.take_append_drop y.hs (s.take (y.hs + y.ss)))
    rw [← e2] at hc
    rcases List.mem_append.mp hc with hc | hc
    · rw [List.take_take, Nat.min_eq_left (by omega), ← hcode] at hc
      exact isB64_ne_pad c (r.b64 c hc)
    · by_cases hf : y.fs = u32Max
      · exact isB64_ne_pad c (b64ToUint_ok_isB64 (hvar hf) c hc)
      · have := (r.fix hf).1
        rw [this, Nat.add_zero] at hc
        have hle : (s.take y.hs).length ≤ y.hs := by simp; omega
        rw [List.drop_eq_nil_of_le hle] at hc
        cases hc
  · exact hno c (List.mem_append_right _ hc)

theorem var_rows : ∀ e ∈ sizes, (e.1.head? = some (ch '4') → e.2 = ⟨2, 2, 0, u32Max⟩) ∧ (e.1.head? = some (ch '5') → e.2 = ⟨2, 2, 1, u32Max⟩) ∧
    (e.1.head? = some (ch '6') → e.2 = ⟨2, 2, 2, u32Max⟩) ∧ (e.1.head? = some (ch '7') → e.2 = ⟨4, 4, 0, u32Max⟩) ∧
    (e.1.head? = some (ch '8') → e.2 = ⟨4, 4, 1, u32Max⟩) ∧ (e.1.head? = some (ch '9') → e.2 = ⟨4, 4, 2, u32Max⟩) := by decide +kernel

theorem small_head {l : Nat} (hl : l ≤ 2) {t : Str} {z : Sizage} (hz : sizage (smallVrzDex.getD l 0 :: t) = .ok z) : z = ⟨2, 2, l, u32Max⟩ := by
  have := var_rows _ (sizage_mem hz)
  rcases l with _ | _ | _ | l
  · exact this.1 rfl
  · exact this.2.1 rfl
  · exact this.2.2.1 rfl
  · omega

theorem large_head {l : Nat} (hl : l ≤ 2) {t : Str} {z : Sizage} (hz : sizage (largeVrzDex.getD l 0 :: t) = .ok z) : z = ⟨4, 4, l, u32Max⟩ := by
  have := var_rows _ (sizage_mem hz)
  rcases l with _ | _ | _ | l
  · exact this.2.2.2.1 rfl
  · exact this.2.2.2.2.1 rfl
  · exact this.2.2.2.2.2 rfl
  · omega

/-- What is built from code and raw and has a code of the table is well formed. -/
theorem built_wf {code : Str} {raw : List UInt8} {m : Matter} {z : Sizage} (h : newWithCodeAndRaw code raw = .ok m) (hz : sizage m.code = .ok z) :
    Wf m z := by
  unfold newWithCodeAndRaw at h
  cases code with
  | nil => cases h
  | cons first rest =>
    simp only at h
    rw [Res.bind_eq_ok] at h
    obtain ⟨⟨code', size, rize⟩, hs, h⟩ := h
    simp only at h
    split at h
    · cases h
    rename_i hlen
    injection h with h
    subst h
    simp only at hz
    have hle : rize ≤ raw.length := by omega
    unfold selectCode at hs
    split at hs
    · generalize hr : raw.length % 2 ^ 32 = rz at hs
      have hl2 : (3 - rz % 3) % 3 ≤ 2 := by omega
      simp only at hs
      split at hs
      · split at hs
        · rename_i hsz
          rw [Res.bind_eq_ok] at hs
          obtain ⟨t, _, hs⟩ := hs
          cases hs
          have := small_head hl2 hz
          subst this
          refine ⟨hz, fun _ => ⟨hsz, ?_⟩, fun h => absurd rfl h⟩
          simp only [List.length_take]; omega
        · split at hs
          · rename_i hsz
            rw [Res.bind_eq_ok] at hs
            obtain ⟨t, _, hs⟩ := hs
            cases hs
            have := large_head hl2 hz
            subst this
            refine ⟨hz, fun _ => ⟨hsz, ?_⟩, fun h => absurd rfl h⟩
            simp only [List.length_take]; omega
          · cases hs
      · split at hs
        · rename_i hsz
          rw [Res.bind_eq_ok] at hs
          obtain ⟨t, _, hs⟩ := hs
          cases hs
          have := large_head hl2 hz
          subst this
          refine ⟨hz, fun _ => ⟨hsz, ?_⟩, fun h => absurd rfl h⟩
          simp only [List.length_take]; omega
        · cases hs
    · rw [Res.bind_eq_ok] at hs
      obtain ⟨rz, hrz, hs⟩ := hs
      cases hs
      unfold rawSize at hrz
      rw [hz] at hrz
      simp only [Res.ok_bind] at hrz
      split at hrz
      · cases hrz
      rename_i hf
      injection hrz with hrz
      refine ⟨hz, fun h => absurd h hf, fun _ => ⟨rfl, ?_⟩⟩
      simp only [List.length_take]; omega

/-- Every constructed primitive that has a text is well formed. -/
theorem new_text_wf {E : Env} {code : Option Str} {raw qb64b : Option (List UInt8)} {qb64 : Option Str} {qb2 : Option (List UInt8)} {m : Matter} {t : Str}
    (h : Matter.new E code raw qb64b qb64 qb2 = .ok m) (ht : m.qb64 E = .ok t) : ∃ z, Wf m z := by
  unfold Matter.new at h
  split at h
  · split at h
    · have ht' := ht
      unfold Matter.qb64 Matter.infil at ht'
      rw [Res.bind_eq_ok] at ht'
      obtain ⟨z, hz, _⟩ := ht'
      exact ⟨z, built_wf h hz⟩
    · cases h
  · split at h
    · unfold newWithQb64b at h
      rw [Res.bind_eq_ok] at h
      obtain ⟨q, _, h⟩ := h
      exact exfil_wf h ht
    · split at h
      · exact exfil_wf h ht
      · split at h
        · obtain ⟨z, w, _⟩ := bexfil_canonical h
          exact ⟨z, w⟩
        · cases h

/-- Well-formed primitives with the same text are the same. -/
theorem Wf.text_inj {E : Env} {m n : Matter} {z y : Sizage} (a : Wf m z) (b : Wf n y) (h : m.qb64 E = n.qb64 E) : m = n := by
  have h1 : m.qb64 E = .ok (text m z) := a.infil E
  have h2 : n.qb64 E = .ok (text n y) := b.infil E
  rw [h1, h2] at h
  injection h with h
  have e1 := a.exfil (rest := []) rfl
  have e2 := b.exfil (rest := []) rfl
  rw [h, e2] at e1
  injection e1 with e1
  exact e1.symm

end Matter
end Cesride
