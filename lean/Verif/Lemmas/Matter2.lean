import Verif.Lemmas.Matter

/-! # Matter: binary parsing, converses, construction -/

namespace Cesride

theorem last_byte {l : List UInt8} {b : UInt8} (h : l[l.length - 1]? = some b) : beNat l % 256 = b.toNat := by
  have hpos : 0 < l.length := by
    cases l with
    | nil => simp at h
    | cons _ _ => simp
  have e : l = l.take (l.length - 1) ++ [b] := by
    apply List.ext_getElem?
    intro i
    by_cases hi : i < l.length - 1
    · rw [List.getElem?_append_left (by simp; omega), List.getElem?_take_of_lt hi]
    · rw [List.getElem?_append_right (by simp; omega)]
      by_cases hi2 : i = l.length - 1
      · subst hi2; rw [h]; simp
      · rw [List.getElem?_eq_none (by omega), List.getElem?_eq_none (by simp; omega)]
  rw [e, beNat_append]
  have := b.toNat_lt
  simp [beNat]

namespace Matter

theorem Wf.sext_binary {m : Matter} {z : Sizage} (w : Wf m z) (rest : List UInt8) {k : Nat} (hk : k ≤ total m z) :
    encD ((sext (binary m z ++ rest)).take k) = (text m z).take k := by
  obtain ⟨h, h3⟩ := w.sextets_binary
  have hb := w.binary_length
  have h4 := w.arith.2.2.2.1
  rw [sext_append_take h3 (by omega), encD_take, h]

/-- Parsing the canonical binary of a well-formed primitive, followed by any bytes. -/
theorem Wf.bexfil {m : Matter} {z : Sizage} (w : Wf m z) (E : Env) (rest : List UInt8) :
    Matter.bexfil E (binary m z ++ rest) = .ok m := by
  obtain ⟨h3, hps, ht, hT4, hne, hle⟩ := w.arith
  have r := row_of_sizage w.szg
  have hbl := w.binary_length
  have hts := text_split w.szg
  have htl := w.text_length
  have hpls := r.pls
  have hcl := r.len
  have hhs1 := r.hs1
  have hhs4 := r.hs4
  have hcs := r.cs
  have hsext := fun k hk => w.sext_binary rest (k := k) hk
  obtain ⟨c, t, hc, _, i, hi, hbar⟩ := r.hard
  have hlen : (binary m z ++ rest).length = (binary m z).length + rest.length := by simp
  have hfirst : (sext (binary m z ++ rest)).take 1 = [i] := by
    apply encD_inj (fun x hx => sext_lt _ x (List.mem_of_mem_take hx))
    · have := (sextetVal_some hi).1
      simpa using this
    · rw [hsext 1 (by omega), hts, hc]
      simp [encD, (sextetVal_some hi).2]
  unfold Matter.bexfil
  rw [if_neg (by intro h; have := congrArg List.length h; simp at this; have := this.1; simp [this] at hbl; omega)]
  rw [nabSextets_eq _ (by omega), Res.ok_bind, hfirst]
  simp only
  rw [hbar, Res.ok_bind, if_neg (by omega), codeB2ToB64_eq E _ (by omega) (by omega), Res.ok_bind, hsext _ (by omega)]
  have hcode : (text m z).take z.hs = m.code := by
    rw [hts, List.append_assoc, ← hcl]; simp
  rw [hcode, w.szg, Res.ok_bind]
  have hsel : (if z.fs = u32Max then
            if (z.hs + z.ss) % 4 ≠ 0 then .err .parseQb2
            else if (binary m z ++ rest).length < (z.hs + z.ss + 1) * 3 / 4 then .err .shortage
            else do
              let both ← codeB2ToB64 E (binary m z ++ rest) (z.hs + z.ss)
              let soft ← sliceStr both z.hs (z.hs + z.ss)
              let size ← b64ToU32 soft
              .ok (size * 4 + (z.hs + z.ss), size)
          else .ok (z.fs, 0) : Res (Nat × Nat)) = .ok (total m z, m.size) := by
    unfold total
    split
    · rename_i hf
      have hv := r.var hf
      rw [if_neg (by omega), if_neg (by omega), codeB2ToB64_eq E _ (by omega) (by omega), Res.ok_bind,
        hsext _ (by omega)]
      have hh : (text m z).take (z.hs + z.ss) = m.code ++ encD (digitsB 64 z.ss m.size) := by
        rw [hts, List.take_append_of_le_length (by simp; omega), List.take_of_length_le (by simp; omega)]
      rw [hh, sliceStr_ascii (ascii_append (ascii_of_isB64 r.b64) (ascii_encD (digitsB_lt (by decide) _ _)))
        (by omega) (by simp; omega), Res.ok_bind]
      have : ((m.code ++ encD (digitsB 64 z.ss m.size)).take (z.hs + z.ss)).drop z.hs
          = encD (digitsB 64 z.ss m.size) := by
        rw [List.take_of_length_le (by simp; omega), ← hcl]; simp
      rw [this, b64ToU32_encD (digitsB_lt (by decide) _ _) (by simp; have := r.ss4; omega), Res.ok_bind, w.valSize]
    · rename_i hf
      rw [(w.fix hf).1]
  rw [hsel, Res.ok_bind]
  simp only
  have hbfs : (total m z + 1) * 3 / 4 = (binary m z).length := by omega
  rw [hbfs, if_neg (by omega)]
  have htrim : (binary m z ++ rest).take (binary m z).length = binary m z := by simp
  rw [htrim]
  have hhl := headD_length w.szg
  have hpl : (packD (headD m z)).length = (z.hs + z.ss + 1) * 3 / 4 := by rw [packD_length, hhl]
  have hraw : (binary m z).drop ((z.hs + z.ss + 1) * 3 / 4 + z.ls) = m.raw := by
    rw [binary, ← hpl]
    rw [List.drop_append, List.drop_of_length_le (by simp)]
    simp
  have hfin : (do
      let raw ← slice (binary m z) ((z.hs + z.ss + 1) * 3 / 4 + z.ls) (binary m z).length
      .ok { code := m.code, size := m.size, raw := raw } : Res Matter) = .ok m := by
    rw [slice_to_end (by rw [binary]; simp [hhl]), Res.ok_bind, hraw]
  split
  · rename_i hp
    have hidx : (binary m z)[(z.hs + z.ss + 1) * 3 / 4 - 1]? = (packD (headD m z))[(packD (headD m z)).length - 1]? := by
      rw [← hpl, binary, List.append_assoc, List.getElem?_append_left (by omega)]
    cases hb : (binary m z)[(z.hs + z.ss + 1) * 3 / 4 - 1]? with
    | none =>
      have := List.getElem?_eq_none_iff.mp hb
      have : (binary m z).length = (z.hs + z.ss + 1) * 3 / 4 + z.ls + m.raw.length := by simp [binary, hhl]; omega
      omega
    | some b =>
      simp only
      rw [hidx] at hb
      have hlast := last_byte hb
      rw [beNat_packD (headD_lt w.szg), hhl] at hlast
      have hmod : b.toNat % 4 ^ ((z.hs + z.ss) % 4) = 0 := by
        rw [← hlast]
        have hd : (4 : Nat) ^ ((z.hs + z.ss) % 4) ∣ 256 := by
          have : (256 : Nat) = 4 ^ 4 := by decide
          rw [this]; exact Nat.pow_dvd_pow 4 (by omega)
        rw [Nat.mod_mod_of_dvd _ hd]
        simp
      rw [Nat.pow_mul, if_neg (by simpa using hmod)]
      exact hfin
  · rename_i hp
    have hlead : ((binary m z).take ((z.hs + z.ss + 1) * 3 / 4 + z.ls)).drop ((z.hs + z.ss + 1) * 3 / 4)
        = List.replicate z.ls 0 := by
      rw [binary, List.take_append_of_le_length (by simp [hhl]), List.take_of_length_le (by simp [hhl]), ← hpl]
      simp
    rw [hlead]
    rw [if_neg (by simp)]
    exact hfin

/-! ## Converse: accepted text -/

theorem exfil_ok {s : Str} {m : Matter} (h : Matter.exfil s = .ok m) :
    ∃ z paw, sizage m.code = .ok z ∧ m.code = s.take z.hs ∧
      (z.fs = u32Max → b64ToU32 ((s.take (z.hs + z.ss)).drop z.hs) = .ok m.size) ∧
      (z.fs ≠ u32Max → m.size = 0) ∧ total m z ≤ s.length ∧
      b64DecodeOpt (List.replicate ((z.hs + z.ss) % 4) (ch 'A') ++ (s.take (total m z)).drop (z.hs + z.ss)) = some paw ∧
      ((z.hs + z.ss) % 4 ≠ 0 → beNat (paw.take ((z.hs + z.ss) % 4)) % 4 ^ ((z.hs + z.ss) % 4) = 0) ∧
      ((z.hs + z.ss) % 4 = 0 → beNat (paw.take z.ls) = 0) ∧
      (z.hs + z.ss) % 4 + z.ls ≤ paw.length ∧ m.raw = paw.drop ((z.hs + z.ss) % 4 + z.ls) := by
  unfold Matter.exfil at h
  cases s with
  | nil => simp at h
  | cons c s' =>
    simp only at h
    generalize hs : c :: s' = s at h
    rw [Res.bind_eq_ok] at h
    obtain ⟨hs', hhard, h⟩ := h
    split at h
    · cases h
    rename_i hlen
    rw [Res.bind_eq_ok] at h
    obtain ⟨hard, hslice, h⟩ := h
    rw [Res.bind_eq_ok] at h
    obtain ⟨z, hz, h⟩ := h
    obtain ⟨_, _, hhd⟩ := sliceStr_ok hslice
    have r := row_of_sizage hz
    have hhs : hs' = z.hs := by
      have := r.len
      rw [hhd] at this
      simp at this; omega
    subst hhs
    simp only [List.drop_zero] at hhd
    rw [Res.bind_eq_ok] at h
    obtain ⟨⟨fs, size⟩, hsel, h⟩ := h
    have hfs : fs = (if z.fs = u32Max then size * 4 + (z.hs + z.ss) else z.fs) ∧
        (z.fs = u32Max → b64ToU32 ((s.take (z.hs + z.ss)).drop z.hs) = .ok size) ∧
        (z.fs ≠ u32Max → size = 0) := by
      split at hsel
      · rename_i hf
        split at hsel
        · cases hsel
        split at hsel
        · cases hsel
        rw [Res.bind_eq_ok] at hsel
        obtain ⟨soft, hsoft, hsel⟩ := hsel
        rw [Res.bind_eq_ok] at hsel
        obtain ⟨sz, hsz, hsel⟩ := hsel
        obtain ⟨_, _, rfl⟩ := sliceStr_ok hsoft
        cases hsel
        refine ⟨by simp [hf], fun _ => hsz, fun h => absurd hf h⟩
      · rename_i hf
        cases hsel
        exact ⟨by simp [hf], fun h => absurd h hf, fun _ => rfl⟩
    obtain ⟨hfs1, hfs2, hfs3⟩ := hfs
    simp only at h
    split at h
    · cases h
    rename_i hfl
    rw [Res.bind_eq_ok] at h
    obtain ⟨trim, htrim, h⟩ := h
    obtain ⟨_, _, htrim⟩ := sliceStr_ok htrim
    simp only [List.drop_zero] at htrim
    rw [Res.bind_eq_ok] at h
    obtain ⟨mat, hmat, h⟩ := h
    obtain ⟨_, _, hmat⟩ := sliceStr_ok hmat
    rw [List.take_length] at hmat
    split at h
    · rename_i hp
      rw [Res.bind_eq_ok] at h
      obtain ⟨paw, hpaw, h⟩ := h
      rw [Res.bind_eq_ok] at h
      obtain ⟨pad, hpad, h⟩ := h
      obtain ⟨_, hpl, hpad⟩ := slice_ok hpad
      simp only [List.drop_zero] at hpad
      split at h
      · cases h
      rename_i hzero
      rw [Res.bind_eq_ok] at h
      obtain ⟨raw, hraw, h⟩ := h
      obtain ⟨_, _, hraw⟩ := slice_ok hraw
      cases h
      have hl0 : z.ls = 0 := by
        rcases r.pOrL with h | h
        · exact absurd h hp
        · exact h
      refine ⟨z, paw, hz, hhd, hfs2, hfs3, ?_, ?_, ?_, ?_, ?_, ?_⟩
      · show (if z.fs = u32Max then size * 4 + (z.hs + z.ss) else z.fs) ≤ s.length
        rw [← hfs1]; omega
      · show b64DecodeOpt (_ ++ (s.take (if z.fs = u32Max then size * 4 + (z.hs + z.ss) else z.fs)).drop _) = _
        rw [← hfs1, ← htrim, ← hmat]
        exact b64Decode_ok hpaw
      · intro _
        rw [← hpad]
        rw [Nat.pow_mul] at hzero
        simpa using hzero
      · intro h0; exact absurd h0 hp
      · omega
      · rw [hl0]
        simp only [hraw, List.take_length, Nat.add_zero]
    · rename_i hp
      have hp : (z.hs + z.ss) % 4 = 0 := by omega
      rw [Res.bind_eq_ok] at h
      obtain ⟨paw, hpaw, h⟩ := h
      rw [Res.bind_eq_ok] at h
      obtain ⟨lead, hlead, h⟩ := h
      obtain ⟨_, hll, hlead⟩ := slice_ok hlead
      simp only [List.drop_zero] at hlead
      split at h
      · split at h <;> cases h
      rename_i hzero
      rw [Res.bind_eq_ok] at h
      obtain ⟨raw, hraw, h⟩ := h
      obtain ⟨_, _, hraw⟩ := slice_ok hraw
      cases h
      refine ⟨z, paw, hz, hhd, hfs2, hfs3, ?_, ?_, ?_, ?_, ?_, ?_⟩
      · show (if z.fs = u32Max then size * 4 + (z.hs + z.ss) else z.fs) ≤ s.length
        rw [← hfs1]; omega
      · show b64DecodeOpt (_ ++ (s.take (if z.fs = u32Max then size * 4 + (z.hs + z.ss) else z.fs)).drop _) = _
        rw [← hfs1, ← htrim, ← hmat, hp]
        exact b64Decode_ok hpaw
      · intro h0; exact absurd hp h0
      · intro _; rw [← hlead]; omega
      · omega
      · rw [hp]
        simp only [hraw, List.take_length, Nat.zero_add]

theorem beNat_zero_replicate {l : List UInt8} (h : beNat l = 0) : l = List.replicate l.length 0 := by
  apply beNat_inj (by simp)
  rw [h, beNat_replicate]

/-- Accepted text without pad characters is canonical. -/
theorem exfil_canonical {s : Str} {m : Matter} (h : Matter.exfil s = .ok m) :
    ∃ z, sizage m.code = .ok z ∧ total m z ≤ s.length ∧
      ((∀ c ∈ s.take (total m z), c ≠ ch '=') → Wf m z ∧ s.take (total m z) = text m z) := by
  obtain ⟨z, paw, hz, hcode, hvar, hfix, hT, hdec, hpz, hlz, hpl, hraw⟩ := exfil_ok h
  refine ⟨z, hz, hT, ?_⟩
  intro hnp
  have r := row_of_sizage hz
  have hpls := r.pls
  have hnp2 : ∀ c ∈ List.replicate ((z.hs + z.ss) % 4) (ch 'A') ++ (s.take (total m z)).drop (z.hs + z.ss), c ≠ ch '=' := by
    intro c hc
    rcases List.mem_append.mp hc with hc | hc
    · rw [List.eq_of_mem_replicate hc]; decide
    · exact hnp c (List.mem_of_mem_drop hc)
  obtain ⟨hp3, henc⟩ := decode_some_nopad hnp2 hdec
  -- the size field
  have hsize : m.size < 64 ^ z.ss ∧ (z.hs + z.ss ≤ total m z) ∧
      (s.take (z.hs + z.ss)) = m.code ++ encD (digitsB 64 z.ss m.size) := by
    by_cases hf : z.fs = u32Max
    · have hv := r.var hf
      have hb := hvar hf
      have hTe : total m z = m.size * 4 + (z.hs + z.ss) := by simp [total, hf]
      have hlen : ((s.take (z.hs + z.ss)).drop z.hs).length = z.ss := by simp; omega
      obtain ⟨d, hd, he⟩ := exists_encD (b64ToUint_ok_isB64 hb)
      have hdl : d.length = z.ss := by rw [← hlen, ← he]; simp
      rw [← he, b64ToU32_encD hd (by have := r.ss4; omega)] at hb
      have hb : valB 64 d = m.size := by injection hb
      have hlt := valB_lt hd
      rw [hdl] at hlt
      refine ⟨by omega, by omega, ?_⟩
      have hdd := digitsB_valB hd
      rw [hdl] at hdd
      rw [← hb, hdd, he, hcode]
      have e := (List.take_append_drop z.hs (s.take (z.hs + z.ss))).symm
      rw [List.take_take, Nat.min_eq_left (by omega)] at e
      exact e
    · obtain ⟨a, b, c, _⟩ := r.fix hf
      have hTe : total m z = z.fs := by simp [total, hf]
      rw [hfix hf, a]
      refine ⟨by simp, by omega, by simp [digitsB, hcode]⟩
  obtain ⟨hsz, hcsT, hhead⟩ := hsize
  -- lengths
  have hlen := congrArg List.length henc
  rw [encD_length, sextets_length] at hlen
  simp only [List.length_append, List.length_replicate, List.length_drop, List.length_take,
    Nat.min_eq_left hT] at hlen
  have hrl : m.raw.length = paw.length - ((z.hs + z.ss) % 4 + z.ls) := by rw [hraw]; simp
  -- the leading bytes are zero
  have hzero : paw = List.replicate ((z.hs + z.ss) % 4 + z.ls) 0 ++ m.raw := by
    have hz0 : beNat (paw.take ((z.hs + z.ss) % 4 + z.ls)) = 0 := by
      by_cases hp : (z.hs + z.ss) % 4 = 0
      · rw [hp, Nat.zero_add]; exact hlz hp
      · have hl0 : z.ls = 0 := by
          rcases r.pOrL with h | h
          · exact absurd h hp
          · exact h
        rw [hl0, Nat.add_zero]
        have hv := valB_sextets hp3
        have hd : ∃ d : List Nat, (∀ x ∈ d, x < 64) ∧ encD d = (s.take (total m z)).drop (z.hs + z.ss) := by
          apply exists_encD
          intro c hc
          have : c ∈ encD (sextets paw) := by rw [henc]; exact List.mem_append_right _ hc
          exact encD_isB64 (sextets_lt _) c this
        obtain ⟨d, hd, he⟩ := hd
        have hse : sextets paw = List.replicate ((z.hs + z.ss) % 4) 0 ++ d := by
          apply encD_inj (sextets_lt _)
          · intro x hx
            rcases List.mem_append.mp hx with hx | hx
            · have := List.eq_of_mem_replicate hx; omega
            · exact hd x hx
          · rw [henc, encD_append, encD_replicate, he]
        have hdl : d.length = total m z - (z.hs + z.ss) := by
          rw [← encD_length, he]; simp [Nat.min_eq_left hT]
        rw [hse, valB_append, valB_replicate_zero] at hv
        have hlt := valB_lt hd
        have hpz := hpz hp
        have hbt := beNat_take paw ((z.hs + z.ss) % 4)
        have : beNat (paw.take ((z.hs + z.ss) % 4)) < 4 ^ ((z.hs + z.ss) % 4) := by
          rw [hbt, Nat.div_lt_iff_lt_mul (Nat.pow_pos (by decide))]
          have : 64 ^ d.length = 4 ^ ((z.hs + z.ss) % 4) * 256 ^ (paw.length - (z.hs + z.ss) % 4) := by
            rw [show (256:Nat) = 2 ^ 8 by decide, show (64:Nat) = 2 ^ 6 by decide,
              show (4:Nat) ^ ((z.hs + z.ss) % 4) = (2 ^ 2) ^ ((z.hs + z.ss) % 4) by rfl, ← Nat.pow_mul,
              ← Nat.pow_mul, ← Nat.pow_mul, ← Nat.pow_add]
            congr 1
            omega
          omega
        rw [Nat.mod_eq_of_lt this] at hpz
        exact hpz
    have := beNat_zero_replicate hz0
    rw [List.length_take, Nat.min_eq_left hpl] at this
    rw [hraw, ← this, List.take_append_drop]
  have w : Wf m z := by
    refine ⟨hz, ?_, ?_⟩
    · intro hf
      have hv := r.var hf
      have hTe : total m z = m.size * 4 + (z.hs + z.ss) := by simp [total, hf]
      exact ⟨hsz, by omega⟩
    · intro hf
      obtain ⟨a, b, c, d, e, f⟩ := r.fix hf
      have hTe : total m z = z.fs := by simp [total, hf]
      refine ⟨hfix hf, ?_⟩
      rw [a] at hlen hrl hpls hpl ⊢
      simp only [Nat.add_zero] at hlen hrl hpls hpl ⊢
      omega
  refine ⟨w, ?_⟩
  rw [text_split hz, ← hhead]
  conv => lhs; rw [← List.take_append_drop (z.hs + z.ss) (s.take (total m z))]
  rw [List.take_take, Nat.min_eq_left hcsT]
  congr 1
  rw [hzero] at henc
  rw [encD_drop, henc]
  rw [List.drop_append_of_le_length (by simp)]
  simp

end Matter
end Cesride
