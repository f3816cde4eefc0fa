import Verif.Lemmas.Matter3

/-! # Matter: panics and truncation -/

namespace Cesride

theorem slice_panic {α : Type} {s : List α} {a b : Nat} (h : slice s a b = .panic) : ¬ (a ≤ b ∧ b ≤ s.length) := by
  unfold slice at h
  split at h
  · cases h
  · assumption

theorem ascii_take {s : Str} (h : Ascii s) (k : Nat) : Ascii (s.take k) :=
  fun c hc => h c (List.mem_of_mem_take hc)

theorem ascii_drop {s : Str} (h : Ascii s) (k : Nat) : Ascii (s.drop k) :=
  fun c hc => h c (List.mem_of_mem_drop hc)

namespace Matter

/-- Text that asks for lead bytes but announces no quadlets. -/
def ZeroLead (s : Str) : Prop :=
  ∃ z, sizage (s.take z.hs) = .ok z ∧ z.fs = u32Max ∧ 0 < z.ls ∧ z.hs + z.ss ≤ s.length ∧
    (s.take (z.hs + z.ss)).drop z.hs = List.replicate z.ss (ch 'A')

/-- Zero quadlets with lead bytes: the parser panics, whatever follows. -/
theorem exfil_zeroLead {code : Str} {z : Sizage} (hz : sizage code = .ok z) (hf : z.fs = u32Max) (hl : 0 < z.ls)
    {rest : Str} (hr : utf8Valid rest = true) :
    Matter.exfil (code ++ List.replicate z.ss (ch 'A') ++ rest) = .panic := by
  have r := row_of_sizage hz
  have hv := r.var hf
  have hcl := r.len
  obtain ⟨c, t, hc, hhard, _⟩ := r.hard
  generalize hq : code ++ List.replicate z.ss (ch 'A') = q
  have hqa : Ascii q := by
    rw [← hq]
    exact ascii_append (ascii_of_isB64 r.b64) (by intro x hx; rw [List.eq_of_mem_replicate hx]; decide)
  have hql : q.length = z.hs + z.ss := by rw [← hq]; simp [hcl]
  obtain ⟨q', hq'⟩ : ∃ q', q ++ rest = c :: q' := by rw [← hq, hc]; exact ⟨_, rfl⟩
  unfold Matter.exfil
  rw [hq']
  simp only
  rw [← hq', hhard, Res.ok_bind, if_neg (by simp; omega), sliceStr_prefix hqa hr (Nat.zero_le _) (by omega), Res.ok_bind]
  have h1 : (q.take z.hs).drop 0 = code := by rw [← hq, ← hcl]; simp
  rw [h1, hz, Res.ok_bind]
  simp only [hf, if_true]
  rw [if_neg (by omega), if_neg (by simp; omega), sliceStr_prefix hqa hr (by omega) (by omega), Res.ok_bind]
  have h2 : (q.take (z.hs + z.ss)).drop z.hs = List.replicate z.ss (ch 'A') := by
    rw [← hql, List.take_length, ← hq, ← hcl]; simp
  rw [h2, ← encD_replicate, b64ToU32_encD (by intro x hx; have := List.eq_of_mem_replicate hx; omega)
    (by simp; have := r.ss4; omega), valB_replicate_zero, Res.ok_bind, Res.ok_bind]
  simp only [Nat.zero_mul, Nat.zero_add]
  rw [if_neg (by simp; omega), sliceStr_prefix hqa hr (Nat.zero_le _) (by omega), Res.ok_bind]
  have h3 : (q.take (z.hs + z.ss)).drop 0 = q := by rw [← hql]; simp
  rw [h3, sliceStr_ascii_to_end hqa (by omega), Res.ok_bind]
  rw [if_neg (by omega)]
  have h4 : q.drop (z.hs + z.ss) = [] := by rw [← hql]; simp
  rw [h4]
  have h5 : b64Decode [] = .ok [] := rfl
  rw [h5, Res.ok_bind]
  have h6 : slice ([] : List UInt8) 0 z.ls = .panic := by
    unfold slice
    rw [if_neg (by simp; omega)]
  rw [h6, Res.panic_bind]

/-! ## Truncation -/

theorem sizage_take_head {m : Matter} {z : Sizage} (w : Wf m z) : (text m z).take z.hs = m.code := by
  have r := row_of_sizage w.szg
  rw [text_split w.szg, List.append_assoc, ← r.len]; simp

theorem Wf.exfil_truncated {m : Matter} {z : Sizage} (w : Wf m z) {k : Nat} (hk : k < total m z) :
    Matter.exfil ((text m z).take k) = .err (if k = 0 then .emptyMaterial else .shortage) := by
  have r := row_of_sizage w.szg
  have htl := w.text_length
  have hta := ascii_take w.text_ascii k
  have hts := text_split w.szg
  have hhead := sizage_take_head w
  have hcl := r.len
  obtain ⟨c, t, hc, hhard, _⟩ := r.hard
  generalize hq : (text m z).take k = q at hta ⊢
  have hql : q.length = k := by rw [← hq, List.length_take]; omega
  by_cases hk0 : k = 0
  · have : q = [] := by rw [← List.length_eq_zero_iff]; omega
    simp [this, hk0, Matter.exfil]
  · rw [if_neg hk0]
    obtain ⟨q', hq'⟩ : ∃ q', q = c :: q' := by
      cases k with
      | zero => omega
      | succ k =>
        rw [hts, hc] at hq
        simp only [List.cons_append, List.take_succ_cons] at hq
        exact ⟨_, hq.symm⟩
    unfold Matter.exfil
    rw [hq']
    simp only
    rw [← hq', hhard, Res.ok_bind]
    by_cases hkh : k < z.hs
    · rw [if_pos (by omega)]
    · rw [if_neg (by omega), sliceStr_ascii hta (Nat.zero_le _) (by omega), Res.ok_bind]
      have h1 : (q.take z.hs).drop 0 = m.code := by
        rw [← hhead, ← hq, List.take_take, Nat.min_eq_left (by omega)]; simp
      rw [h1, w.szg, Res.ok_bind]
      by_cases hf : z.fs = u32Max
      · have hv := r.var hf
        simp only [hf, if_true]
        rw [if_neg (by omega)]
        by_cases hkc : k < z.hs + z.ss
        · rw [if_pos (by omega)]; rfl
        · rw [if_neg (by omega), sliceStr_ascii hta (by omega) (by omega), Res.ok_bind]
          have h2 : (q.take (z.hs + z.ss)).drop z.hs = encD (digitsB 64 z.ss m.size) := by
            rw [← hq, List.take_take, Nat.min_eq_left (by omega), hts,
              List.take_append_of_le_length (by simp; omega), List.take_of_length_le (by simp; omega), ← hcl]
            simp
          rw [h2, b64ToU32_encD (digitsB_lt (by decide) _ _) (by simp; have := r.ss4; omega), Res.ok_bind, w.valSize]
          simp only [Res.ok_bind]
          rw [if_pos]
          rw [hql]
          simpa [total, hf] using hk
      · simp only [hf, if_false, Res.ok_bind]
        rw [if_pos]
        rw [hql]
        simpa [total, hf] using hk

theorem Wf.bexfil_truncated {m : Matter} {z : Sizage} (w : Wf m z) (E : Env) {k : Nat} (hk : k < (binary m z).length) :
    Matter.bexfil E ((binary m z).take k) = .err (if k = 0 then .emptyMaterial else .shortage) := by
  have r := row_of_sizage w.szg
  have hbl := w.binary_length
  have htl := w.text_length
  have hts := text_split w.szg
  have hhead := sizage_take_head w
  obtain ⟨h3, hps, ht, hT4, hne, hle⟩ := w.arith
  obtain ⟨c, t, hc, _, i, hi, hbar⟩ := r.hard
  have hhs1 := r.hs1
  have hhs4 := r.hs4
  have hcs := r.cs
  rw [bexfil_unfold]
  generalize hq : (binary m z).take k = q
  have hql : q.length = k := by rw [← hq, List.length_take]; omega
  by_cases hk0 : k = 0
  · have : q = [] := by rw [← List.length_eq_zero_iff]; omega
    simp [this, hk0]
  · rw [if_neg (by intro h; rw [h] at hql; simp at hql; omega), if_neg hk0]
    -- leading sextets of the truncated input
    have hsx : ∀ len, (len + 1) * 3 / 4 ≤ k → (sext q).take len = (sext (binary m z)).take len := by
      intro len hlen
      have h1 : ((sext q).take len).length = len := by rw [List.length_take, sext_length]; omega
      have h2 : ((sext (binary m z)).take len).length = len := by rw [List.length_take, sext_length]; omega
      apply valB_inj (b := 64) (fun x hx => sext_lt _ x (List.mem_of_mem_take hx))
        (fun x hx => sext_lt _ x (List.mem_of_mem_take hx)) (by omega)
      rw [valB_sext_take _ (by omega), valB_sext_take _ (by omega), ← hq, List.take_take, Nat.min_eq_left hlen]
    have hsb : ∀ len, len ≤ total m z → encD ((sext (binary m z)).take len) = (text m z).take len := by
      intro len hlen
      have := w.sext_binary [] hlen
      simpa using this
    have hfirst : (sext q).take 1 = [i] := by
      rw [hsx 1 (by omega)]
      apply encD_inj (fun x hx => sext_lt _ x (List.mem_of_mem_take hx))
      · have := (sextetVal_some hi).1
        simpa using this
      · rw [hsb 1 (by omega), hts, hc]
        simp [encD, (sextetVal_some hi).2]
    rw [hfirst]
    simp only
    rw [hbar, Res.ok_bind]
    by_cases hkh : k < (z.hs * 3 + 3) / 4
    · rw [if_pos (by omega)]
    · rw [if_neg (by omega), hsx _ (by omega), hsb _ (by omega), hhead, w.szg, Res.ok_bind, bfsel_eq w.szg]
      by_cases hf : z.fs = u32Max
      · simp only [hf, if_true]
        by_cases hkc : q.length < (z.hs + z.ss + 1) * 3 / 4
        · rw [if_pos hkc]; rfl
        · rw [if_neg hkc]
          have h2 : valB 64 (((sext q).take (z.hs + z.ss)).drop z.hs) = m.size := by
            rw [hsx _ (by omega)]
            have : ((sext (binary m z)).take (z.hs + z.ss)).drop z.hs = digitsB 64 z.ss m.size := by
              apply encD_inj (fun x hx => sext_lt _ x (List.mem_of_mem_take (List.mem_of_mem_drop hx)))
                (digitsB_lt (by decide) _ _)
              rw [encD_drop, hsb _ (by omega), hts,
                List.take_append_of_le_length (by simp; have := r.len; omega),
                List.take_of_length_le (by simp; have := r.len; omega), ← r.len]
              simp
            rw [this, w.valSize]
          rw [h2]
          simp only [Res.ok_bind]
          rw [if_pos]
          have : total m z = m.size * 4 + (z.hs + z.ss) := by simp [total, hf]
          omega
      · simp only [hf, if_false, Res.ok_bind]
        rw [if_pos]
        have : total m z = z.fs := by simp [total, hf]
        omega

/-! ## Panics of the binary parser -/

theorem exists_first {b : List UInt8} : ∃ i, (sext b).take 1 = [i] := by
  have : ((sext b).take 1).length = 1 := by rw [List.length_take, sext_length]; omega
  match h : (sext b).take 1, this with
  | [i], _ => exact ⟨i, rfl⟩

theorem bexfil_panic {E : Env} {b : List UInt8} (h : Matter.bexfil E b = .panic) :
    ∃ z, sizage (encD ((sext b).take z.hs)) = .ok z ∧ z.fs = u32Max ∧ 0 < z.ls ∧
      (z.hs + z.ss + 1) * 3 / 4 ≤ b.length ∧ ((sext b).take (z.hs + z.ss)).drop z.hs = List.replicate z.ss 0 := by
  rw [bexfil_unfold] at h
  split at h
  · cases h
  rename_i hne
  have hpos : 0 < b.length := List.length_pos_iff.mpr hne
  obtain ⟨i, hi⟩ := exists_first (b := b)
  rw [hi] at h
  simp only at h
  rw [Res.bind_eq_panic] at h
  rcases h with h | ⟨hs, hbar, h⟩
  · exact absurd h (bardage_ne_panic _)
  have hle := bardage_le hbar
  split at h
  · cases h
  rename_i hbhs
  rw [Res.bind_eq_panic] at h
  rcases h with h | ⟨z, hz, h⟩
  · exact absurd h (sizage_ne_panic _)
  have r := row_of_sizage hz
  have hhs : hs = z.hs := by
    have := r.len
    rw [encD_length, List.length_take, sext_length] at this
    omega
  subst hhs
  have hpls := r.pls
  rw [bfsel_eq hz] at h
  by_cases hf : z.fs = u32Max
  · have hv := r.var hf
    simp only [hf, if_true] at h
    by_cases hl : b.length < (z.hs + z.ss + 1) * 3 / 4
    · rw [if_pos hl] at h; cases h
    · rw [if_neg hl, Res.ok_bind] at h
      simp only at h
      split at h
      · cases h
      rename_i hbf
      rw [if_neg (by omega)] at h
      split at h
      · split at h <;> cases h
      rw [Res.bind_eq_panic] at h
      rcases h with h | ⟨_, _, h⟩
      · have := slice_panic h
        rw [List.length_take, Nat.min_eq_left (by omega)] at this
        have hs0 : valB 64 (((sext b).take (z.hs + z.ss)).drop z.hs) = 0 := by omega
        refine ⟨z, hz, hf, by omega, by omega, ?_⟩
        apply valB_inj (b := 64) (fun x hx => sext_lt _ x (List.mem_of_mem_take (List.mem_of_mem_drop hx)))
        · intro x hx; have := List.eq_of_mem_replicate hx; omega
        · rw [List.length_drop, List.length_take, sext_length]; simp; omega
        · rw [hs0, valB_replicate_zero]
      · cases h
  · exfalso
    obtain ⟨a, b', c, d, e, f⟩ := r.fix hf
    have hcs := r.cs
    simp only [hf, if_false, Res.ok_bind] at h
    split at h
    · cases h
    rename_i hbf
    have htl : (b.take ((z.fs + 1) * 3 / 4)).length = (z.fs + 1) * 3 / 4 := by rw [List.length_take]; omega
    have hfits : (z.hs + z.ss + 1) * 3 / 4 + z.ls ≤ (z.fs + 1) * 3 / 4 := by
      rw [a]; omega
    have hsl : slice (b.take ((z.fs + 1) * 3 / 4)) ((z.hs + z.ss + 1) * 3 / 4 + z.ls) (b.take ((z.fs + 1) * 3 / 4)).length
        = .ok ((b.take ((z.fs + 1) * 3 / 4)).drop ((z.hs + z.ss + 1) * 3 / 4 + z.ls)) :=
      slice_to_end (by omega)
    rw [hsl] at h
    split at h
    · split at h
      · rename_i hnone
        have := List.getElem?_eq_none_iff.mp hnone
        omega
      · split at h <;> cases h
    · split at h
      · split at h <;> cases h
      · cases h

end Matter
end Cesride
