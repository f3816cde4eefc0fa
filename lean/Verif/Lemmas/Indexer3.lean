import Verif.Lemmas.Indexer2

/-! # Indexer: binary parsing and construction -/

namespace Cesride
namespace Indexer

/-- The second half of `bexfil`: material of `b` after a head `x`. -/
def bexfilBody (x : Indexer) (z : ISizage) (b : List UInt8) : Res Indexer :=
  if b.length < (total x z + 1) * 3 / 4 then .err .shortage
  else
    let trim := b.take ((total x z + 1) * 3 / 4)
    let bcs := (z.hs + z.ss + 1) * 3 / 4
    let ps := (z.hs + z.ss) % 4
    if ps ≠ 0 then
      match trim[bcs - 1]? with
      | none => .panic
      | some v =>
        if v.toNat % 2 ^ (2 * (if ps ≠ 0 then ps else z.ls)) ≠ 0 then .err .nonZeroedPadBits
        else do
          let raw ← slice trim (bcs + z.ls) trim.length
          .ok { x with raw := raw }
    else if ((trim.take (bcs + z.ls)).drop bcs).any (fun v => v ≠ 0) then
      if z.ls = 1 then .err .nonZeroedLeadByte else .err .nonZeroedLeadBytes
    else do
      let raw ← slice trim (bcs + z.ls) trim.length
      .ok { x with raw := raw }

theorem bexfil_cases (E : Env) (b : List UInt8) :
    (∃ e, Indexer.bexfil E b = .err e) ∨
    (∃ x z, HeadOk x z ∧ Meant x.code z.os x.index x.ondex ∧ (z.hs + z.ss + 1) * 3 / 4 ≤ b.length ∧
      (sext b).take (z.hs + z.ss) = headD x z ∧ Indexer.bexfil E b = bexfilBody x z b) := by
  unfold Indexer.bexfil
  by_cases hne : b = []
  · rw [if_pos hne]; exact .inl ⟨_, rfl⟩
  rw [if_neg hne]
  have hpos : 0 < b.length := List.length_pos_iff.mpr hne
  obtain ⟨i, hi⟩ := Matter.exists_first (b := b)
  rw [nabSextets_eq _ (by omega), Res.ok_bind, hi]
  simp only
  cases hbar : bardage i with
  | err e => exact .inl ⟨e, rfl⟩
  | panic => exact absurd hbar (bardage_ne_panic _)
  | ok hs =>
  have hle := bardage_le hbar
  simp only [Res.ok_bind]
  by_cases hl1 : b.length < (hs * 3 + 3) / 4
  · rw [if_pos hl1]; exact .inl ⟨_, rfl⟩
  rw [if_neg hl1, codeB2ToB64_eq E _ (by omega) (by omega), Res.ok_bind]
  cases hz : sizage (encD ((sext b).take hs)) with
  | err e => exact .inl ⟨e, rfl⟩
  | panic => exact absurd hz (sizage_ne_panic _)
  | ok z =>
  have r := row_of_sizage hz
  have hos := r.os
  have hms3 := r.ms3
  have hos3 := r.os3
  have hcs := r.cs
  have hhs : hs = z.hs := by
    have := r.len
    rw [encD_length, List.length_take, sext_length] at this
    omega
  subst hhs
  simp only [Res.ok_bind]
  by_cases hl2 : b.length < (z.hs + z.ss + 1) * 3 / 4
  · rw [if_pos hl2]; exact .inl ⟨_, rfl⟩
  rw [if_neg hl2, codeB2ToB64_eq E _ (by omega) (by omega), Res.ok_bind]
  have hlt : ∀ d ∈ (sext b).take (z.hs + z.ss), d < 64 := fun d hd => sext_lt _ d (List.mem_of_mem_take hd)
  have hasc := ascii_encD hlt
  have hlen : (encD ((sext b).take (z.hs + z.ss))).length = z.hs + z.ss := by
    rw [encD_length, List.length_take, sext_length]; omega
  generalize hS : encD ((sext b).take (z.hs + z.ss)) = S at hasc hlen
  rw [sliceStr_ascii hasc (by omega) (by omega), Res.ok_bind]
  cases hidx : b64ToU32 ((S.take (z.hs + (z.ss - z.os))).drop z.hs) with
  | err e => exact .inl ⟨e, rfl⟩
  | panic => exact absurd hidx (b64ToU32_ne_panic _)
  | ok index =>
  have hil : ((S.take (z.hs + (z.ss - z.os))).drop z.hs).length = z.ss - z.os := by simp; omega
  obtain ⟨hi1, hi2⟩ := b64ToU32_inv (by omega) hidx
  rw [hil] at hi1 hi2
  simp only [Res.ok_bind]
  rw [sliceStr_ascii hasc (by omega) (by omega), Res.ok_bind]
  cases hon : readOndex (encD ((sext b).take z.hs)) z.os index
      ((S.take (z.hs + (z.ss - z.os + z.os))).drop (z.hs + (z.ss - z.os))) with
  | err e => exact .inl ⟨e, rfl⟩
  | panic => exact absurd hon (readOndex_ne_panic _ _ _ _)
  | ok ondex =>
  have hol : ((S.take (z.hs + (z.ss - z.os + z.os))).drop (z.hs + (z.ss - z.os))).length = z.os := by simp; omega
  obtain ⟨ho1, ho2, ho3⟩ := readOndex_ok hol hos3 hon
  simp only [Res.ok_bind]
  right
  refine ⟨{ code := encD ((sext b).take z.hs), raw := [], index := index, ondex := ondex }, z, ⟨hz, hi1, ho2⟩, ho1,
    by omega, ?_, ?_⟩
  · apply encD_inj hlt (headD_lt (by exact hz))
    rw [hS]
    have := head_of_slices (s := S) hz (by rw [← hS, encD_take, encD_take, List.take_take, Nat.min_eq_left (by omega)]) hi2 ho3 []
    rw [← this, List.take_of_length_le (by omega)]
  · have := fs_eq (x := { code := encD ((sext b).take z.hs), raw := [], index := index, ondex := ondex }) (z := z) hz .parseQb2 .validation
    simp only at this
    rw [this]; rfl

theorem bexfilBody_ne_panic {x : Indexer} {z : ISizage} {b : List UInt8} (hz : sizage x.code = .ok z)
    (hb : (z.hs + z.ss + 1) * 3 / 4 ≤ b.length) : bexfilBody x z b ≠ .panic := by
  have r := row_of_sizage hz
  have htg := total_ge hz
  have hls := r.ls1
  unfold bexfilBody
  split
  · simp
  rename_i hlen
  have htl : (b.take ((total x z + 1) * 3 / 4)).length = (total x z + 1) * 3 / 4 := by rw [List.length_take]; omega
  have hroom : (z.hs + z.ss + 1) * 3 / 4 + z.ls ≤ (total x z + 1) * 3 / 4 := by
    unfold total
    split
    · rename_i hf; have := r.var hf; omega
    · rename_i hf; have := r.fix hf; omega
  simp only
  split
  · have hs1 := r.hs1
    split
    · rename_i hn
      have := List.getElem?_eq_none_iff.mp hn
      omega
    · split
      · simp
      · rw [slice_to_end (by omega)]; simp
  · split
    · split <;> simp
    · rw [slice_to_end (by omega)]; simp

theorem bexfil_ne_panic (E : Env) (b : List UInt8) : Indexer.bexfil E b ≠ .panic := by
  rcases bexfil_cases E b with ⟨e, he⟩ | ⟨x, z, hw, _, hb, _, he⟩
  · rw [he]; simp
  · rw [he]; exact bexfilBody_ne_panic hw.szg hb

/-- Parsing bytes that start with a well-formed head. -/
theorem bexfil_head {E : Env} {x : Indexer} {z : ISizage} (w : HeadOk x z) (c : Meant x.code z.os x.index x.ondex)
    {b : List UInt8} (hl : (z.hs + z.ss + 1) * 3 / 4 ≤ b.length) (hh : (sext b).take (z.hs + z.ss) = headD x z) :
    Indexer.bexfil E b = bexfilBody x z b := by
  have r := row_of_sizage w.szg
  have hos := r.os
  have hcs := r.cs
  have hs1 := r.hs1
  obtain ⟨t1, t2, t3⟩ := head_slices w.szg
  have hhl := headD_length w.szg
  have hta := ascii_encD (headD_lt w.szg)
  obtain ⟨c0, t, hc, _, i, hi, hbar⟩ := r.hard
  have hk : ∀ k ≤ z.hs + z.ss, (sext b).take k = (headD x z).take k := by
    intro k hk
    rw [← hh, List.take_take, Nat.min_eq_left hk]
  have hfirst : (sext b).take 1 = [i] := by
    rw [hk 1 (by omega)]
    apply encD_inj (fun d hd => headD_lt w.szg d (List.mem_of_mem_take hd))
    · have := (sextetVal_some hi).1
      simpa using this
    · rw [encD_take, encD_headD w.szg, hc]
      simp [encD, (sextetVal_some hi).2]
  unfold Indexer.bexfil
  rw [if_neg (by intro h; rw [h] at hl; simp at hl; omega)]
  rw [nabSextets_eq _ (by omega), Res.ok_bind, hfirst]
  simp only
  rw [hbar, Res.ok_bind, if_neg (by omega), codeB2ToB64_eq E _ (by omega) (by omega), Res.ok_bind, hk _ (by omega),
    encD_take, t1, w.szg, Res.ok_bind, if_neg (by omega), codeB2ToB64_eq E _ (by omega) (by omega), Res.ok_bind, hh]
  rw [sliceStr_ascii hta (by omega) (by simp; omega), Res.ok_bind, t2]
  rw [b64ToU32_encD (digitsB_lt (by decide) _ _) (by simp; have := r.ms3; omega), Res.ok_bind, valB_digitsB,
      Nat.mod_eq_of_lt w.index]
  rw [sliceStr_ascii hta (by omega) (by simp; omega), Res.ok_bind, t3, readOndex_digits w c, Res.ok_bind]
  rw [fs_eq w.szg, Res.ok_bind]
  rfl

theorem Wf.bfs {x : Indexer} {z : ISizage} (w : Wf x z) : (total x z + 1) * 3 / 4 = (binary x z).length := by
  have := w.binary_length
  have := w.arith.2.2.2.1
  omega

/-- Parsing the canonical binary of a well-formed primitive, followed by any bytes. -/
theorem Wf.bexfil {x : Indexer} {z : ISizage} (w : Wf x z) (c : Meant x.code z.os x.index x.ondex) (E : Env)
    (rest : List UInt8) : Indexer.bexfil E (binary x z ++ rest) = .ok x := by
  have hhl := headD_length w.szg
  have hpl : (packD (headD x z)).length = (z.hs + z.ss + 1) * 3 / 4 := by rw [packD_length, hhl]
  have hbl : (binary x z).length = (z.hs + z.ss + 1) * 3 / 4 + x.raw.length := by simp [binary, hhl]
  have hsx : (sext (binary x z ++ rest)).take (z.hs + z.ss) = headD x z := by
    have := sext_packD (headD_lt w.szg) (x.raw ++ rest)
    rw [hhl] at this
    rw [binary]; simpa using this
  rw [bexfil_head w.toHeadOk c (by simp [hbl]; omega) hsx]
  unfold bexfilBody
  rw [w.bfs, if_neg (by simp)]
  have htrim : (binary x z ++ rest).take (binary x z).length = binary x z := by simp
  rw [htrim, w.ls]
  simp only
  have hraw : (binary x z).drop ((z.hs + z.ss + 1) * 3 / 4 + 0) = x.raw := by
    rw [binary, ← hpl]; simp
  have hfin : (do
      let raw ← slice (binary x z) ((z.hs + z.ss + 1) * 3 / 4 + 0) (binary x z).length
      .ok { x with raw := raw } : Res Indexer) = .ok x := by
    rw [slice_to_end (by omega), Res.ok_bind, hraw]
  have hs1 := (row_of_sizage w.szg).hs1
  split
  · rename_i hp
    have hidx : (binary x z)[(z.hs + z.ss + 1) * 3 / 4 - 1]? = (packD (headD x z))[(z.hs + z.ss + 1) * 3 / 4 - 1]? := by
      rw [binary, List.append_assoc, List.getElem?_append_left (by omega)]
    cases hb : (binary x z)[(z.hs + z.ss + 1) * 3 / 4 - 1]? with
    | none =>
      have := List.getElem?_eq_none_iff.mp hb
      omega
    | some v =>
      simp only
      rw [hidx] at hb
      have hmod := packD_last (headD_lt w.szg) (by rw [hhl]) hb
      rw [hhl] at hmod
      rw [Nat.pow_mul, if_neg (by simpa [hp] using hmod)]
      exact hfin
  · rename_i hp
    rw [if_neg (by simp)]
    exact hfin

/-- Accepted binary, for codes without lead bytes, is canonical. -/
theorem bexfil_canonical {E : Env} {b : List UInt8} {x : Indexer} (h : Indexer.bexfil E b = .ok x) :
    ∃ z, HeadOk x z ∧ Meant x.code z.os x.index x.ondex ∧ (total x z + 1) * 3 / 4 ≤ b.length ∧
      (z.ls = 0 → Wf x z ∧ b.take ((total x z + 1) * 3 / 4) = binary x z) := by
  rcases bexfil_cases E b with ⟨e, he⟩ | ⟨y, z, hw, hm, hb, hhead, heq⟩
  · rw [he] at h; cases h
  rw [heq] at h
  have r := row_of_sizage hw.szg
  have htg := total_ge hw.szg
  have hs1 := r.hs1
  unfold bexfilBody at h
  split at h
  · cases h
  rename_i hlen
  simp only at h
  have htl : (b.take ((total y z + 1) * 3 / 4)).length = (total y z + 1) * 3 / 4 := by rw [List.length_take]; omega
  have fin : ∀ raw, raw = (b.take ((total y z + 1) * 3 / 4)).drop ((z.hs + z.ss + 1) * 3 / 4 + z.ls) →
      x = { y with raw := raw } →
      packD ((sext b).take (z.hs + z.ss)) = b.take ((z.hs + z.ss + 1) * 3 / 4) →
      ∃ z, HeadOk x z ∧ Meant x.code z.os x.index x.ondex ∧ (total x z + 1) * 3 / 4 ≤ b.length ∧
      (z.ls = 0 → Wf x z ∧ b.take ((total x z + 1) * 3 / 4) = binary x z) := by
    intro raw hraw hx hpk
    have hTe : total x z = total y z := by rw [hx]; rfl
    refine ⟨z, by rw [hx]; exact ⟨hw.szg, hw.index, hw.ondex⟩, by rw [hx]; exact hm, by omega, ?_⟩
    intro hls
    rw [hls, Nat.add_zero] at hraw
    have hrl : x.raw.length = (total y z + 1) * 3 / 4 - (z.hs + z.ss + 1) * 3 / 4 := by
      rw [hx]; simp only; rw [hraw, List.length_drop, htl]
    refine ⟨⟨by rw [hx]; exact ⟨hw.szg, hw.index, hw.ondex⟩, hls, ?_, ?_⟩, ?_⟩
    · intro hf
      have hv := r.var hf
      rw [← hTe, total, if_pos hf] at hrl
      omega
    · intro hf
      obtain ⟨a, b, c, d⟩ := r.fix hf
      rw [← hTe, total, if_neg hf] at hrl
      have := r.p2
      omega
    · rw [hTe, binary, hx, headD_congr, ← hhead, hpk, hraw]
      have e1 : b.take ((z.hs + z.ss + 1) * 3 / 4)
          = (b.take ((total y z + 1) * 3 / 4)).take ((z.hs + z.ss + 1) * 3 / 4) := by
        rw [List.take_take, Nat.min_eq_left (by omega)]
      rw [e1]
      simp only [List.replicate_zero, List.append_nil]
      rw [List.take_append_drop]
  split at h
  · rename_i hp
    split at h
    · cases h
    rename_i v hv
    split at h
    · cases h
    rename_i hmod
    rw [Res.bind_eq_ok] at h
    obtain ⟨raw, hraw, h⟩ := h
    obtain ⟨_, _, hraw⟩ := slice_ok hraw
    rw [List.take_length] at hraw
    injection h with h
    refine fin raw hraw h.symm ?_
    apply packD_of_last (by omega) hb (v := v)
    · rw [← hv, List.getElem?_take_of_lt (by omega)]
    · rw [Nat.pow_mul] at hmod
      simpa [hp] using hmod
  · split at h
    · split at h <;> cases h
    rw [Res.bind_eq_ok] at h
    obtain ⟨raw, hraw, h⟩ := h
    obtain ⟨_, _, hraw⟩ := slice_ok hraw
    rw [List.take_length] at hraw
    injection h with h
    exact fin raw hraw h.symm (packD_of_aligned (by omega) hb)

/-- Truncated binary is refused. -/
theorem Wf.bexfil_truncated {x : Indexer} {z : ISizage} (w : Wf x z) (c : Meant x.code z.os x.index x.ondex) (E : Env)
    {k : Nat} (hk : k < (binary x z).length) :
    Indexer.bexfil E ((binary x z).take k) = .err (if k = 0 then .emptyMaterial else .shortage) := by
  have r := row_of_sizage w.szg
  have hos := r.os
  have hcs := r.cs
  have hs1 := r.hs1
  have hs2 := r.hs2
  have hhl := headD_length w.szg
  have hpl : (packD (headD x z)).length = (z.hs + z.ss + 1) * 3 / 4 := by rw [packD_length, hhl]
  have hbl : (binary x z).length = (z.hs + z.ss + 1) * 3 / 4 + x.raw.length := by simp [binary, hhl]
  by_cases h0 : k = 0
  · subst h0; rfl
  rw [if_neg h0]
  have hbt := w.bfs
  by_cases hkc : (z.hs + z.ss + 1) * 3 / 4 ≤ k
  · have hsplit : (binary x z).take k = packD (headD x z) ++ ((binary x z).take k).drop ((z.hs + z.ss + 1) * 3 / 4) := by
      conv => lhs; rw [← List.take_append_drop ((z.hs + z.ss + 1) * 3 / 4) ((binary x z).take k)]
      rw [List.take_take, Nat.min_eq_left hkc]
      congr 1
      rw [binary, ← hpl]; simp
    have hsx := sext_packD (headD_lt w.szg) (((binary x z).take k).drop ((z.hs + z.ss + 1) * 3 / 4))
    rw [← hsplit, hhl] at hsx
    rw [bexfil_head w.toHeadOk c (by rw [List.length_take]; omega) hsx, bexfilBody, if_pos (by rw [List.length_take]; omega)]
  · generalize hq : (binary x z).take k = q
    have hql : q.length = k := by rw [← hq, List.length_take]; omega
    -- the leading sextets that lie within the prefix
    have hpre : ∀ j, (j + 1) * 3 / 4 ≤ k → j ≤ z.hs + z.ss → (sext q).take j = (headD x z).take j := by
      intro j hj hjc
      have hfull : (sext (binary x z)).take (z.hs + z.ss) = headD x z := by
        have := sext_packD (headD_lt w.szg) x.raw
        rw [hhl] at this
        rw [binary]; simpa using this
      have e : (sext (binary x z)).take j = (headD x z).take j := by
        rw [← hfull, List.take_take, Nat.min_eq_left hjc]
      rw [← e]
      apply valB_inj (b := 64) (fun d hd => sext_lt _ d (List.mem_of_mem_take hd))
        (fun d hd => sext_lt _ d (List.mem_of_mem_take hd))
      · rw [List.length_take, List.length_take, sext_length, sext_length]; omega
      · rw [valB_sext_take _ (by omega), valB_sext_take _ (by omega), ← hq, List.take_take, Nat.min_eq_left hj]
    obtain ⟨t1, _, _⟩ := head_slices w.szg
    obtain ⟨c0, t, hc, _, i, hi, hbar⟩ := r.hard
    have hfirst : (sext q).take 1 = [i] := by
      rw [hpre 1 (by omega) (by omega)]
      apply encD_inj (fun d hd => headD_lt w.szg d (List.mem_of_mem_take hd))
      · have := (sextetVal_some hi).1
        simpa using this
      · rw [encD_take, encD_headD w.szg, hc]
        simp [encD, (sextetVal_some hi).2]
    unfold Indexer.bexfil
    rw [if_neg (by intro h; rw [h] at hql; simp at hql; omega)]
    rw [nabSextets_eq _ (by omega), Res.ok_bind, hfirst]
    simp only
    rw [hbar, Res.ok_bind]
    by_cases hh : q.length < (z.hs * 3 + 3) / 4
    · rw [if_pos hh]
    · rw [if_neg hh, codeB2ToB64_eq E _ (by omega) (by omega), Res.ok_bind, hpre _ (by omega) (by omega),
        encD_take, t1, w.szg, Res.ok_bind, if_pos (by omega)]

/-! ## Construction -/

/-- `new_with_code_and_raw` for a table code. -/
theorem new_eq {code : Str} {z : ISizage} (hz : sizage code = .ok z) (raw : List UInt8) (index : Nat) (ondex : Option Nat) :
    newWithCodeAndRaw code raw index ondex =
      if 64 ^ (z.ss - z.os) ≤ index ∨ (∃ o, ondex = some o ∧ 0 < z.os ∧ 64 ^ z.os ≤ o) ∨
        (isCurrent code = true ∧ ondex ≠ none) ∨
        (isBoth code = false ∧ z.os = 0 ∧ ∃ o, ondex = some o ∧ o ≠ index) then .err .invalidVarIndex
      else if raw.length < (if z.fs = u32Max then 3 * index else (z.fs - (z.hs + z.ss)) * 3 / 4) then .err .shortage
      else .ok { code := code,
                 raw := raw.take (if z.fs = u32Max then 3 * index else (z.fs - (z.hs + z.ss)) * 3 / 4),
                 index := index,
                 ondex := ondex.getD (if isBoth code then index else 0) } := by
  have r := row_of_sizage hz
  have hpos : 0 < 64 ^ (z.ss - z.os) := Nat.pow_pos (by decide)
  have hpos2 : 0 < 64 ^ z.os := Nat.pow_pos (by decide)
  have hcne : code ≠ [] := by
    obtain ⟨c, t, h, _⟩ := r.hard
    rw [h]; simp
  have hfs := fs_eq (x := { code := code, raw := [], index := index, ondex := 0 }) (z := z) hz .invalidCodeSize .invalidCodeSize
  simp only at hfs
  have hrize : (total { code := code, raw := [], index := index, ondex := 0 } z - (z.hs + z.ss)) * 3 / 4
      = (if z.fs = u32Max then 3 * index else (z.fs - (z.hs + z.ss)) * 3 / 4) := by
    unfold total
    split
    · simp only; omega
    · rfl
  have hlast : ∀ o : Option Nat, (do
      let fs ← (if z.fs = u32Max then
          if (z.hs + z.ss) % 4 ≠ 0 then .err .invalidCodeSize
          else if z.os ≠ 0 then .err .invalidCodeSize
          else .ok (index * 4 + (z.hs + z.ss))
        else .ok z.fs : Res Nat)
      let rize := (fs - (z.hs + z.ss)) * 3 / 4
      if raw.length < rize then .err .shortage
      else .ok { code := code, raw := raw.take rize, index := index, ondex := o.getD 0 } : Res Indexer) =
      if raw.length < (if z.fs = u32Max then 3 * index else (z.fs - (z.hs + z.ss)) * 3 / 4) then .err .shortage
      else .ok { code := code,
                 raw := raw.take (if z.fs = u32Max then 3 * index else (z.fs - (z.hs + z.ss)) * 3 / 4),
                 index := index, ondex := o.getD 0 } := by
    intro o
    rw [hfs, Res.ok_bind, hrize]
  unfold newWithCodeAndRaw
  rw [if_neg hcne, hz, Res.ok_bind]
  simp only
  by_cases h1 : 64 ^ (z.ss - z.os) ≤ index
  · rw [if_pos (by omega), if_pos (.inl h1)]
  rw [if_neg (by omega)]
  cases ondex with
  | none =>
    simp only [Bool.false_eq_true, if_false, Option.isSome_none, and_false]
    rw [if_neg (show ¬ (64 ^ (z.ss - z.os) ≤ index ∨ _) by simp [h1])]
    cases hb : isBoth code
    · simp only [Bool.false_eq_true, if_false, Res.ok_bind]
      exact hlast none
    · simp only [if_true, Res.ok_bind]
      exact hlast (some index)
  | some o =>
    simp only [Option.isSome_some, and_true, decide_eq_true_eq]
    by_cases h2 : 0 < z.os ∧ 64 ^ z.os ≤ o
    · rw [if_pos (by omega), if_pos (.inr (.inl ⟨o, rfl, h2⟩))]
    rw [if_neg (by omega)]
    by_cases h3 : isCurrent code = true
    · rw [if_pos h3, if_pos (.inr (.inr (.inl ⟨h3, by simp⟩)))]
    rw [if_neg h3]
    cases hb : isBoth code
    · simp only [Bool.false_eq_true, if_false]
      by_cases h4 : o ≠ index ∧ z.os = 0
      · rw [if_pos h4, Res.err_bind]
        rw [if_pos (show 64 ^ (z.ss - z.os) ≤ index ∨ (∃ o', some o = some o' ∧ 0 < z.os ∧ 64 ^ z.os ≤ o') ∨ _ from
          .inr (.inr (.inr ⟨trivial, h4.2, o, rfl, h4.1⟩)))]
      · rw [if_neg h4]
        rw [if_neg (show ¬ (64 ^ (z.ss - z.os) ≤ index ∨ _) by
          simp only [Option.some.injEq, exists_eq_left', h1, h3, Bool.false_eq_true, false_and, false_or, true_and]
          rintro (h | h)
          · exact h2 h
          · exact h4 ⟨h.2, h.1⟩)]
        exact hlast (some o)
    · simp only [if_true, Res.ok_bind]
      rw [if_neg (show ¬ (64 ^ (z.ss - z.os) ≤ index ∨ _) by
          simp only [Option.some.injEq, exists_eq_left', h1, h3, Bool.false_eq_true, false_and, false_or]
          exact fun h => by rcases h with h | h
                            · exact h2 h
                            · simp at h)]
      exact hlast (some o)

/-- An accepted construction with a code without lead bytes is well-formed. -/
theorem new_wf {code : Str} {z : ISizage} (hz : sizage code = .ok z) (hls : z.ls = 0) {raw : List UInt8} {index : Nat}
    {ondex : Option Nat} {x : Indexer} (h : newWithCodeAndRaw code raw index ondex = .ok x) : Wf x z := by
  rw [new_eq hz] at h
  generalize hrize : (if z.fs = u32Max then 3 * index else (z.fs - (z.hs + z.ss)) * 3 / 4) = rize at h
  split at h
  · cases h
  rename_i hc
  split at h
  · cases h
  rename_i hl
  injection h with h
  subst h
  have h1 : ¬ 64 ^ (z.ss - z.os) ≤ index := fun h => hc (.inl h)
  refine ⟨⟨hz, by show index < _; omega, ?_⟩, hls, ?_, ?_⟩
  · intro hos
    show Option.getD _ _ < _
    cases ondex with
    | some o =>
      have : ¬ 64 ^ z.os ≤ o := fun h => hc (.inr (.inl ⟨o, rfl, hos, h⟩))
      simp; omega
    | none =>
      have hpos : 0 < 64 ^ z.os := Nat.pow_pos (by decide)
      simp only [Option.getD_none]
      split
      · have hm := sizage_mem hz
        have : ∀ e ∈ sizes, isBoth e.1 = true → 0 < e.2.os → e.2.ss - e.2.os = e.2.os := by decide +kernel
        have := this _ hm (by assumption) hos
        simp only at this
        rw [this] at h1
        omega
      · exact hpos
  · intro hf
    show (raw.take _).length = 3 * index
    rw [if_pos hf] at hrize
    rw [List.length_take]; omega
  · intro hf
    show (raw.take _).length = _
    rw [if_neg hf] at hrize
    rw [List.length_take]; omega

end Indexer
end Cesride
