import Verif.Lemmas.Matter2

/-! # Matter: accepted binary, construction, panics, truncation -/

namespace Cesride
namespace Matter

theorem bardage_le {i hs : Nat} (h : bardage i = .ok hs) : 1 ≤ hs ∧ hs ≤ 4 := by
  unfold bardage at h
  split at h
  · cases h; omega
  split at h
  · cases h; omega
  split at h
  · cases h; omega
  split at h
  · cases h
  split at h
  · cases h
  · cases h

theorem bardage_ne_panic (i : Nat) : bardage i ≠ .panic := by
  unfold bardage; repeat' split
  all_goals simp

theorem hardage_ne_panic (c : UInt8) : hardage c ≠ .panic := by
  unfold hardage; repeat' split
  all_goals simp

theorem hardage_le {c : UInt8} {hs : Nat} (h : hardage c = .ok hs) : 1 ≤ hs ∧ hs ≤ 4 := by
  unfold hardage at h
  repeat' split at h
  all_goals first
    | (cases h; omega)
    | cases h

/-- Code size, lead size and trimmed length after the code selection of `bexfil`. -/
def bfsel (E : Env) (qb2 : List UInt8) (z : Sizage) : Res (Nat × Nat) :=
  if z.fs = u32Max then
    if (z.hs + z.ss) % 4 ≠ 0 then .err .parseQb2
    else if qb2.length < (z.hs + z.ss + 1) * 3 / 4 then .err .shortage
    else do
      let both ← codeB2ToB64 E qb2 (z.hs + z.ss)
      let soft ← sliceStr both z.hs (z.hs + z.ss)
      let size ← b64ToU32 soft
      .ok (size * 4 + (z.hs + z.ss), size)
  else .ok (z.fs, 0)

/-- The selection in closed form. -/
theorem bfsel_eq {E : Env} {qb2 : List UInt8} {code : Str} {z : Sizage} (hz : sizage code = .ok z) :
    bfsel E qb2 z =
      if z.fs = u32Max then
        if qb2.length < (z.hs + z.ss + 1) * 3 / 4 then .err .shortage
        else .ok (valB 64 (((sext qb2).take (z.hs + z.ss)).drop z.hs) * 4 + (z.hs + z.ss),
          valB 64 (((sext qb2).take (z.hs + z.ss)).drop z.hs))
      else .ok (z.fs, 0) := by
  have r := row_of_sizage hz
  unfold bfsel
  split
  · rename_i hf
    have hv := r.var hf
    rw [if_neg (by omega)]
    split
    · rfl
    · rename_i hl
      have hcs := r.cs
      rw [codeB2ToB64_eq E _ hcs (by omega), Res.ok_bind]
      have hlt : ∀ d ∈ (sext qb2).take (z.hs + z.ss), d < 64 := fun d hd => sext_lt _ d (List.mem_of_mem_take hd)
      have hlen : ((sext qb2).take (z.hs + z.ss)).length = z.hs + z.ss := by
        rw [List.length_take, sext_length]; omega
      rw [sliceStr_ascii (ascii_encD hlt) (by omega) (by rw [encD_length, hlen]; omega), Res.ok_bind]
      rw [List.take_of_length_le (by rw [encD_length, hlen]; omega), ← encD_drop]
      rw [b64ToU32_encD (fun d hd => hlt d (List.mem_of_mem_drop hd)) (by rw [List.length_drop, hlen]; have := r.ss4; omega)]
      rfl
  · rfl

/-- `bexfil` after the code has been read. -/
theorem bexfil_unfold (E : Env) (qb2 : List UInt8) : Matter.bexfil E qb2 = (
    if qb2 = [] then .err .emptyMaterial
    else match (sext qb2).take 1 with
    | [] => .panic
    | first :: _ => do
      let hs ← bardage first
      if qb2.length < (hs * 3 + 3) / 4 then .err .shortage
      else do
        let z ← sizage (encD ((sext qb2).take hs))
        let (fs, size) ← bfsel E qb2 z
        if qb2.length < (fs + 1) * 3 / 4 then .err .shortage
        else do
          let trim := qb2.take ((fs + 1) * 3 / 4)
          let bcs := (z.hs + z.ss + 1) * 3 / 4
          let ps := (z.hs + z.ss) % 4
          if ps ≠ 0 then
            match trim[bcs - 1]? with
            | none => .panic
            | some b =>
              if b.toNat % 2 ^ (2 * (if ps ≠ 0 then ps else z.ls)) ≠ 0 then .err .nonZeroedPadBits
              else do
                let raw ← slice trim (bcs + z.ls) trim.length
                .ok { code := encD ((sext qb2).take hs), size := size, raw := raw }
          else if ((trim.take (bcs + z.ls)).drop bcs).any (fun v => v ≠ 0) then
            if z.ls = 1 then .err .nonZeroedLeadByte else .err .nonZeroedLeadBytes
          else do
            let raw ← slice trim (bcs + z.ls) trim.length
            .ok { code := encD ((sext qb2).take hs), size := size, raw := raw }) := by
  unfold Matter.bexfil
  split
  · rfl
  · rename_i hne
    have hpos : 0 < qb2.length := List.length_pos_iff.mpr hne
    rw [nabSextets_eq _ (by omega), Res.ok_bind]
    cases hf : (sext qb2).take 1 with
    | nil => rfl
    | cons first t =>
      simp only
      cases hb : bardage first with
      | err e => simp
      | panic => simp
      | ok hs =>
        simp only [Res.ok_bind]
        have hle := bardage_le hb
        split
        · rfl
        · rw [codeB2ToB64_eq E _ (by omega) (by omega), Res.ok_bind]
          rfl

theorem any_ne_zero_false {l : List UInt8} (h : ¬ (l.any (fun v => v ≠ 0) = true)) : l = List.replicate l.length 0 := by
  apply List.eq_replicate_of_mem
  intro b hb
  apply Classical.byContradiction
  intro hne
  apply h
  rw [List.any_eq_true]
  exact ⟨b, hb, by simpa using hne⟩

/-- Accepted binary is canonical. -/
theorem bexfil_canonical {E : Env} {b : List UInt8} {m : Matter} (h : Matter.bexfil E b = .ok m) :
    ∃ z, Wf m z ∧ b = binary m z ++ b.drop (binary m z).length := by
  rw [bexfil_unfold] at h
  split at h
  · cases h
  rename_i hne
  have hpos : 0 < b.length := List.length_pos_iff.mpr hne
  split at h
  · cases h
  rename_i first t hfirst
  rw [Res.bind_eq_ok] at h
  obtain ⟨hs, hbar, h⟩ := h
  have hle := bardage_le hbar
  split at h
  · cases h
  rename_i hbhs
  rw [Res.bind_eq_ok] at h
  obtain ⟨z, hz, h⟩ := h
  have r := row_of_sizage hz
  have hhs : hs = z.hs := by
    have := r.len
    rw [encD_length, List.length_take, sext_length] at this
    omega
  subst hhs
  rw [Res.bind_eq_ok] at h
  obtain ⟨⟨fs, size⟩, hsel, h⟩ := h
  rw [bfsel_eq hz] at hsel
  simp only at h
  split at h
  · cases h
  rename_i hbfs
  have hpls := r.pls
  have hcs := r.cs
  -- selection facts
  have hS : fs = (if z.fs = u32Max then size * 4 + (z.hs + z.ss) else z.fs) ∧
      (z.fs ≠ u32Max → size = 0) ∧ size < 64 ^ z.ss ∧
      (sext b).take (z.hs + z.ss) = (sext b).take z.hs ++ digitsB 64 z.ss size ∧
      (z.hs + z.ss + 1) * 3 / 4 ≤ b.length := by
    split at hsel
    · rename_i hf
      split at hsel
      · cases hsel
      rename_i hl
      have hlt : ∀ d ∈ (sext b).take (z.hs + z.ss), d < 64 := fun d hd => sext_lt _ d (List.mem_of_mem_take hd)
      have hlen : ((sext b).take (z.hs + z.ss)).length = z.hs + z.ss := by
        rw [List.length_take, sext_length]; omega
      have hdl : (((sext b).take (z.hs + z.ss)).drop z.hs).length = z.ss := by rw [List.length_drop, hlen]; omega
      have hvlt := valB_lt (b := 64) (l := ((sext b).take (z.hs + z.ss)).drop z.hs)
        (fun d hd => hlt d (List.mem_of_mem_drop hd))
      rw [hdl] at hvlt
      have hdd := digitsB_valB (b := 64) (l := ((sext b).take (z.hs + z.ss)).drop z.hs)
        (fun d hd => hlt d (List.mem_of_mem_drop hd))
      rw [hdl] at hdd
      injection hsel with hsel
      injection hsel with e1 e2
      subst e2
      refine ⟨by simp [hf, e1], fun hc => absurd hf hc, hvlt, ?_, by omega⟩
      rw [hdd]
      have e := (List.take_append_drop z.hs ((sext b).take (z.hs + z.ss))).symm
      rw [List.take_take, Nat.min_eq_left (by omega)] at e
      exact e
    · rename_i hf
      injection hsel with hsel
      injection hsel with e1 e2
      subst e1
      subst e2
      obtain ⟨a, b', c, d, _⟩ := r.fix hf
      refine ⟨by simp [hf], fun _ => rfl, Nat.pow_pos (by decide), by rw [a]; simp [digitsB], ?_⟩
      rw [a]; omega
  obtain ⟨hfs, hfix, hsz, hhead, hbl⟩ := hS
  -- length of the trimmed input
  have hfs4 : fs % 4 = 0 ∧ z.hs + z.ss ≤ fs := by
    rw [hfs]
    split
    · rename_i hf; have := r.var hf; omega
    · rename_i hf; obtain ⟨a, b', c, d, _⟩ := r.fix hf; omega
  have htl : (b.take ((fs + 1) * 3 / 4)).length = (fs + 1) * 3 / 4 := by rw [List.length_take]; omega
  have hcodeD : codeDigits (encD ((sext b).take z.hs)) = (sext b).take z.hs :=
    codeDigits_encD (fun d hd => sext_lt _ d (List.mem_of_mem_take hd))
  -- finish, given the raw and zero facts
  have fin : ∀ raw, (z.hs + z.ss + 1) * 3 / 4 + z.ls ≤ (fs + 1) * 3 / 4 →
      raw = (b.take ((fs + 1) * 3 / 4)).drop ((z.hs + z.ss + 1) * 3 / 4 + z.ls) →
      beNat (b.take ((z.hs + z.ss + 1) * 3 / 4)) % 4 ^ ((z.hs + z.ss) % 4) = 0 →
      ((b.take ((fs + 1) * 3 / 4)).take ((z.hs + z.ss + 1) * 3 / 4 + z.ls)).drop ((z.hs + z.ss + 1) * 3 / 4)
        = List.replicate z.ls 0 →
      m = { code := encD ((sext b).take z.hs), size := size, raw := raw } →
      ∃ z, Wf m z ∧ b = binary m z ++ b.drop (binary m z).length := by
    intro raw hle2 hraw hzero hlead hm
    have hrl : raw.length = (fs + 1) * 3 / 4 - ((z.hs + z.ss + 1) * 3 / 4 + z.ls) := by
      rw [hraw, List.length_drop, htl]
    have w : Wf m z := by
      rw [hm]
      refine ⟨hz, ?_, ?_⟩
      · intro hf
        have hv := r.var hf
        rw [if_pos hf] at hfs
        refine ⟨hsz, ?_⟩
        show raw.length + z.ls = 3 * size
        omega
      · intro hf
        rw [if_neg hf] at hfs
        obtain ⟨a, b', c, d, e, f⟩ := r.fix hf
        refine ⟨hfix hf, ?_⟩
        show raw.length = _
        rw [hrl, hfs]
        have hP := r.pOrL
        rw [a] at hP hpls ⊢
        simp only [Nat.add_zero] at hP hpls ⊢
        omega
    refine ⟨z, w, ?_⟩
    have hbin : binary m z = b.take ((fs + 1) * 3 / 4) := by
      rw [hm]
      unfold binary headD
      simp only
      rw [hcodeD, ← hhead, packD_sext hbl hzero, hraw, ← hlead]
      have e1 : b.take ((z.hs + z.ss + 1) * 3 / 4)
          = (b.take ((fs + 1) * 3 / 4)).take ((z.hs + z.ss + 1) * 3 / 4) := by
        rw [List.take_take, Nat.min_eq_left (by omega)]
      rw [e1]
      generalize b.take ((fs + 1) * 3 / 4) = t
      have e2 : t.take ((z.hs + z.ss + 1) * 3 / 4)
          = (t.take ((z.hs + z.ss + 1) * 3 / 4 + z.ls)).take ((z.hs + z.ss + 1) * 3 / 4) := by
        rw [List.take_take, Nat.min_eq_left (by omega)]
      rw [e2, List.take_append_drop, List.take_append_drop]
    rw [hbin, htl, List.take_append_drop]
  split at h
  · rename_i hp
    have hl0 : z.ls = 0 := by
      rcases r.pOrL with h | h
      · exact absurd h hp
      · exact h
    split at h
    · cases h
    rename_i bb hbb
    split at h
    · cases h
    rename_i hmod
    rw [Res.bind_eq_ok] at h
    obtain ⟨raw, hraw, h⟩ := h
    obtain ⟨h1, _, hraw⟩ := slice_ok hraw
    rw [List.take_length] at hraw
    rw [htl] at h1
    injection h with h
    refine fin raw h1 hraw ?_ ?_ h.symm
    · have hl : (b.take ((z.hs + z.ss + 1) * 3 / 4)).length = (z.hs + z.ss + 1) * 3 / 4 := by
        rw [List.length_take]; omega
      have hidx : (b.take ((z.hs + z.ss + 1) * 3 / 4))[(b.take ((z.hs + z.ss + 1) * 3 / 4)).length - 1]? = some bb := by
        rw [hl, ← hbb, List.getElem?_take_of_lt (by omega), List.getElem?_take_of_lt (by omega)]
      have := last_byte hidx
      have hd : (4 : Nat) ^ ((z.hs + z.ss) % 4) ∣ 256 := by
        have : (256 : Nat) = 4 ^ 4 := by decide
        rw [this]; exact Nat.pow_dvd_pow 4 (by omega)
      rw [← Nat.mod_mod_of_dvd _ hd, this]
      rw [Nat.pow_mul] at hmod
      simpa using hmod
    · rw [hl0]; simp
  · rename_i hp
    split at h
    · split at h <;> cases h
    rename_i hany
    rw [Res.bind_eq_ok] at h
    obtain ⟨raw, hraw, h⟩ := h
    obtain ⟨h1, _, hraw⟩ := slice_ok hraw
    rw [List.take_length] at hraw
    rw [htl] at h1
    injection h with h
    refine fin raw h1 hraw ?_ ?_ h.symm
    · rw [show (z.hs + z.ss) % 4 = 0 by omega]; exact Nat.mod_one _
    · have := any_ne_zero_false hany
      rw [this]
      congr 1
      rw [List.length_drop, List.length_take, htl]; omega

/-! ## Construction from code and raw -/

/-- Fixed codes do not start with a variable-size character; variable ones do, with the shape the
constructor expects, and every code the constructor can switch to is in the table. -/
def varRowOk (code : Str) (z : Sizage) : Bool :=
  if z.fs = u32Max then
    match code with
    | [c, f] =>
      decide (c ∈ smallVrzDex) && z.ss == 2 && decide (f < 128) &&
        [0, 1, 2].all fun ls =>
          decide (sizage (smallVrzDex.getD ls 0 :: [f]) = .ok { hs := 2, ss := 2, ls := ls, fs := u32Max }) &&
          decide (sizage (largeVrzDex.getD ls 0 :: lit "AA" ++ [f]) = .ok { hs := 4, ss := 4, ls := ls, fs := u32Max })
    | [c, a, b, f] =>
      decide (c ∉ smallVrzDex) && decide (c ∈ largeVrzDex) && decide ([a, b] = lit "AA") && z.ss == 4 &&
        decide (f < 128) &&
        [0, 1, 2].all fun ls =>
          decide (sizage (largeVrzDex.getD ls 0 :: lit "AA" ++ [f]) = .ok { hs := 4, ss := 4, ls := ls, fs := u32Max })
    | _ => false
  else
    match code with
    | c :: _ => decide (c ∉ smallVrzDex) && decide (c ∉ largeVrzDex)
    | [] => false

theorem table_varRowOk : ∀ e ∈ sizes, varRowOk e.1 e.2 = true := by decide +kernel

/-- Construction with a fixed code of the table. -/
theorem new_fixed {code : Str} {z : Sizage} (hz : sizage code = .ok z) (hf : z.fs ≠ u32Max) (raw : List UInt8) :
    newWithCodeAndRaw code raw =
      if raw.length < (z.fs - (z.hs + z.ss)) * 3 / 4 - z.ls then .err .shortage
      else .ok { code := code, size := 0, raw := raw.take ((z.fs - (z.hs + z.ss)) * 3 / 4 - z.ls) } := by
  have hrow := table_varRowOk _ (sizage_mem hz)
  simp only [varRowOk, hf, if_false] at hrow
  cases code with
  | nil => simp at hrow
  | cons c t =>
    simp only [Bool.and_eq_true, decide_eq_true_eq] at hrow
    unfold newWithCodeAndRaw selectCode
    simp only
    rw [if_neg (by simp [hrow.1, hrow.2])]
    simp only [rawSize, hz, Res.ok_bind, if_neg hf]

/-- Number of quadlets for a variable raw length. -/
def quadlets (n : Nat) : Nat := (n + (3 - n % 3) % 3) / 3

/-- Lead size for a variable raw length. -/
def leadSize (n : Nat) : Nat := (3 - n % 3) % 3

theorem quad_lead (n : Nat) : n + leadSize n = 3 * quadlets n := by
  unfold leadSize quadlets; omega

/-- Construction with a variable code of the table: the family character `f`. -/
theorem new_var {code : Str} {z : Sizage} (hz : sizage code = .ok z) (hf : z.fs = u32Max) {raw : List UInt8}
    (hraw : raw.length < 2 ^ 32) :
    ∃ f : UInt8, code.getLast? = some f ∧
      (∀ ls ≤ 2, z.ss = 2 → sizage (smallVrzDex.getD ls 0 :: [f]) = .ok { hs := 2, ss := 2, ls := ls, fs := u32Max }) ∧
      (∀ ls ≤ 2, sizage (largeVrzDex.getD ls 0 :: lit "AA" ++ [f]) = .ok { hs := 4, ss := 4, ls := ls, fs := u32Max }) ∧
      newWithCodeAndRaw code raw =
        if z.ss = 2 ∧ quadlets raw.length < 64 ^ 2 then
          .ok { code := smallVrzDex.getD (leadSize raw.length) 0 :: [f], size := quadlets raw.length, raw := raw }
        else if quadlets raw.length < 64 ^ 4 then
          .ok { code := largeVrzDex.getD (leadSize raw.length) 0 :: lit "AA" ++ [f], size := quadlets raw.length, raw := raw }
        else .err .invalidVarRawSize := by
  have hrow := table_varRowOk _ (sizage_mem hz)
  simp only [varRowOk, hf, if_true] at hrow
  have hmod : raw.length % 2 ^ 32 = raw.length := Nat.mod_eq_of_lt hraw
  split at hrow
  · rename_i c f
    simp only [Bool.and_eq_true, decide_eq_true_eq, beq_iff_eq, List.all_eq_true] at hrow
    obtain ⟨⟨⟨h1, h2⟩, h3⟩, h4⟩ := hrow
    refine ⟨f, by simp, ?_, ?_, ?_⟩
    · intro ls hls _; exact (h4 ls (by simp; omega)).1
    · intro ls hls; exact (h4 ls (by simp; omega)).2
    · unfold newWithCodeAndRaw selectCode
      simp only [h1, true_or, if_true, hmod]
      have hsl : sliceStr [c, f] 1 2 = .ok [f] := by
        have hca : c < 128 := by
          simp [smallVrzDex] at h1
          rcases h1 with rfl | rfl | rfl <;> decide
        rw [sliceStr_ascii (by intro x hx; simp at hx; rcases hx with rfl | rfl; exact hca; exact h3) (by decide) (by simp)]
        rfl
      have eq : (raw.length + (3 - raw.length % 3) % 3) / 3 = quadlets raw.length := rfl
      have el : (3 - raw.length % 3) % 3 = leadSize raw.length := rfl
      rw [eq, el, hsl, h2]
      by_cases hq : quadlets raw.length < 64 ^ 2
      · simp only [hq, if_true, true_and]
        simp
      · simp only [hq, if_false, and_false]
        by_cases hq4 : quadlets raw.length < 64 ^ 4
        · rw [if_pos hq4, if_pos hq4]
          simp
        · rw [if_neg hq4, if_neg hq4]
          rfl
  · rename_i c a b f
    simp only [Bool.and_eq_true, decide_eq_true_eq, beq_iff_eq, List.all_eq_true] at hrow
    obtain ⟨⟨⟨⟨⟨h0, h1⟩, hab⟩, h2⟩, h3⟩, h4⟩ := hrow
    refine ⟨f, by simp, ?_, ?_, ?_⟩
    · intro ls hls h; omega
    · intro ls hls; exact (h4 ls (by simp; omega))
    · unfold newWithCodeAndRaw selectCode
      simp only [h0, h1, or_true, if_true, if_false, hmod]
      have hsl : sliceStr [c, a, b, f] 1 4 = .ok (lit "AA" ++ [f]) := by
        have hca : c < 128 := by
          simp [largeVrzDex] at h1
          rcases h1 with rfl | rfl | rfl <;> decide
        have hlit : lit "AA" = [65, 65] := by decide
        rw [hlit] at hab
        injection hab with ha hab
        injection hab with hb _
        subst ha; subst hb
        rw [sliceStr_ascii (by intro x hx; simp at hx; rcases hx with rfl | rfl | rfl; exact hca; decide; exact h3) (by decide) (by simp)]
        rfl
      have eq : (raw.length + (3 - raw.length % 3) % 3) / 3 = quadlets raw.length := rfl
      have el : (3 - raw.length % 3) % 3 = leadSize raw.length := rfl
      have hne : ¬ (z.ss = 2 ∧ quadlets raw.length < 64 ^ 2) := by omega
      rw [eq, el, hsl]
      simp only [hne, if_false]
      by_cases hq4 : quadlets raw.length < 64 ^ 4
      · rw [if_pos hq4, if_pos hq4]
        simp
      · rw [if_neg hq4, if_neg hq4]
        rfl
  · cases hrow

theorem leadSize_le (n : Nat) : leadSize n ≤ 2 := by unfold leadSize; omega

/-- A primitive constructed from a table code and raw bytes is well-formed. -/
theorem new_wf {code : Str} {z : Sizage} (hz : sizage code = .ok z) {raw : List UInt8} (hraw : raw.length < 2 ^ 32)
    {m : Matter} (h : newWithCodeAndRaw code raw = .ok m) : ∃ z', Wf m z' := by
  by_cases hf : z.fs = u32Max
  · obtain ⟨f, _, h1, h2, h3⟩ := new_var hz hf hraw
    rw [h3] at h
    have hql := quad_lead raw.length
    split at h
    · rename_i hc
      injection h with h
      refine ⟨{ hs := 2, ss := 2, ls := leadSize raw.length, fs := u32Max }, ?_, ?_, ?_⟩
      · rw [← h]; exact h1 _ (leadSize_le _) hc.1
      · intro _; rw [← h]; exact ⟨hc.2, hql⟩
      · intro hne; exact absurd rfl hne
    · split at h
      · rename_i hq4
        injection h with h
        refine ⟨{ hs := 4, ss := 4, ls := leadSize raw.length, fs := u32Max }, ?_, ?_, ?_⟩
        · rw [← h]; exact h2 _ (leadSize_le _)
        · intro _; rw [← h]; exact ⟨hq4, hql⟩
        · intro hne; exact absurd rfl hne
      · cases h
  · rw [new_fixed hz hf] at h
    split at h
    · cases h
    · rename_i hlen
      injection h with h
      refine ⟨z, ?_, ?_, ?_⟩
      · rw [← h]; exact hz
      · intro hc; exact absurd hc hf
      · intro _; rw [← h]; refine ⟨rfl, ?_⟩
        simp only [List.length_take]
        omega

end Matter
end Cesride
