import Verif.Lemmas.Indexer

/-! # Indexer: converses, truncation, binary parsing, panics -/

namespace Cesride

/-- Text that reads as a number of the given width is the digits of that number. -/
theorem b64ToU32_inv {s : Str} {n : Nat} (hl : s.length ≤ 5) (h : b64ToU32 s = .ok n) :
    n < 64 ^ s.length ∧ s = encD (digitsB 64 s.length n) := by
  obtain ⟨d, hd, rfl⟩ := exists_encD (b64ToUint_ok_isB64 h)
  rw [encD_length] at hl
  rw [b64ToU32_encD hd hl] at h
  injection h with h
  have := valB_lt hd
  have hdd := digitsB_valB hd
  rw [encD_length, ← h]
  exact ⟨this, by rw [hdd]⟩

theorem b64ToU32_ne_panic (s : Str) : b64ToU32 s ≠ .panic := b64ToUint_ne_panic _ _ _

theorem sliceStr_panic {s : Str} {a b : Nat} (h : sliceStr s a b = .panic) (hab : a ≤ b) (hb : b ≤ s.length) :
    isBoundary s a = false ∨ isBoundary s b = false := by
  unfold sliceStr at h
  split at h
  · cases h
  · rename_i hc
    cases h1 : isBoundary s a
    · exact .inl rfl
    · cases h2 : isBoundary s b
      · exact .inr rfl
      · exact absurd ⟨hab, hb, h1, h2⟩ hc

namespace Indexer

theorem readOndex_ne_panic (c : Str) (os i : Nat) (o : Str) : readOndex c os i o ≠ .panic := by
  unfold readOndex
  have h := b64ToU32_ne_panic o
  split
  · split
    · cases hb : b64ToU32 o with
      | ok v => simp only [Res.ok_bind]; split <;> simp
      | err e => simp
      | panic => exact absurd hb h
    · simp
  · split
    · exact h
    · simp

theorem readOndex_ok {c : Str} {os i : Nat} {o : Str} {v : Nat} (hl : o.length = os) (hos : os ≤ 3)
    (h : readOndex c os i o = .ok v) : Meant c os i v ∧ (0 < os → v < 64 ^ os) ∧ o = encD (digitsB 64 os v) := by
  unfold readOndex at h
  unfold Meant
  have hnil : os = 0 → o = encD (digitsB 64 os v) := by
    intro h0; subst h0
    rw [List.eq_nil_of_length_eq_zero hl]; rfl
  split at h
  · rename_i hc
    simp only [hc, if_true]
    split at h
    · rename_i h0
      rw [Res.bind_eq_ok] at h
      obtain ⟨w, hw, h⟩ := h
      split at h
      · cases h
      · rename_i hz
        injection h with h
        subst h
        have hz : w = 0 := by omega
        subst hz
        have := b64ToU32_inv (by omega) hw
        rw [hl] at this
        exact ⟨rfl, fun _ => this.1, this.2⟩
    · injection h with h
      exact ⟨h.symm, fun h => by omega, hnil (by omega)⟩
  · rename_i hc
    simp only [hc, Bool.false_eq_true, if_false]
    split at h
    · have := b64ToU32_inv (by omega) h
      rw [hl] at this
      exact ⟨fun h0 => by omega, fun _ => this.1, this.2⟩
    · injection h with h
      exact ⟨fun _ => h.symm, fun h => by omega, hnil (by omega)⟩

/-- Head assembled from the three slices. -/
theorem head_of_slices {s : Str} {z : ISizage} {hard : Str} {i o : Nat} (hz : sizage hard = .ok z)
    (h1 : s.take z.hs = hard)
    (h2 : (s.take (z.hs + (z.ss - z.os))).drop z.hs = encD (digitsB 64 (z.ss - z.os) i))
    (h3 : (s.take (z.hs + (z.ss - z.os + z.os))).drop (z.hs + (z.ss - z.os)) = encD (digitsB 64 z.os o)) (raw : List UInt8) :
    s.take (z.hs + z.ss) = encD (headD { code := hard, raw := raw, index := i, ondex := o } z) := by
  have r := row_of_sizage hz
  have := r.os
  rw [encD_headD (by exact hz)]
  simp only
  rw [← h2, ← h3, ← h1]
  have e1 := (List.take_append_drop (z.hs + (z.ss - z.os)) (s.take (z.hs + (z.ss - z.os + z.os)))).symm
  rw [List.take_take, Nat.min_eq_left (by omega)] at e1
  have e2 := (List.take_append_drop z.hs (s.take (z.hs + (z.ss - z.os)))).symm
  rw [List.take_take, Nat.min_eq_left (by omega)] at e2
  rw [show z.hs + z.ss = z.hs + (z.ss - z.os + z.os) by omega]
  rw [← e2]; exact e1

/-- Accepted text: a well-formed head and an accepted body. -/
theorem exfil_cases (s : Str) :
    (∃ e, Indexer.exfil s = .err e) ∨
    (∃ i, i ≤ s.length ∧ isBoundary s i = false ∧ Indexer.exfil s = .panic) ∨
    (∃ x z, HeadOk x z ∧ Meant x.code z.os x.index x.ondex ∧ z.hs + z.ss ≤ s.length ∧
      s.take (z.hs + z.ss) = encD (headD x z) ∧ Indexer.exfil s = exfilBody x z s) := by
  cases s with
  | nil => exact .inl ⟨_, rfl⟩
  | cons c s' =>
    generalize hs' : c :: s' = s
    unfold Indexer.exfil
    simp only [← hs']
    rw [hs']
    cases hhard : hardage c with
    | err e => exact .inl ⟨e, rfl⟩
    | panic => exact absurd hhard (hardage_ne_panic c)
    | ok hs =>
    have hle := hardage_le hhard
    simp only [Res.ok_bind]
    by_cases hl1 : s.length < hs
    · rw [if_pos hl1]; exact .inl ⟨_, rfl⟩
    rw [if_neg hl1]
    cases hsl : sliceStr s 0 hs with
    | err e => exact .inl ⟨e, rfl⟩
    | panic =>
      right; left
      rcases sliceStr_panic hsl (Nat.zero_le _) (by omega) with h | h
      · rw [isBoundary_zero] at h; cases h
      · exact ⟨hs, by omega, h, rfl⟩
    | ok hard =>
    obtain ⟨_, _, hhd⟩ := sliceStr_ok hsl
    rw [List.drop_zero] at hhd
    simp only [Res.ok_bind]
    cases hz : sizage hard with
    | err e => exact .inl ⟨e, rfl⟩
    | panic => exact absurd hz (sizage_ne_panic _)
    | ok z =>
    have r := row_of_sizage hz
    have hos := r.os
    have hms3 := r.ms3
    have hos3 := r.os3
    have hhs : hs = z.hs := by
      have := r.len
      rw [hhd, List.length_take] at this
      omega
    subst hhs
    simp only [Res.ok_bind]
    by_cases hl2 : s.length < z.hs + z.ss
    · rw [if_pos hl2]; exact .inl ⟨_, rfl⟩
    rw [if_neg hl2]
    cases hsl2 : sliceStr s z.hs (z.hs + (z.ss - z.os)) with
    | err e => exact .inl ⟨e, rfl⟩
    | panic =>
      right; left
      rcases sliceStr_panic hsl2 (by omega) (by omega) with h | h
      · exact ⟨_, by omega, h, rfl⟩
      · exact ⟨_, by omega, h, rfl⟩
    | ok itext =>
    obtain ⟨_, _, hit⟩ := sliceStr_ok hsl2
    simp only [Res.ok_bind]
    cases hidx : b64ToU32 itext with
    | err e => exact .inl ⟨e, rfl⟩
    | panic => exact absurd hidx (b64ToU32_ne_panic _)
    | ok index =>
    have hil : itext.length = z.ss - z.os := by rw [hit]; simp; omega
    obtain ⟨hi1, hi2⟩ := b64ToU32_inv (by omega) hidx
    rw [hil] at hi1 hi2
    simp only [Res.ok_bind]
    cases hsl3 : sliceStr s (z.hs + (z.ss - z.os)) (z.hs + (z.ss - z.os + z.os)) with
    | err e => exact .inl ⟨e, rfl⟩
    | panic =>
      right; left
      rcases sliceStr_panic hsl3 (by omega) (by omega) with h | h
      · exact ⟨_, by omega, h, rfl⟩
      · exact ⟨_, by omega, h, rfl⟩
    | ok odx =>
    obtain ⟨_, _, hot⟩ := sliceStr_ok hsl3
    simp only [Res.ok_bind]
    cases hon : readOndex hard z.os index odx with
    | err e => exact .inl ⟨e, rfl⟩
    | panic => exact absurd hon (readOndex_ne_panic _ _ _ _)
    | ok ondex =>
    have hol : odx.length = z.os := by rw [hot]; simp; omega
    obtain ⟨ho1, ho2, ho3⟩ := readOndex_ok hol hos3 hon
    simp only [Res.ok_bind]
    right; right
    refine ⟨{ code := hard, raw := [], index := index, ondex := ondex }, z, ⟨hz, hi1, ho2⟩, ho1, by omega, ?_, ?_⟩
    · exact head_of_slices hz hhd.symm (by rw [← hit, hi2]) (by rw [← hot, ho3]) []
    · have := fs_eq (x := { code := hard, raw := [], index := index, ondex := ondex }) (z := z) hz .validation .validation
      simp only at this
      rw [this]; rfl

theorem exfilBody_congr {x : Indexer} {z : ISizage} {s : Str} (raw : List UInt8) :
    exfilBody { x with raw := raw } z s = exfilBody x z s := rfl

/-- What an accepted body says. -/
theorem exfilBody_ok {x y : Indexer} {z : ISizage} {s : Str} (hz : sizage x.code = .ok z) (h : exfilBody x z s = .ok y) :
    ∃ paw, y = { x with raw := paw.drop ((z.hs + z.ss) % 4) } ∧ total x z ≤ s.length ∧
      b64DecodeOpt (List.replicate ((z.hs + z.ss) % 4) (ch 'A') ++ (s.take (total x z)).drop (z.hs + z.ss)) = some paw ∧
      (z.hs + z.ss) % 4 + z.ls ≤ paw.length ∧
      ((z.hs + z.ss) % 4 ≠ 0 → beNat (paw.take ((z.hs + z.ss) % 4)) % 4 ^ ((z.hs + z.ss) % 4) = 0) ∧
      ((z.hs + z.ss) % 4 = 0 → beNat (paw.take z.ls) = 0) := by
  have r := row_of_sizage hz
  have hpl := r.pOrL
  unfold exfilBody at h
  split at h
  · cases h
  rename_i hlen
  rw [Res.bind_eq_ok] at h
  obtain ⟨trim, htrim, h⟩ := h
  obtain ⟨_, _, htrim⟩ := sliceStr_ok htrim
  rw [List.drop_zero] at htrim
  rw [Res.bind_eq_ok] at h
  obtain ⟨mat, hmat, h⟩ := h
  obtain ⟨_, _, hmat⟩ := sliceStr_ok hmat
  rw [List.take_length] at hmat
  split at h
  · rename_i hp
    rw [Res.bind_eq_ok] at h
    obtain ⟨paw, hpaw, h⟩ := h
    rw [Res.bind_eq_ok] at h
    obtain ⟨pad, hpad, h⟩ := h
    obtain ⟨_, hpl, hpad⟩ := slice_ok hpad
    rw [List.drop_zero] at hpad
    split at h
    · cases h
    rename_i hzero
    rw [Res.bind_eq_ok] at h
    obtain ⟨raw, hraw, h⟩ := h
    obtain ⟨_, _, hraw⟩ := slice_ok hraw
    rw [List.take_length] at hraw
    injection h with h
    refine ⟨paw, by rw [← h, hraw], by omega, ?_, by omega, ?_, fun h0 => absurd h0 hp⟩
    · rw [← htrim, ← hmat]; exact b64Decode_ok hpaw
    · intro _
      rw [Nat.pow_mul, hpad] at hzero
      simpa [hp] using hzero
  · rename_i hp
    have hp : (z.hs + z.ss) % 4 = 0 := by omega
    rw [Res.bind_eq_ok] at h
    obtain ⟨paw, hpaw, h⟩ := h
    rw [Res.bind_eq_ok] at h
    obtain ⟨lead, hlead, h⟩ := h
    obtain ⟨_, hll, hlead⟩ := slice_ok hlead
    rw [List.drop_zero] at hlead
    split at h
    · split at h <;> cases h
    rename_i hzero
    rw [Res.bind_eq_ok] at h
    obtain ⟨raw, hraw, h⟩ := h
    obtain ⟨_, _, hraw⟩ := slice_ok hraw
    rw [List.take_length] at hraw
    injection h with h
    refine ⟨paw, by rw [← h, hraw], by omega, ?_, by omega, fun h0 => absurd hp h0, ?_⟩
    · rw [hp, ← htrim, ← hmat]; exact b64Decode_ok hpaw
    · intro _; rw [← hlead]; omega

theorem total_congr {x : Indexer} {z : ISizage} (raw : List UInt8) : total { x with raw := raw } z = total x z := rfl
theorem headD_congr {x : Indexer} {z : ISizage} (raw : List UInt8) : headD { x with raw := raw } z = headD x z := rfl

theorem total_ge {x : Indexer} {z : ISizage} (hz : sizage x.code = .ok z) : z.hs + z.ss ≤ total x z ∧ total x z % 4 = 0 := by
  have r := row_of_sizage hz
  unfold total
  split
  · rename_i hf
    have := r.var hf
    omega
  · rename_i hf
    have := r.fix hf
    omega

/-- Accepted text without pad characters, for codes without lead bytes, is canonical. -/
theorem exfil_canonical {s : Str} {x : Indexer} (h : Indexer.exfil s = .ok x) :
    ∃ z, HeadOk x z ∧ Meant x.code z.os x.index x.ondex ∧ total x z ≤ s.length ∧
      s.take (z.hs + z.ss) = encD (headD x z) ∧
      (z.ls = 0 → (∀ c ∈ s.take (total x z), c ≠ ch '=') → Wf x z ∧ s.take (total x z) = text x z) := by
  rcases exfil_cases s with ⟨e, he⟩ | ⟨i, _, _, hp⟩ | ⟨y, z, hw, hm, hcs, hhead, heq⟩
  · rw [he] at h; cases h
  · rw [hp] at h; cases h
  rw [heq] at h
  obtain ⟨paw, hx, hT, hdec, hpl, hpz, hlz⟩ := exfilBody_ok hw.szg h
  have r := row_of_sizage hw.szg
  refine ⟨z, ?_, ?_, ?_, ?_, ?_⟩
  · rw [hx]; exact ⟨hw.szg, hw.index, hw.ondex⟩
  · rw [hx]; exact hm
  · rw [hx]; exact hT
  · rw [hx]; exact hhead
  intro hls hnp
  have hTe : total x z = total y z := by rw [hx]; rfl
  rw [hTe] at hnp ⊢
  have htg := total_ge hw.szg
  obtain ⟨p3, hpaw, hmat, hml⟩ := body_canonical (ls := z.ls) r.p2 (.inr hls)
    (fun c hc => hnp c (List.mem_of_mem_drop hc)) hdec hpl hpz hlz
  rw [List.length_drop, List.length_take, Nat.min_eq_left hT] at hml
  have hrl : x.raw.length = paw.length - (z.hs + z.ss) % 4 := by rw [hx]; simp
  have w : Wf x z := by
    refine ⟨by rw [hx]; exact ⟨hw.szg, hw.index, hw.ondex⟩, hls, ?_, ?_⟩
    · intro hf
      have hv := r.var hf
      rw [← hTe, total, if_pos hf] at hml
      omega
    · intro hf
      obtain ⟨a, b, c, d⟩ := r.fix hf
      rw [← hTe, total, if_neg hf] at hml
      omega
  refine ⟨w, ?_⟩
  rw [text_split w.szg]
  conv => lhs; rw [← List.take_append_drop (z.hs + z.ss) (s.take (total y z))]
  rw [List.take_take, Nat.min_eq_left htg.1, hhead, hmat]
  have : paw = List.replicate ((z.hs + z.ss) % 4 + 0) 0 ++ x.raw := by
    rw [hx]; simp only
    conv => lhs; rw [hpaw]
    rw [hls]; rfl
  rw [← this]
  congr 1
  rw [hx]; rfl

/-- Truncated text is refused. -/
theorem Wf.exfil_truncated {x : Indexer} {z : ISizage} (w : Wf x z) (c : Meant x.code z.os x.index x.ondex) {k : Nat}
    (hk : k < total x z) :
    Indexer.exfil ((text x z).take k) = .err (if k = 0 then .emptyMaterial else .shortage) := by
  have r := row_of_sizage w.szg
  have hos := r.os
  have htl := w.text_length
  have hta := ascii_take w.text_ascii k
  have hts := text_split w.szg
  have hhl := headD_length w.szg
  by_cases h0 : k = 0
  · subst h0; rfl
  rw [if_neg h0]
  by_cases hcs : z.hs + z.ss ≤ k
  · have hsplit : (text x z).take k = encD (headD x z) ++ ((text x z).take k).drop (z.hs + z.ss) := by
      conv => lhs; rw [← List.take_append_drop (z.hs + z.ss) ((text x z).take k)]
      rw [List.take_take, Nat.min_eq_left hcs]
      congr 1
      rw [hts, List.take_append_of_le_length (by simp [hhl]), List.take_of_length_le (by simp [hhl])]
    have e := exfil_head w.toHeadOk c (rest := ((text x z).take k).drop (z.hs + z.ss))
      (utf8Valid_ascii (ascii_drop hta _))
    rw [← hsplit] at e
    rw [e, exfilBody, if_pos (by rw [List.length_take]; omega)]
  · obtain ⟨t1, _, _⟩ := head_slices w.szg
    obtain ⟨c0, t, hc, hhard, _⟩ := r.hard
    generalize hq : (text x z).take k = q at hta ⊢
    have hql : q.length = k := by rw [← hq, List.length_take]; omega
    obtain ⟨q', hq'⟩ : ∃ q', q = c0 :: q' := by
      cases k with
      | zero => exact absurd rfl h0
      | succ k => rw [← hq, hts, encD_headD w.szg, hc]; exact ⟨_, rfl⟩
    have hq'' := hq'
    unfold Indexer.exfil
    rw [hq']
    simp only
    rw [← hq'', hhard, Res.ok_bind]
    by_cases hh : q.length < z.hs
    · rw [if_pos hh]
    · rw [if_neg hh, sliceStr_ascii hta (Nat.zero_le _) (by omega), Res.ok_bind, List.drop_zero]
      have : q.take z.hs = x.code := by
        rw [← hq, List.take_take, Nat.min_eq_left (by omega), hts, List.take_append_of_le_length (by simp; omega), t1]
      rw [this, w.szg, Res.ok_bind, if_pos (by omega)]

/-- Length of decoded text, up to the two bytes that padding can save. -/
theorem decode_length_ge : ∀ {s : Str} {v : List UInt8}, b64DecodeOpt s = some v → s.length * 3 ≤ v.length * 4 + 8 := by
  intro s v h
  have := decode_canonical h
  rw [← this]
  clear this h
  induction v using b64Encode.induct with
  | case1 => simp [b64Encode]
  | case2 a => simp [b64Encode]
  | case3 a b => simp [b64Encode]
  | case4 a b c rest ih => simp only [b64Encode, List.length_cons]; omega

/-- Parsing panics only where a multi-byte character straddles a field boundary. -/
theorem exfil_panic {s : Str} (h : Indexer.exfil s = .panic) : ∃ i ≤ s.length, isBoundary s i = false := by
  rcases exfil_cases s with ⟨e, he⟩ | ⟨i, h1, h2, _⟩ | ⟨x, z, hw, hm, hcs, hhead, heq⟩
  · rw [he] at h; cases h
  · exact ⟨i, h1, h2⟩
  rw [heq] at h
  have r := row_of_sizage hw.szg
  have hp2 := r.p2
  have hls1 := r.ls1
  have htg := total_ge hw.szg
  unfold exfilBody at h
  split at h
  · cases h
  rename_i hlen
  rw [Res.bind_eq_panic] at h
  rcases h with h | ⟨trim, htrim, h⟩
  · rcases sliceStr_panic h (Nat.zero_le _) (by omega) with h | h
    · rw [isBoundary_zero] at h; cases h
    · exact ⟨_, by omega, h⟩
  obtain ⟨_, _, htrim⟩ := sliceStr_ok htrim
  rw [List.drop_zero] at htrim
  have htl : trim.length = total x z := by rw [htrim, List.length_take]; omega
  rw [Res.bind_eq_panic] at h
  rcases h with h | ⟨mat, hmat, h⟩
  · rcases sliceStr_panic h (by omega) (Nat.le_refl _) with h | h
    · refine ⟨z.hs + z.ss, by omega, ?_⟩
      unfold isBoundary at h ⊢
      by_cases he : z.hs + z.ss = total x z
      · rw [htrim] at h
        rw [List.getElem?_eq_none (by rw [List.length_take]; omega)] at h
        simp only [beq_eq_false_iff_ne, List.length_take] at h
        omega
      · rw [htrim, List.getElem?_take_of_lt (by omega)] at h
        split
        · rename_i b hb; rw [hb] at h; simpa using h
        · rename_i hb
          have := List.getElem?_eq_none_iff.mp hb
          omega
    · unfold isBoundary at h
      rw [List.getElem?_eq_none (Nat.le_refl _)] at h
      simp at h
  obtain ⟨_, _, hmat⟩ := sliceStr_ok hmat
  rw [List.take_length] at hmat
  have hml : mat.length = total x z - (z.hs + z.ss) := by rw [hmat, List.length_drop, htl]
  exfalso
  -- enough decoded bytes for the pad and lead slices
  have hbytes : ∀ paw, b64DecodeOpt (List.replicate ((z.hs + z.ss) % 4) (ch 'A') ++ mat) = some paw →
      (z.hs + z.ss) % 4 ≤ paw.length ∧ z.ls ≤ paw.length := by
    intro paw hpaw
    have := decode_length_ge hpaw
    rw [List.length_append, List.length_replicate, hml] at this
    unfold total at this
    split at this
    · rename_i hf
      obtain ⟨a, b, c, d⟩ := r.var hf
      omega
    · rename_i hf
      obtain ⟨a, b, c, d⟩ := r.fix hf
      omega
  split at h
  · rw [Res.bind_eq_panic] at h
    rcases h with h | ⟨paw, hpaw, h⟩
    · exact b64Decode_ne_panic _ h
    have hb := hbytes paw (b64Decode_ok hpaw)
    rw [slice_eq (Nat.zero_le _) hb.1, Res.ok_bind] at h
    split at h
    · cases h
    rw [slice_to_end hb.1, Res.ok_bind] at h
    cases h
  · rename_i hp
    have hp : (z.hs + z.ss) % 4 = 0 := by omega
    rw [Res.bind_eq_panic] at h
    rcases h with h | ⟨paw, hpaw, h⟩
    · exact b64Decode_ne_panic _ h
    have hb := hbytes paw (by rw [hp]; exact b64Decode_ok hpaw)
    rw [slice_eq (Nat.zero_le _) hb.2, Res.ok_bind] at h
    split at h
    · split at h <;> cases h
    rw [slice_to_end hb.1, Res.ok_bind] at h
    cases h

end Indexer
end Cesride
