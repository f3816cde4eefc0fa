import Verif.Lemmas.Matter4
import Verif.Lemmas.Bits

/-! # Matter: injectivity of accepted text, construction for every raw length -/

namespace Cesride

theorem decodeLast_canonical {a b c d : UInt8} {v : List UInt8} (h : decodeLastQuad a b c d = some v) :
    b64Encode v = [a, b, c, d] := by
  unfold decodeLastQuad at h
  split at h
  · rename_i hd
    split at h
    · rename_i hc
      split at h
      · rename_i x y hx hy
        split at h
        · rename_i hz
          injection h with h
          subst h
          obtain ⟨hx1, hx2⟩ := sextetVal_some hx
          obtain ⟨hy1, hy2⟩ := sextetVal_some hy
          have hn : (UInt8.ofNat (x * 4 + y / 16)).toNat = x * 4 + y / 16 := by
            simp; omega
          simp only [b64Encode, hn]
          rw [hc, hd, show (x * 4 + y / 16) * 65536 / 262144 % 64 = x by omega,
            show (x * 4 + y / 16) * 65536 / 4096 % 64 = y by omega, hx2, hy2]
        · cases h
      · cases h
    · split at h
      · rename_i x y w hx hy hw
        split at h
        · rename_i hz
          injection h with h
          subst h
          obtain ⟨hx1, hx2⟩ := sextetVal_some hx
          obtain ⟨hy1, hy2⟩ := sextetVal_some hy
          obtain ⟨hw1, hw2⟩ := sextetVal_some hw
          have hn : (UInt8.ofNat (x * 4 + y / 16)).toNat = x * 4 + y / 16 := by
            simp; omega
          have hm : (UInt8.ofNat (y * 16 + w / 4)).toNat = y % 16 * 16 + w / 4 := by
            simp; omega
          simp only [b64Encode, hn, hm]
          rw [hd, show ((x * 4 + y / 16) * 65536 + (y % 16 * 16 + w / 4) * 256) / 262144 % 64 = x by omega,
            show ((x * 4 + y / 16) * 65536 + (y % 16 * 16 + w / 4) * 256) / 4096 % 64 = y by omega,
            show ((x * 4 + y / 16) * 65536 + (y % 16 * 16 + w / 4) * 256) / 64 % 64 = w by omega, hx2, hy2, hw2]
        · cases h
      · cases h
  · obtain ⟨h3, he⟩ := decodeQuad_some h
    rw [b64Encode_eq (by omega), he]

/-- The decoder accepts canonical texts only. -/
theorem decode_canonical : ∀ {s : Str} {v : List UInt8}, b64DecodeOpt s = some v → b64Encode v = s
  | [], v, h => by simp only [b64DecodeOpt, Option.some.injEq] at h; subst h; rfl
  | [_], _, h => by simp [b64DecodeOpt] at h
  | [_, _], _, h => by simp [b64DecodeOpt] at h
  | [_, _, _], _, h => by simp [b64DecodeOpt] at h
  | [a, b, c, d], v, h => by
    rw [decode_last] at h
    exact decodeLast_canonical h
  | a :: b :: c :: d :: u :: w, v, h => by
    rw [decode_cons] at h
    split at h
    · rename_i x y hx hy
      injection h with h
      subst h
      have ih := decode_canonical hy
      obtain ⟨h3, he⟩ := decodeQuad_some hx
      match x, h3 with
      | [p, q, r], _ =>
        rw [List.cons_append, List.cons_append, List.cons_append, List.nil_append]
        rw [← b64Encode_eq (by simp)] at he
        simp only [b64Encode] at he ⊢
        rw [ih]
        injection he with e1 he
        injection he with e2 he
        injection he with e3 he
        injection he with e4 he
        rw [e1, e2, e3, e4]
    · cases h

theorem b64Decode_inj {s t : Str} {v : List UInt8} (hs : b64DecodeOpt s = some v) (ht : b64DecodeOpt t = some v) : s = t := by
  rw [← decode_canonical hs, ← decode_canonical ht]

/-- Leading characters of an encoding are the leading sextets, as long as they lie within the data. -/
theorem b64Encode_take (v : List UInt8) {k : Nat} (hk : (k + 1) * 3 / 4 ≤ v.length) :
    (b64Encode v).take k = encD ((sext v).take k) := by
  induction v using b64Encode.induct generalizing k with
  | case1 =>
    have : k = 0 := by simp at hk; omega
    subst this; rfl
  | case2 a =>
    have hk1 : k ≤ 1 := by simp at hk; omega
    have ha := a.toNat_lt
    match k, hk1 with
    | 0, _ => rfl
    | 1, _ =>
      simp [b64Encode, sext, sextets, encD]
  | case3 a b =>
    have hk1 : k ≤ 2 := by simp at hk; omega
    match k, hk1 with
    | 0, _ => rfl
    | 1, _ => simp [b64Encode, sext, sextets, encD]
    | 2, _ => simp [b64Encode, sext, sextets, encD]
  | case4 a b c rest ih =>
    have e : sext (a :: b :: c :: rest) = sextets [a, b, c] ++ sext rest := by
      unfold sext
      rw [List.cons_append, List.cons_append, List.cons_append, sextets_cons3]
      congr 4
      simp; omega
    rw [e]
    by_cases h4 : k ≤ 4
    · match k, h4 with
      | 0, _ => rfl
      | 1, _ => simp [b64Encode, sextets, encD]
      | 2, _ => simp [b64Encode, sextets, encD]
      | 3, _ => simp [b64Encode, sextets, encD]
      | 4, _ => simp [b64Encode, sextets, encD]
    · obtain ⟨j, rfl⟩ : ∃ j, k = j + 4 := ⟨k - 4, by omega⟩
      have := ih (k := j) (by simp at hk; omega)
      simp [b64Encode, sextets, encD] at this ⊢
      exact this

namespace Matter

/-- Accepted text is determined by the parsed object, padding characters included. -/
theorem exfil_inj {s t : Str} {m : Matter} {n : Nat} (hs : Matter.exfil s = .ok m) (ht : Matter.exfil t = .ok m)
    (hn : m.fullSize = .ok n) : s.take n = t.take n := by
  obtain ⟨z, p, hz, hc, hv, _, hT, hd, hpz, hlz, hpl, hr⟩ := exfil_ok hs
  obtain ⟨z', p', hz', hc', hv', _, hT', hd', hpz', hlz', hpl', hr'⟩ := exfil_ok ht
  have hzz : z = z' := by rw [hz] at hz'; injection hz'
  subst hzz
  have row := row_of_sizage hz
  have hnT : n = total m z := by
    simp only [Matter.fullSize, hz, Res.ok_bind] at hn
    unfold total
    by_cases hf : z.fs = u32Max
    · simp only [hf, ne_eq, not_true, if_false, if_true] at hn ⊢
      injection hn with hn; omega
    · simp only [hf, ne_eq, not_false_iff, if_false, if_true] at hn ⊢
      injection hn with hn; omega
  subst hnT
  have hcsT : z.hs + z.ss ≤ total m z := by
    unfold total
    by_cases hf : z.fs = u32Max
    · rw [if_pos hf]; omega
    · rw [if_neg hf]; have := row.fix hf; omega
  -- the leading bytes are zero
  have lead : ∀ {q : List UInt8} {x : Str}, b64DecodeOpt (List.replicate ((z.hs + z.ss) % 4) (ch 'A') ++ x) = some q →
      ((z.hs + z.ss) % 4 ≠ 0 → beNat (q.take ((z.hs + z.ss) % 4)) % 4 ^ ((z.hs + z.ss) % 4) = 0) →
      ((z.hs + z.ss) % 4 = 0 → beNat (q.take z.ls) = 0) →
      (z.hs + z.ss) % 4 + z.ls ≤ q.length →
      q = List.replicate ((z.hs + z.ss) % 4 + z.ls) 0 ++ q.drop ((z.hs + z.ss) % 4 + z.ls) := by
    intro q x hq h1 h2 h3
    have : q.take ((z.hs + z.ss) % 4 + z.ls) = List.replicate ((z.hs + z.ss) % 4 + z.ls) 0 := by
      by_cases hp : (z.hs + z.ss) % 4 = 0
      · have := beNat_zero_replicate (h2 hp)
        rw [List.length_take, Nat.min_eq_left (by omega)] at this
        simpa [hp] using this
      · have hl0 : z.ls = 0 := by rcases row.pOrL with h | h; exact absurd h hp; exact h
        have hp2 : (z.hs + z.ss) % 4 ≤ 2 := by have := row.pls; omega
        have hpe : ((z.hs + z.ss) % 4 + 1) * 3 / 4 = (z.hs + z.ss) % 4 := by omega
        have e1 := decode_canonical hq
        have e2 := b64Encode_take q (k := (z.hs + z.ss) % 4) (by omega)
        rw [e1, List.take_append_of_le_length (by simp), List.take_of_length_le (by simp), ← encD_replicate] at e2
        have e3 := encD_inj (by intro y hy; have := List.eq_of_mem_replicate hy; omega)
          (fun y hy => sext_lt _ y (List.mem_of_mem_take hy)) e2
        have e4 := valB_sext_take q (len := (z.hs + z.ss) % 4) (by omega)
        rw [← e3, valB_replicate_zero, hpe, Nat.mod_eq_of_lt (show (z.hs + z.ss) % 4 < 4 by omega)] at e4
        have e5 := h1 hp
        have e6 : beNat (q.take ((z.hs + z.ss) % 4)) = 0 := by
          have := Nat.div_add_mod (beNat (q.take ((z.hs + z.ss) % 4))) (4 ^ ((z.hs + z.ss) % 4))
          rw [← e4, e5] at this
          simpa using this.symm
        have := beNat_zero_replicate e6
        rw [List.length_take, Nat.min_eq_left (by omega)] at this
        simpa [hl0] using this
    rw [← this, List.take_append_drop]
  have hp1 := lead hd hpz hlz hpl
  have hp2 := lead hd' hpz' hlz' hpl'
  have hpp : p = p' := by rw [hp1, hp2, ← hr, ← hr']
  subst hpp
  have hmat := List.append_cancel_left (b64Decode_inj hd hd')
  -- the soft part
  have hhead : s.take (z.hs + z.ss) = t.take (z.hs + z.ss) := by
    have e1 : ∀ x : Str, x.take (z.hs + z.ss) = x.take z.hs ++ (x.take (z.hs + z.ss)).drop z.hs := by
      intro x
      have := List.take_append_drop z.hs (x.take (z.hs + z.ss))
      rw [List.take_take, Nat.min_eq_left (by omega)] at this
      exact this.symm
    rw [e1 s, e1 t, ← hc, ← hc']
    congr 1
    by_cases hf : z.fs = u32Max
    · have h1 := hv hf
      have h2 := hv' hf
      obtain ⟨d, hd1, hd2⟩ := exists_encD (b64ToUint_ok_isB64 h1)
      obtain ⟨d', hd1', hd2'⟩ := exists_encD (b64ToUint_ok_isB64 h2)
      have hl : d.length = z.ss := by
        have := congrArg List.length hd2
        simp at this; omega
      have hl' : d'.length = z.ss := by
        have := congrArg List.length hd2'
        simp at this; omega
      have hss := row.ss4
      rw [← hd2, b64ToU32_encD hd1 (by omega)] at h1
      rw [← hd2', b64ToU32_encD hd1' (by omega)] at h2
      rw [← hd2, ← hd2']
      congr 1
      apply valB_inj hd1 hd1' (by omega)
      injection h1 with h1
      injection h2 with h2
      omega
    · have := (row.fix hf).1
      rw [this]
      rw [List.drop_eq_nil_of_le (by simp; omega), List.drop_eq_nil_of_le (by simp; omega)]
  have e : ∀ x : Str, x.take (total m z) = x.take (z.hs + z.ss) ++ (x.take (total m z)).drop (z.hs + z.ss) := by
    intro x
    have := List.take_append_drop (z.hs + z.ss) (x.take (total m z))
    rw [List.take_take, Nat.min_eq_left hcsT] at this
    exact this.symm
  rw [e s, e t, hhead, hmat]

theorem table_two : ∀ e ∈ sizes, e.2.fs ≠ u32Max → (e.2.hs + e.2.ss) % 4 = 2 → e.2.hs + e.2.ss + 4 < e.2.fs := by decide +kernel

/-- Text whose code promises two lead bytes but whose only material group decodes to one byte. -/
def ShortLead (s : Str) : Prop :=
  ∃ z v, sizage (s.take z.hs) = .ok z ∧ z.ls = 2 ∧ z.hs + z.ss + 4 ≤ s.length ∧
    (z.fs = u32Max → (s.take (z.hs + z.ss)).drop z.hs = encD (digitsB 64 z.ss 1)) ∧
    b64DecodeOpt ((s.take (z.hs + z.ss + 4)).drop (z.hs + z.ss)) = some v ∧ v.length = 1

theorem exfil_panic_cases {s : Str} (ha : Ascii s) (h : Matter.exfil s = .panic) : ZeroLead s ∨ ShortLead s := by
  unfold Matter.exfil at h
  cases s with
  | nil => simp at h
  | cons c s' =>
    simp only at h
    generalize hs' : c :: s' = s at h ha
    rw [Res.bind_eq_panic] at h
    rcases h with h | ⟨hsz, hhard, h⟩
    · exact absurd h (hardage_ne_panic _)
    have hle := hardage_le hhard
    split at h
    · cases h
    rename_i hlen
    rw [sliceStr_ascii ha (Nat.zero_le _) (by omega), Res.ok_bind, Res.bind_eq_panic] at h
    rcases h with h | ⟨z, hz, h⟩
    · exact absurd h (sizage_ne_panic _)
    have r := row_of_sizage hz
    simp only [List.drop_zero] at hz
    have hhs : hsz = z.hs := by
      have := r.len
      simp at this; omega
    subst hhs
    have hpls := r.pls
    rw [Res.bind_eq_panic] at h
    rcases h with h | ⟨⟨fs, size⟩, hsel, h⟩
    · exfalso
      split at h
      · rename_i hf
        split at h
        · cases h
        split at h
        · cases h
        rw [sliceStr_ascii ha (by omega) (by omega), Res.ok_bind, Res.bind_eq_panic] at h
        rcases h with h | ⟨_, _, h⟩
        · exact b64ToUint_ne_panic _ _ _ h
        · cases h
      · cases h
    simp only at h
    split at h
    · cases h
    rename_i hfl
    rw [sliceStr_ascii ha (Nat.zero_le _) (by omega), Res.ok_bind] at h
    simp only [List.drop_zero] at h
    have hT : (s.take fs).length = fs := by rw [List.length_take]; omega
    -- the selection
    have hfs : (z.fs = u32Max → fs = size * 4 + (z.hs + z.ss) ∧
          b64ToU32 ((s.take (z.hs + z.ss)).drop z.hs) = .ok size ∧ z.hs + z.ss ≤ s.length) ∧
        (z.fs ≠ u32Max → fs = z.fs) := by
      split at hsel
      · rename_i hf
        split at hsel
        · cases hsel
        split at hsel
        · cases hsel
        rw [sliceStr_ascii ha (by omega) (by omega), Res.ok_bind, Res.bind_eq_ok] at hsel
        obtain ⟨sz, hsz, hsel⟩ := hsel
        injection hsel with hsel
        injection hsel with e1 e2
        subst e2
        exact ⟨fun _ => ⟨e1.symm, hsz, by omega⟩, fun h => absurd hf h⟩
      · rename_i hf
        injection hsel with hsel
        injection hsel with e1 e2
        exact ⟨fun h => absurd h hf, fun _ => e1.symm⟩
    have hcsfs : z.hs + z.ss ≤ fs := by
      by_cases hf : z.fs = u32Max
      · have := (hfs.1 hf).1; omega
      · obtain ⟨a, b, c, _⟩ := r.fix hf
        have := hfs.2 hf
        omega
    rw [sliceStr_ascii_to_end (ascii_take ha _) (by omega), Res.ok_bind] at h
    -- decoded material has full length
    have hdec : ∀ k paw, b64Decode (List.replicate k (ch 'A') ++ (s.take fs).drop (z.hs + z.ss)) = .ok paw →
        (paw.length + 2) / 3 * 4 = k + (fs - (z.hs + z.ss)) := by
      intro k paw hp
      have := congrArg List.length (decode_canonical (b64Decode_ok hp))
      rw [b64Encode_length] at this
      simp only [List.length_append, List.length_replicate, List.length_drop, hT] at this
      exact this
    split at h
    · rename_i hp
      exfalso
      rw [Res.bind_eq_panic] at h
      rcases h with h | ⟨paw, hpaw, h⟩
      · exact b64Decode_ne_panic _ h
      have h4 := hdec _ paw hpaw
      have hpl : (z.hs + z.ss) % 4 ≤ paw.length := by
        by_cases hf : z.fs = u32Max
        · have := r.var hf; omega
        · obtain ⟨a, b, c, d, _⟩ := r.fix hf
          have := hfs.2 hf
          have := table_two _ (sizage_mem hz) hf
          simp only at this
          omega
      rw [slice_eq (Nat.zero_le _) hpl, Res.ok_bind] at h
      split at h
      · cases h
      rw [slice_to_end hpl, Res.ok_bind] at h
      cases h
    · rename_i hp
      rw [Res.bind_eq_panic] at h
      rcases h with h | ⟨paw, hpaw, h⟩
      · exact absurd h (b64Decode_ne_panic _)
      have h4 := hdec 0 paw (by simpa using hpaw)
      by_cases hll : z.ls ≤ paw.length
      · exfalso
        rw [slice_eq (Nat.zero_le _) hll, Res.ok_bind] at h
        split at h
        · split at h <;> cases h
        rw [slice_to_end hll, Res.ok_bind] at h
        cases h
      · have hsoft : z.fs = u32Max → ((s.take (z.hs + z.ss)).drop z.hs) = encD (digitsB 64 z.ss size) := by
          intro hf
          obtain ⟨h1, h2, h5⟩ := hfs.1 hf
          have hlen2 : ((s.take (z.hs + z.ss)).drop z.hs).length = z.ss := by simp; omega
          obtain ⟨d, hd, he⟩ := exists_encD (b64ToUint_ok_isB64 h2)
          have hdl : d.length = z.ss := by rw [← hlen2, ← he]; simp
          rw [← he] at h2 ⊢
          rw [b64ToU32_encD hd (by have := r.ss4; omega)] at h2
          have hv : valB 64 d = size := by injection h2
          rw [← hv, ← hdl, digitsB_valB hd]
        by_cases hz0 : paw.length = 0
        · left
          by_cases hf : z.fs = u32Max
          · obtain ⟨h1, h2, h5⟩ := hfs.1 hf
            have hs0 : size = 0 := by omega
            subst hs0
            refine ⟨z, hz, hf, by omega, h5, ?_⟩
            rw [hsoft hf, digitsB_zero, encD_replicate]
          · exfalso
            obtain ⟨a, b, c, d, e, f⟩ := r.fix hf
            have := hfs.2 hf
            omega
        · right
          have hls := r.ls
          have hl2 : z.ls = 2 := by omega
          have hp1 : paw.length = 1 := by omega
          have hcs4 : fs = z.hs + z.ss + 4 := by omega
          refine ⟨z, paw, hz, hl2, by omega, ?_, ?_, hp1⟩
          · intro hf
            have := (hfs.1 hf).1
            rw [hsoft hf, show size = 1 by omega]
          · rw [← hcs4]
            exact b64Decode_ok hpaw

/-- Variable-size construction only looks at the length modulo `2^32`. -/
theorem new_var_trunc {code : Str} {z : Sizage} (hz : sizage code = .ok z) (hf : z.fs = u32Max) (raw : List UInt8) :
    newWithCodeAndRaw code raw = newWithCodeAndRaw code (raw.take (raw.length % 2 ^ 32)) := by
  have hrow := table_varRowOk _ (sizage_mem hz)
  simp only [varRowOk, hf, if_true] at hrow
  have hfirst : ∃ c t, code = c :: t ∧ (c ∈ smallVrzDex ∨ c ∈ largeVrzDex) := by
    split at hrow
    · rename_i c f
      simp only [Bool.and_eq_true, decide_eq_true_eq] at hrow
      exact ⟨c, _, rfl, .inl hrow.1.1.1⟩
    · rename_i c a b f
      simp only [Bool.and_eq_true, decide_eq_true_eq] at hrow
      exact ⟨c, _, rfl, .inr hrow.1.1.1.1.2⟩
    · cases hrow
  obtain ⟨c, t, rfl, hc⟩ := hfirst
  have hlen : (raw.take (raw.length % 2 ^ 32)).length = raw.length % 2 ^ 32 := by
    rw [List.length_take]; have := Nat.mod_le raw.length (2 ^ 32); omega
  have hsel : selectCode c (c :: t) raw.length = selectCode c (c :: t) (raw.length % 2 ^ 32) := by
    unfold selectCode
    simp only [hc, if_true, Nat.mod_mod]
  have hr : ∀ {x}, selectCode c (c :: t) (raw.length % 2 ^ 32) = .ok x → x.2.2 = raw.length % 2 ^ 32 := by
    intro x hx
    unfold selectCode at hx
    simp only [hc, if_true, Nat.mod_mod] at hx
    repeat' split at hx
    all_goals first
      | (rw [Res.bind_eq_ok] at hx; obtain ⟨_, _, hx⟩ := hx; injection hx with hx; rw [← hx])
      | cases hx
  unfold newWithCodeAndRaw
  simp only [hsel, hlen]
  cases hx : selectCode c (c :: t) (raw.length % 2 ^ 32) with
  | err e => rfl
  | panic => rfl
  | ok x =>
    have := hr hx
    obtain ⟨a, b, r⟩ := x
    simp only at this
    subst this
    simp only [Res.ok_bind, Nat.lt_irrefl, if_false, List.take_take, Nat.min_self]
    rw [if_neg]
    have := Nat.mod_le raw.length (2 ^ 32); omega

/-- Construction yields well-formed objects, for raw of any length. -/
theorem new_wf' {code : Str} {z : Sizage} (hz : sizage code = .ok z) {raw : List UInt8}
    {m : Matter} (h : newWithCodeAndRaw code raw = .ok m) : ∃ z', Wf m z' := by
  by_cases hf : z.fs = u32Max
  · rw [new_var_trunc hz hf] at h
    refine new_wf hz ?_ h
    rw [List.length_take]
    have := Nat.mod_lt raw.length (show 0 < 2 ^ 32 by decide)
    omega
  · rw [new_fixed hz hf] at h
    split at h
    · cases h
    · rename_i hlen
      injection h with h
      refine ⟨z, ?_, ?_, ?_⟩
      · rw [← h]; exact hz
      · intro hc; exact absurd hc hf
      · intro _; rw [← h]; refine ⟨rfl, ?_⟩
        simp only [List.length_take]
        omega

/-- Two well-formed objects with one text: the same object. -/
theorem text_inj {a b : Matter} {z y : Sizage} (wa : Wf a z) (wb : Wf b y) {r r' : Str} (hr : utf8Valid r = true)
    (hr' : utf8Valid r' = true) (h : text a z ++ r = text b y ++ r') : a = b := by
  have h1 := wa.exfil hr
  have h2 := wb.exfil hr'
  rw [h, h2] at h1
  injection h1 with h1
  exact h1.symm

theorem Wf.unique {m : Matter} {z y : Sizage} (a : Wf m z) (b : Wf m y) : z = y := by
  have h1 := a.szg
  rw [b.szg] at h1
  injection h1 with h1
  exact h1.symm

theorem Wf.fullSize {m : Matter} {z : Sizage} (w : Wf m z) : m.fullSize = .ok (total m z) := by
  simp only [Matter.fullSize, w.szg, Res.ok_bind]
  unfold total
  by_cases hf : z.fs = u32Max
  · simp only [hf, ne_eq, not_true, if_false, if_true]
    rw [Nat.add_comm]
  · simp only [hf, ne_eq, not_false_iff, if_false, if_true]

/-- Lead bytes requested without a quadlet: the binary parser panics, whatever follows. -/
theorem bexfil_zeroLead (E : Env) {b : List UInt8} {z : Sizage} (hz : sizage (encD ((sext b).take z.hs)) = .ok z)
    (hf : z.fs = u32Max) (hl : 0 < z.ls) (hb : (z.hs + z.ss + 1) * 3 / 4 ≤ b.length)
    (h0 : ((sext b).take (z.hs + z.ss)).drop z.hs = List.replicate z.ss 0) : Matter.bexfil E b = .panic := by
  have r := row_of_sizage hz
  obtain ⟨i, hi⟩ := exists_first (b := b)
  have hv := r.var hf
  have hhs1 := r.hs1
  have hcs := r.cs
  obtain ⟨c, t, hc, _, j, hj, hbar⟩ := r.hard
  have hij : i = j := by
    have e : encD ((sext b).take 1) = [c] := by
      have := congrArg (List.take 1) hc
      rw [← encD_take, List.take_take, Nat.min_eq_left hhs1] at this
      simpa using this
    rw [hi] at e
    obtain ⟨hj1, hj2⟩ := sextetVal_some hj
    have hi1 : i < 64 := sext_lt b i (List.mem_of_mem_take (by rw [hi]; simp))
    have := encD_inj (a := [i]) (b := [j]) (by simpa using hi1) (by simpa using hj1) (by rw [e]; simp [encD, hj2])
    simpa using this
  subst hij
  rw [bexfil_unfold, if_neg (by intro h; subst h; simp at hb; omega), hi]
  simp only
  rw [hbar, Res.ok_bind, if_neg (by omega), hz, Res.ok_bind, bfsel_eq hz]
  simp only [hf, if_true]
  rw [if_neg (by omega), Res.ok_bind, h0, valB_replicate_zero]
  have hbf : (0 * 4 + (z.hs + z.ss) + 1) * 3 / 4 = (z.hs + z.ss + 1) * 3 / 4 := by omega
  simp only [hbf]
  rw [if_neg (by omega), if_neg (by omega)]
  have htl : (b.take ((z.hs + z.ss + 1) * 3 / 4)).length = (z.hs + z.ss + 1) * 3 / 4 := by
    rw [List.length_take]; omega
  rw [List.drop_eq_nil_of_le (by rw [List.length_take, htl]; omega)]
  simp only [List.any_nil, Bool.false_eq_true, if_false]
  have hs : slice (b.take ((z.hs + z.ss + 1) * 3 / 4)) ((z.hs + z.ss + 1) * 3 / 4 + z.ls)
      (b.take ((z.hs + z.ss + 1) * 3 / 4)).length = .panic := by
    unfold slice
    rw [if_neg (by omega)]
  rw [hs, Res.panic_bind]

end Matter
end Cesride
