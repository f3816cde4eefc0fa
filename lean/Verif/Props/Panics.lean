import Verif.Props.Wire

/-! # C12 for all text: exactly when reading a primitive panics -/

namespace Cesride
open Matter

theorem midChar_iff {s : Str} {k : Nat} (hk : k ≤ s.length) (h0 : 0 < k) : isBoundary s k = false ↔ Spec.MidChar s k := by
  unfold isBoundary Spec.MidChar
  cases h : s[k]? with
  | none =>
    have := List.getElem?_eq_none_iff.mp h
    simp; omega
  | some b =>
    have : (k == 0) = false := by simp; omega
    simp only [this, Bool.false_or, isCont, Bool.not_eq_false', beq_iff_eq, Option.some.injEq, exists_eq_left']
    omega

theorem hardage_codeLength (c : UInt8) (n : Nat) : hardage c = .ok n ↔ Spec.codeLength c = some n := by
  unfold hardage Spec.codeLength
  have e1 : lit "0456" = [ch '0', ch '4', ch '5', ch '6'] := by rfl
  have e2 : lit "123789" = [ch '1', ch '2', ch '3', ch '7', ch '8', ch '9'] := by rfl
  simp only [e1, e2, List.mem_cons, List.not_mem_nil, or_false]
  split
  · simp
  split
  · simp
  split
  · simp
  split
  · simp
  split <;> simp

theorem sliceStr_if {s : Str} {a b : Nat} (hab : a ≤ b) (hb : b ≤ s.length) (ha : isBoundary s a = true) :
    sliceStr s a b = if isBoundary s b = true then .ok ((s.take b).drop a) else .panic := by
  unfold sliceStr
  by_cases h : isBoundary s b = true
  · rw [if_pos ⟨hab, hb, ha, h⟩, if_pos h]
  · rw [if_neg (fun x => h x.2.2.2), if_neg h]

theorem isBoundary_take {s : Str} {k n : Nat} (hk : k ≤ n) (hn : n ≤ s.length) (h : isBoundary s k = true) : isBoundary (s.take n) k = true := by
  unfold isBoundary at h ⊢
  by_cases hlt : k < n
  · rw [List.getElem?_take, if_pos hlt]
    cases hs : s[k]? with
    | none => have := List.getElem?_eq_none_iff.mp hs; omega
    | some b => rw [hs] at h; exact h
  · have : k = n := by omega
    rw [List.getElem?_take, if_neg hlt]
    simp; omega

namespace Matter

/-- The cut points, in terms of the table. -/
def Cut (s : Str) (k : Nat) : Prop :=
  (∃ c rest, s = c :: rest ∧ hardage c = .ok k) ∨
  (∃ z, sizage (s.take z.hs) = .ok z ∧ z.hs ≤ s.length ∧ z.fs = u32Max ∧ k = z.hs + z.ss) ∨
  (∃ z size, sizage (s.take z.hs) = .ok z ∧ z.hs + z.ss ≤ s.length ∧
    (z.fs = u32Max → b64ToU32 ((s.take (z.hs + z.ss)).drop z.hs) = .ok size) ∧ k = if z.fs = u32Max then size * 4 + (z.hs + z.ss) else z.fs)

theorem exfil_panic_all {s : Str} (h : Matter.exfil s = .panic) :
    ZeroLead s ∨ ShortLead s ∨ ∃ k ≤ s.length, isBoundary s k = false ∧ Cut s k := by
  unfold Matter.exfil at h
  cases s with
  | nil => simp at h
  | cons c s' =>
    simp only at h
    generalize hs' : c :: s' = s at h
    rw [Res.bind_eq_panic] at h
    rcases h with h | ⟨hsz, hhard, h⟩
    · exact absurd h (hardage_ne_panic _)
    have hle := hardage_le hhard
    split at h
    · cases h
    rename_i hlen
    rw [sliceStr_if (Nat.zero_le _) (by omega) (isBoundary_zero _)] at h
    by_cases hb1 : isBoundary s hsz = true
    case neg => exact .inr (.inr ⟨hsz, by omega, by simpa using hb1, .inl ⟨c, s', hs'.symm, hhard⟩⟩)
    rw [if_pos hb1, Res.ok_bind, Res.bind_eq_panic] at h
    rcases h with h | ⟨z, hz, h⟩
    · exact absurd h (sizage_ne_panic _)
    have r := row_of_sizage hz
    simp only [List.drop_zero] at hz
    have hhs : hsz = z.hs := by
      have := r.len
      simp at this; omega
    subst hhs
    have hpls := r.pls
    by_cases hb2 : z.fs = u32Max → z.hs + z.ss ≤ s.length → isBoundary s (z.hs + z.ss) = true
    case neg =>
      have hb2' : z.fs = u32Max ∧ z.hs + z.ss ≤ s.length ∧ isBoundary s (z.hs + z.ss) = false := by
        refine ⟨?_, ?_, ?_⟩
        · exact Classical.byContradiction fun hn => hb2 fun hf => absurd hf hn
        · exact Classical.byContradiction fun hn => hb2 fun _ hf => absurd hf hn
        · cases hb : isBoundary s (z.hs + z.ss)
          · rfl
          · exact absurd (fun _ _ => hb) hb2
      exact .inr (.inr ⟨_, hb2'.2.1, hb2'.2.2, .inr (.inl ⟨z, hz, by omega, hb2'.1, rfl⟩)⟩)
    rw [Res.bind_eq_panic] at h
    rcases h with h | ⟨⟨fs, size⟩, hsel, h⟩
    · exfalso
      split at h
      · rename_i hf
        split at h
        · cases h
        split at h
        · cases h
        rw [sliceStr_if (by omega) (by omega) hb1, if_pos (hb2 hf (by omega)), Res.ok_bind, Res.bind_eq_panic] at h
        rcases h with h | ⟨_, _, h⟩
        · exact b64ToUint_ne_panic _ _ _ h
        · cases h
      · cases h
    simp only at h
    split at h
    · cases h
    rename_i hfl
    have hfs : (z.fs = u32Max → fs = size * 4 + (z.hs + z.ss) ∧
          b64ToU32 ((s.take (z.hs + z.ss)).drop z.hs) = .ok size ∧ z.hs + z.ss ≤ s.length) ∧
        (z.fs ≠ u32Max → fs = z.fs) := by
      split at hsel
      · rename_i hf
        split at hsel
        · cases hsel
        split at hsel
        · cases hsel
        rw [sliceStr_if (by omega) (by omega) hb1, if_pos (hb2 hf (by omega)), Res.ok_bind, Res.bind_eq_ok] at hsel
        obtain ⟨sz, hsz, hsel⟩ := hsel
        injection hsel with hsel
        injection hsel with e1 e2
        subst e2
        exact ⟨fun _ => ⟨e1.symm, hsz, by omega⟩, fun h => absurd hf h⟩
      · rename_i hf
        injection hsel with hsel
        injection hsel with e1 e2
        exact ⟨fun h => absurd h hf, fun _ => e1.symm⟩
    have hcsfs : z.hs + z.ss ≤ fs := by
      by_cases hf : z.fs = u32Max
      · have := (hfs.1 hf).1; omega
      · obtain ⟨a, b, c, _⟩ := r.fix hf
        have := hfs.2 hf
        omega
    rw [sliceStr_if (Nat.zero_le _) (by omega) (isBoundary_zero _)] at h
    by_cases hb3 : isBoundary s fs = true
    case neg =>
      refine .inr (.inr ⟨fs, by omega, by simpa using hb3, .inr (.inr ⟨z, size, hz, by omega, fun hf => (hfs.1 hf).2.1, ?_⟩)⟩)
      by_cases hf : z.fs = u32Max
      · rw [if_pos hf]; exact (hfs.1 hf).1
      · rw [if_neg hf]; exact hfs.2 hf
    rw [if_pos hb3, Res.ok_bind] at h
    simp only [List.drop_zero] at h
    have hT : (s.take fs).length = fs := by rw [List.length_take]; omega
    have hbcs : isBoundary s (z.hs + z.ss) = true := by
      by_cases hf : z.fs = u32Max
      · exact hb2 hf (by omega)
      · rw [(r.fix hf).1, Nat.add_zero]; exact hb1
    rw [sliceStr_if (by omega) (Nat.le_refl _) (isBoundary_take hcsfs (by omega) hbcs), if_pos (by simp [isBoundary]), List.take_length,
      Res.ok_bind] at h
    -- decoded material has full length
    have hdec : ∀ k paw, b64Decode (List.replicate k (ch 'A') ++ (s.take fs).drop (z.hs + z.ss)) = .ok paw →
        (paw.length + 2) / 3 * 4 = k + (fs - (z.hs + z.ss)) := by
      intro k paw hp
      have := congrArg List.length (decode_canonical (b64Decode_ok hp))
      rw [b64Encode_length] at this
      simp only [List.length_append, List.length_replicate, List.length_drop, hT] at this
      exact this
    split at h
    · rename_i hp
      exfalso
      rw [Res.bind_eq_panic] at h
      rcases h with h | ⟨paw, hpaw, h⟩
      · exact b64Decode_ne_panic _ h
      have h4 := hdec _ paw hpaw
      have hpl : (z.hs + z.ss) % 4 ≤ paw.length := by
        by_cases hf : z.fs = u32Max
        · have := r.var hf; omega
        · obtain ⟨a, b, c, d, _⟩ := r.fix hf
          have := hfs.2 hf
          have := table_two _ (sizage_mem hz) hf
          simp only at this
          omega
      rw [slice_eq (Nat.zero_le _) hpl, Res.ok_bind] at h
      split at h
      · cases h
      rw [slice_to_end hpl, Res.ok_bind] at h
      cases h
    · rename_i hp
      rw [Res.bind_eq_panic] at h
      rcases h with h | ⟨paw, hpaw, h⟩
      · exact absurd h (b64Decode_ne_panic _)
      have h4 := hdec 0 paw (by simpa using hpaw)
      by_cases hll : z.ls ≤ paw.length
      · exfalso
        rw [slice_eq (Nat.zero_le _) hll, Res.ok_bind] at h
        split at h
        · split at h <;> cases h
        rw [slice_to_end hll, Res.ok_bind] at h
        cases h
      · have hsoft : z.fs = u32Max → ((s.take (z.hs + z.ss)).drop z.hs) = encD (digitsB 64 z.ss size) := by
          intro hf
          obtain ⟨h1, h2, h5⟩ := hfs.1 hf
          have hlen2 : ((s.take (z.hs + z.ss)).drop z.hs).length = z.ss := by simp; omega
          obtain ⟨d, hd, he⟩ := exists_encD (b64ToUint_ok_isB64 h2)
          have hdl : d.length = z.ss := by rw [← hlen2, ← he]; simp
          rw [← he] at h2 ⊢
          rw [b64ToU32_encD hd (by have := r.ss4; omega)] at h2
          have hv : valB 64 d = size := by injection h2
          rw [← hv, ← hdl, digitsB_valB hd]
        by_cases hz0 : paw.length = 0
        · left
          by_cases hf : z.fs = u32Max
          · obtain ⟨h1, h2, h5⟩ := hfs.1 hf
            have hs0 : size = 0 := by omega
            subst hs0
            refine ⟨z, hz, hf, by omega, h5, ?_⟩
            rw [hsoft hf, digitsB_zero, encD_replicate]
          · exfalso
            obtain ⟨a, b, c, d, e, f⟩ := r.fix hf
            have := hfs.2 hf
            omega
        · right; left
          have hls := r.ls
          have hl2 : z.ls = 2 := by omega
          have hp1 : paw.length = 1 := by omega
          have hcs4 : fs = z.hs + z.ss + 4 := by omega
          refine ⟨z, paw, hz, hl2, by omega, ?_, ?_, hp1⟩
          · intro hf
            have := (hfs.1 hf).1
            rw [hsoft hf, show size = 1 by omega]
          · rw [← hcs4]
            exact b64Decode_ok hpaw

/-- A character across any cut point panics. -/
theorem exfil_cut {s : Str} {k : Nat} (hk : k ≤ s.length) (hb : isBoundary s k = false) (hc : Cut s k) : Matter.exfil s = .panic := by
  have start : ∀ {c rest hs}, s = c :: rest → hardage c = .ok hs → hs ≤ s.length → Matter.exfil s = (do
      let hard ← (if isBoundary s hs = true then .ok (s.take hs) else .panic : Res Str)
      let szg ← sizage hard
      let cs := szg.hs + szg.ss
      let (fs, size) ←
        (if szg.fs = u32Max then
          if cs % 4 ≠ 0 then .err .invalidCodeSize
          else if s.length < cs then .err .shortage
          else do
            let soft ← sliceStr s szg.hs cs
            let size ← b64ToU32 soft
            .ok (size * 4 + cs, size)
        else .ok (szg.fs, 0) : Res (Nat × Nat))
      if s.length < fs then .err .shortage
      else do
        let trim ← sliceStr s 0 fs
        let ps := cs % 4
        let pbs := 2 * (if ps ≠ 0 then ps else szg.ls)
        let material ← sliceStr trim cs trim.length
        if ps ≠ 0 then do
          let paw ← b64Decode (List.replicate ps (ch 'A') ++ material)
          let pad ← slice paw 0 ps
          if beNat pad % 2 ^ pbs ≠ 0 then .err .prepad
          else do
            let raw ← slice paw ps paw.length
            .ok { code := hard, size := size, raw := raw }
        else do
          let paw ← b64Decode material
          let lead ← slice paw 0 szg.ls
          if beNat lead ≠ 0 then
            if szg.ls = 1 then .err .nonZeroedLeadByte else .err .nonZeroedLeadBytes
          else do
            let raw ← slice paw szg.ls paw.length
            .ok { code := hard, size := size, raw := raw }) := by
    intro c rest hs he hh hl
    rw [he] at hl ⊢
    unfold Matter.exfil
    simp only [hh, Res.ok_bind]
    rw [if_neg (by omega), sliceStr_if (Nat.zero_le _) hl (isBoundary_zero _), List.drop_zero]
  rcases hc with ⟨c, rest, he, hh⟩ | ⟨z, hz, hle, hf, rfl⟩ | ⟨z, size, hz, hle, hsz, rfl⟩
  · rw [start he hh hk, if_neg (by simp [hb]), Res.panic_bind]
  · have r := row_of_sizage hz
    obtain ⟨c, t, he, hh, _⟩ := r.hard
    obtain ⟨rest, hrest⟩ : ∃ rest, s = c :: rest := by
      cases s with
      | nil => simp at he
      | cons a b =>
        have := r.hs1
        obtain ⟨n, hn⟩ : ∃ n, z.hs = n + 1 := ⟨z.hs - 1, by omega⟩
        rw [hn, List.take_succ_cons] at he
        exact ⟨b, by rw [(List.cons.inj he).1]⟩
    rw [start hrest hh hle]
    by_cases hb1 : isBoundary s z.hs = true
    case neg => rw [if_neg hb1, Res.panic_bind]
    rw [if_pos hb1, Res.ok_bind, hz, Res.ok_bind]
    simp only
    rw [if_pos hf, if_neg (by simp [(r.var hf).1]), if_neg (by omega), sliceStr_if (by omega) hk hb1, if_neg (by simp [hb]), Res.panic_bind,
      Res.panic_bind]
  · have r := row_of_sizage hz
    obtain ⟨c, t, he, hh, _⟩ := r.hard
    obtain ⟨rest, hrest⟩ : ∃ rest, s = c :: rest := by
      cases s with
      | nil => simp at he
      | cons a b =>
        have := r.hs1
        obtain ⟨n, hn⟩ : ∃ n, z.hs = n + 1 := ⟨z.hs - 1, by omega⟩
        rw [hn, List.take_succ_cons] at he
        exact ⟨b, by rw [(List.cons.inj he).1]⟩
    rw [start hrest hh (by omega)]
    by_cases hb1 : isBoundary s z.hs = true
    case neg => rw [if_neg hb1, Res.panic_bind]
    rw [if_pos hb1, Res.ok_bind, hz, Res.ok_bind]
    simp only
    by_cases hf : z.fs = u32Max
    · rw [if_pos hf] at hk hb
      rw [if_pos hf, if_neg (by simp [(r.var hf).1]), if_neg (by omega), sliceStr_if (by omega) hle hb1]
      by_cases hb2 : isBoundary s (z.hs + z.ss) = true
      case neg => rw [if_neg hb2, Res.panic_bind, Res.panic_bind]
      rw [if_pos hb2, Res.ok_bind, hsz hf, Res.ok_bind, Res.ok_bind]
      simp only
      rw [if_neg (by omega), sliceStr_if (Nat.zero_le _) hk (isBoundary_zero _), if_neg (by simp [hb]), Res.panic_bind]
    · rw [if_neg hf] at hk hb
      rw [if_neg hf, Res.ok_bind]
      simp only
      rw [if_neg (by omega), sliceStr_if (Nat.zero_le _) hk (isBoundary_zero _), if_neg (by simp [hb]), Res.panic_bind]

end Matter

theorem isWire_length {head t : Str} {raw : List UInt8} (h : Spec.IsWire head raw t) : t.length = Spec.wireLength head.length raw.length := by
  obtain ⟨_, h4, a, ha, e⟩ := h
  have e1 := congrArg List.length e
  simp only [List.length_append, List.length_replicate, textBits_length', bytesBits_length'] at e1
  unfold Spec.wireLength
  omega

namespace Matter

theorem cut_iff {s : Str} {k : Nat} (hk : k ≤ s.length) : Cut s k ↔ Spec.CutPoint s k := by
  constructor
  · rintro (⟨c, rest, he, hh⟩ | ⟨z, hz, hle, hf, rfl⟩ | ⟨z, size, hz, hle, hsz, rfl⟩)
    · exact .inl ⟨c, rest, he, (hardage_codeLength c k).mp hh⟩
    · right; left
      rcases sizage_spec hz with ⟨_, l, f, h1, h2, h3⟩ | ⟨hc, _⟩
      · refine ⟨l, z.ls, f, h1, h2, by rw [← h3]; exact List.take_prefix _ _, ?_⟩
        have e := hz
        rw [h3, varCode_sizage l h1 h2] at e
        injection e with e
        rw [← e]; cases l <;> rfl
      · exact absurd hf hc
    · have r := row_of_sizage hz
      have key : ∀ sz n, Wf { code := s.take z.hs, size := sz, raw := List.replicate n 0 } z →
          (s.take (z.hs + z.ss)).drop z.hs = encD (digitsB 64 z.ss sz) →
          ∃ code size head n, Spec.IsHead code size head ∧ Spec.RawSize code size n ∧ head <+: s ∧
            total { code := s.take z.hs, size := sz, raw := List.replicate n 0 } z = Spec.wireLength head.length n := by
        intro sz n w hso
        obtain ⟨h1, h2, h3⟩ := w.wire
        refine ⟨_, _, _, n, h1, by simpa using h3, ?_, ?_⟩
        · rw [← hso]
          have := List.take_append_drop z.hs (s.take (z.hs + z.ss))
          rw [List.take_take, Nat.min_eq_left (by omega)] at this
          simp only
          rw [this]
          exact List.take_prefix _ _
        · have := isWire_length h2
          rw [w.text_length] at this
          simpa using this
      by_cases hf : z.fs = u32Max
      · have hso : (s.take (z.hs + z.ss)).drop z.hs = encD (digitsB 64 z.ss size) ∧ size < 64 ^ z.ss := by
          have h2 := hsz hf
          have hlen2 : ((s.take (z.hs + z.ss)).drop z.hs).length = z.ss := by simp; omega
          obtain ⟨d, hd, he⟩ := exists_encD (b64ToUint_ok_isB64 h2)
          have hdl : d.length = z.ss := by rw [← hlen2, ← he]; simp
          rw [← he] at h2 ⊢
          rw [b64ToU32_encD hd (by have := r.ss4; omega)] at h2
          have hv : valB 64 d = size := by injection h2
          refine ⟨by rw [← hv, ← hdl, digitsB_valB hd], ?_⟩
          rw [← hv, ← hdl]; exact valB_lt hd
        by_cases h0 : z.ls ≤ 3 * size
        · obtain ⟨c, sz, hd, n, a1, a2, a3, a4⟩ := key size (3 * size - z.ls)
            ⟨hz, fun _ => ⟨hso.2, by simp; omega⟩, fun h => absurd hf h⟩ hso.1
          refine .inr (.inr ⟨c, sz, hd, n, a1, a2, a3, ?_⟩)
          rw [← a4, total]
        · have hls := r.ls
          have hs0 : size = 0 := by omega
          subst hs0
          right; left
          rcases sizage_spec hz with ⟨_, l, f, h1, h2, h3⟩ | ⟨hc, _⟩
          · refine ⟨l, z.ls, f, h1, h2, by rw [← h3]; exact List.take_prefix _ _, ?_⟩
            have e := hz
            rw [h3, varCode_sizage l h1 h2] at e
            injection e with e
            rw [if_pos hf, ← e]; cases l <;> rfl
          · exact absurd hf hc
      · obtain ⟨c, sz, hd, n, a1, a2, a3, a4⟩ := key 0 ((z.fs - (z.hs + z.ss)) * 3 / 4 - z.ls)
            ⟨hz, fun h => absurd h hf, fun _ => ⟨rfl, by simp⟩⟩ (by rw [(r.fix hf).1]; simp [digitsB, encD])
        refine .inr (.inr ⟨c, sz, hd, n, a1, a2, a3, ?_⟩)
        rw [← a4, total, if_neg hf, if_neg hf]
  · rintro (⟨c, rest, he, hh⟩ | ⟨l, lead, f, h1, h2, h3, rfl⟩ | ⟨code, size, head, n, hh, hr, hp, rfl⟩)
    · exact .inl ⟨c, rest, he, (hardage_codeLength c k).mpr hh⟩
    · right; left
      have hz := varCode_sizage l h1 h2
      have r := row_of_sizage hz
      have hpre := List.prefix_iff_eq_take.mp h3
      have hlen := r.len
      refine ⟨{ hs := if l then 4 else 2, ss := if l then 4 else 2, fs := u32Max, ls := lead }, ?_, ?_, rfl, ?_⟩
      · simp only at hlen ⊢
        rw [show s.take (if l then 4 else 2) = Spec.varCode l lead f by rw [← hlen]; exact hpre.symm]
        exact hz
      · have := h3.length_le
        simp only at hlen ⊢
        omega
      · cases l <;> rfl
    · right; right
      obtain ⟨z, w, rfl⟩ := wf_of_spec (raw := List.replicate n 0) hh (by simpa using hr)
      have hz : sizage code = .ok z := w.szg
      have r := row_of_sizage hz
      obtain ⟨g1, g2, g3⟩ := w.wire
      have hlen := isWire_length g2
      rw [w.text_length] at hlen
      simp only [List.length_replicate] at hlen
      have hpre := List.prefix_iff_eq_take.mp hp
      have hpl := hp.length_le
      rw [List.length_append, encD_length, digitsB_length, r.len] at hpre hpl
      have htake : s.take z.hs = code := by
        have := congrArg (List.take z.hs) hpre
        rw [List.take_take, Nat.min_eq_left (by omega), List.take_append_of_le_length (by rw [r.len]; exact Nat.le_refl _),
          List.take_of_length_le (by rw [r.len]; exact Nat.le_refl _)] at this
        exact this.symm
      refine ⟨z, size, by rw [htake]; exact hz, by omega, fun hf => ?_, ?_⟩
      · rw [← hpre, List.drop_append_of_le_length (by rw [r.len]; exact Nat.le_refl _), List.drop_eq_nil_of_le (by rw [r.len]; exact Nat.le_refl _),
          List.nil_append, b64ToU32_encD (digitsB_lt (by decide) _ _) (by have := r.ss4; simp; omega), valB_digitsB, Nat.mod_eq_of_lt (w.var hf).1]
      · rw [← hlen, total]

end Matter

theorem Matter.cut_pos {s : Str} {k : Nat} (h : Matter.Cut s k) : 0 < k := by
  rcases h with ⟨c, rest, he, hh⟩ | ⟨z, hz, hle, hf, rfl⟩ | ⟨z, size, hz, hle, hsz, rfl⟩
  · have := hardage_le hh; omega
  · have := (row_of_sizage hz).hs1; omega
  · have := (row_of_sizage hz).hs1
    split
    · omega
    · rename_i hf
      have := (row_of_sizage hz).fix hf; omega

theorem zeroLeadHead_ascii (large : Bool) {lead : Nat} {f : UInt8} (hl : lead ≤ 2) (hf : f = ch 'A' ∨ f = ch 'B') : Ascii (ZeroLeadHead large lead f) := by
  have : lead = 0 ∨ lead = 1 ∨ lead = 2 := by omega
  unfold Ascii
  cases large <;> rcases hf with rfl | rfl <;> rcases this with rfl | rfl | rfl <;> decide +kernel

/-- C12 (text, all of it). Reading UTF-8 text as a primitive panics exactly when the text starts with a head that promises lead bytes and
no or too little material (as for ASCII), or when a multi-byte character lies across one of the offsets at which the text is cut. -/
theorem C12_all_text_panics_exactly (E : Env) {s : Str} (hv : utf8Valid s = true) :
    Matter.ofText E s = .panic ↔
      (∃ large lead f rest, (lead = 1 ∨ lead = 2) ∧ (f = ch 'A' ∨ f = ch 'B') ∧ s = ZeroLeadHead large lead f ++ rest) ∨
      (∃ head ∈ OneQuadHeads, ∃ x y rest, s = head ++ [x, y, ch '=', ch '='] ++ rest ∧ x ∈ Spec.alphabet ∧
        y ∈ [ch 'A', ch 'Q', ch 'g', ch 'w']) ∨
      (∃ k, Spec.CutPoint s k ∧ Spec.MidChar s k) := by
  constructor
  · intro h
    rcases exfil_panic_all h with ⟨z, hz, hf, hl, hcs, hA⟩ | ⟨z, v, hz, hl, hcs, hsoft, hdec, hv⟩ | ⟨k, hk, hb, hc⟩
    · left
      rcases sizage_spec hz with ⟨_, l, f, h1, h2, h3⟩ | ⟨hc, _⟩
      · exact ⟨l, z.ls, f, _, by omega, h2, zeroLeadHead_split h1 h2 hz h3 hA⟩
      · exact absurd hf hc
    · right; left
      have hquad : ∃ x y, (s.take (z.hs + z.ss + 4)).drop (z.hs + z.ss) = [x, y, ch '=', ch '='] ∧ x ∈ Spec.alphabet ∧
          y ∈ [ch 'A', ch 'Q', ch 'g', ch 'w'] := by
        have hc := decode_canonical hdec
        match v, hv with
        | [a], _ =>
          simp only [b64Encode] at hc
          refine ⟨_, _, hc.symm, ?_, ?_⟩
          · rw [mem_alphabet]
            exact sextetChar_isB64 _ (Nat.mod_lt _ (by decide))
          · have hlt := a.toNat_lt
            have h4 : a.toNat * 65536 / 4096 % 64 = a.toNat % 4 * 16 := by omega
            rw [h4]
            have : a.toNat % 4 < 4 := Nat.mod_lt _ (by decide)
            match a.toNat % 4, this with
            | 0, _ => decide
            | 1, _ => decide
            | 2, _ => decide
            | 3, _ => decide
      obtain ⟨x, y, hq, hx, hy⟩ := hquad
      have hhead : s.take (z.hs + z.ss) ∈ OneQuadHeads := by
        have e : s.take (z.hs + z.ss) = s.take z.hs ++ (s.take (z.hs + z.ss)).drop z.hs := by
          have := List.take_append_drop z.hs (s.take (z.hs + z.ss))
          rw [List.take_take, Nat.min_eq_left (by omega)] at this
          exact this.symm
        rw [e]
        rcases sizage_spec hz with ⟨hf, l, f, h1, h2, h3⟩ | ⟨hf, hm⟩
        · rw [hsoft hf, h3]
          have e2 := hz
          rw [h3, varCode_sizage l h1 h2] at e2
          injection e2 with e2
          have hss : z.ss = if l then 4 else 2 := by rw [← e2]
          rw [hss, hl]
          rcases h2 with rfl | rfl <;> cases l <;> decide
        · have : z.ss = 0 := ((row_of_sizage hz).fix hf).1
          rw [this, Nat.add_zero, List.drop_eq_nil_of_le (by simp; omega), List.append_nil]
          have key : ∀ e ∈ sizes, e.2.fs ≠ u32Max → e.2.ls = 2 → e.1 ∈ OneQuadHeads := by decide +kernel
          exact key _ (sizage_mem hz) hf hl
      refine ⟨_, hhead, x, y, s.drop (z.hs + z.ss + 4), ?_, hx, hy⟩
      rw [← hq]
      have := List.take_append_drop (z.hs + z.ss) (s.take (z.hs + z.ss + 4))
      rw [List.take_take, Nat.min_eq_left (by omega)] at this
      rw [this, List.take_append_drop]
    · right; right
      have hc' := (cut_iff hk).mp hc
      exact ⟨k, hc', (midChar_iff hk (cut_pos hc)).mp hb⟩
  · rintro (⟨large, lead, f, rest, hl, hf, rfl⟩ | ⟨head, hh, x, y, rest, rfl, hx, hy⟩ | ⟨k, hc, hm⟩)
    · have hz := varCode_sizage large (show lead ≤ 2 by omega) hf
      have hr : utf8Valid rest = true := by rwa [utf8Valid_ascii_append (zeroLeadHead_ascii large (by omega) hf)] at hv
      have := exfil_zeroLead hz rfl (by simp; omega) hr
      exact this
    · have hbody : Ascii [x, y, ch '=', ch '='] := by
        intro c hc
        simp only [List.mem_cons, List.not_mem_nil, or_false] at hc
        rcases hc with rfl | rfl | rfl | rfl
        · exact isB64_lt128 _ ((mem_alphabet _).mp hx)
        · simp only [List.mem_cons, List.not_mem_nil, or_false] at hy
          rcases hy with rfl | rfl | rfl | rfl <;> decide
        · decide
        · decide
      have hhead : Ascii head := by
        have : ∀ h ∈ OneQuadHeads, ∀ c ∈ h, c < 128 := by decide +kernel
        exact this head hh
      have hr : utf8Valid rest = true := by
        rwa [utf8Valid_ascii_append (ascii_append hhead hbody)] at hv
      obtain ⟨i, hi⟩ : ∃ i, sextetVal x = some i := by
        have := (mem_alphabet x).mp hx
        rcases charIndex_spec x with ⟨_, i, _, h, _⟩ | ⟨h, _⟩
        · exact ⟨i, by simp [sextetVal, h]⟩
        · rw [h] at this; cases this
      have hdec : ∃ v, b64Decode [x, y, ch '=', ch '='] = .ok [v] := by
        have hy' : ∃ j, sextetVal y = some j ∧ j % 16 = 0 := by
          simp only [List.mem_cons, List.not_mem_nil, or_false] at hy
          rcases hy with rfl | rfl | rfl | rfl
          · exact ⟨0, by rfl, by rfl⟩
          · exact ⟨16, by rfl, by rfl⟩
          · exact ⟨32, by rfl, by rfl⟩
          · exact ⟨48, by rfl, by rfl⟩
        obtain ⟨j, hj, hj0⟩ := hy'
        refine ⟨UInt8.ofNat (i * 4 + j / 16), ?_⟩
        simp [b64Decode, b64DecodeOpt, decodeLastQuad, hi, hj, hj0]
      obtain ⟨v, hv⟩ := hdec
      have go : ∀ {code z size}, sizage code = .ok z → size < 64 ^ z.ss → z.ls = 2 → (z.hs + z.ss) % 4 = 0 →
          (z.hs + z.ss + 4 = if z.fs = u32Max then size * 4 + (z.hs + z.ss) else z.fs) →
          head = code ++ encD (digitsB 64 z.ss size) → Matter.exfil (head ++ [x, y, ch '=', ch '='] ++ rest) = .panic := by
        intro code z size hz hs hl h4 hfs he
        rw [he, exfil_head hz hs hbody hr (by simpa using hfs)]
        simp [h4, hv, hl, slice]
      simp only [OneQuadHeads, List.mem_cons, List.not_mem_nil, or_false] at hh
      show Matter.exfil _ = _
      rcases hh with rfl | rfl | rfl | rfl | rfl
      · exact go (code := lit "3AAA") (z := { hs := 4, ss := 0, fs := 8, ls := 2 }) (size := 0) (by rfl) (by decide) rfl (by decide) (by decide) (by rfl)
      · exact go (code := lit "6A") (z := { hs := 2, ss := 2, fs := u32Max, ls := 2 }) (size := 1) (by rfl) (by decide) rfl (by decide) (by decide) (by rfl)
      · exact go (code := lit "6B") (z := { hs := 2, ss := 2, fs := u32Max, ls := 2 }) (size := 1) (by rfl) (by decide) rfl (by decide) (by decide) (by rfl)
      · exact go (code := lit "9AAA") (z := { hs := 4, ss := 4, fs := u32Max, ls := 2 }) (size := 1) (by rfl) (by decide) rfl (by decide) (by decide) (by rfl)
      · exact go (code := lit "9AAB") (z := { hs := 4, ss := 4, fs := u32Max, ls := 2 }) (size := 1) (by rfl) (by decide) rfl (by decide) (by decide) (by rfl)
    · have hk : k ≤ s.length := by
        obtain ⟨b, hb, _⟩ := hm
        have := (List.getElem?_eq_some_iff.mp hb).1
        omega
      have hcut := (cut_iff hk).mpr hc
      exact exfil_cut hk ((midChar_iff hk (cut_pos hcut)).mpr hm) hcut

/-- C12 (bytes). Reading text given as bytes is reading the text, after a check that it is UTF-8. -/
theorem C12_bytes (E : Env) (b : List UInt8) : Matter.ofTextBytes E b = if utf8Valid b then Matter.ofText E b else .err .utf8 := by
  show (do let q ← fromUtf8 b; Matter.exfil q) = _
  unfold fromUtf8
  split
  · rfl
  · rfl

/-- Non-vacuity: `M` announces four characters; here the fourth is the first byte of a two byte character (accepted as far as the
cut is concerned), there the cut is inside it. -/
example : utf8Valid (lit "MAA" ++ [0xC3, 0xA9]) = true ∧ Spec.MidChar (lit "MAA" ++ [0xC3, 0xA9]) 4 ∧
    Spec.CutPoint (lit "MAA" ++ [0xC3, 0xA9]) 4 :=
  ⟨by decide +kernel, ⟨0xA9, by decide +kernel, by decide, by decide⟩,
    .inr (.inr ⟨lit "M", 0, lit "M", 2, .inl ⟨2, by decide +kernel, rfl, rfl⟩, .inl (by decide +kernel), ⟨lit "AA" ++ [0xC3, 0xA9], by decide +kernel⟩, by decide⟩)⟩
example : Matter.ofText Env.debug (lit "MAA" ++ [0xC3, 0xA9]) = .panic := by decide +kernel
example : Matter.ofText Env.debug (lit "MAAA" ++ [0xC3, 0xA9]) = .ok { code := lit "M", size := 0, raw := [0, 0] } := by decide +kernel

end Cesride
