import Verif.Lemmas.Matter5

/-! # Matter: evaluation of the text parser on a known head; conversion to the specification's code list -/

namespace Cesride

theorem utf8Valid_ascii_append {a b : Str} (h : Ascii a) : utf8Valid (a ++ b) = utf8Valid b := by
  induction a with
  | nil => rfl
  | cons x xs ih =>
    have hx : x < 128 := h x (by simp)
    have e : ∀ r : Str, utf8Valid (x :: r) = utf8Valid r := by
      intro r
      conv => lhs; unfold utf8Valid
      simp only [hx, if_true]
    rw [List.cons_append, e]
    exact ih (fun c hc => h c (by simp [hc]))

theorem utf8Valid_ascii {a : Str} (h : Ascii a) : utf8Valid a = true := by
  have := utf8Valid_ascii_append (b := []) h
  simpa [utf8Valid] using this

namespace Matter

theorem exfil_head {code : Str} {z : Sizage} (hz : sizage code = .ok z) {size : Nat} (hsv : size < 64 ^ z.ss)
    {body rest : Str} (hb : Ascii body) (hr : utf8Valid rest = true)
    (hbl : z.hs + z.ss + body.length = if z.fs = u32Max then size * 4 + (z.hs + z.ss) else z.fs) :
    Matter.exfil (code ++ encD (digitsB 64 z.ss size) ++ body ++ rest) =
      (if (z.hs + z.ss) % 4 ≠ 0 then do
          let paw ← b64Decode (List.replicate ((z.hs + z.ss) % 4) (ch 'A') ++ body)
          let pad ← slice paw 0 ((z.hs + z.ss) % 4)
          if beNat pad % 2 ^ (2 * ((z.hs + z.ss) % 4)) ≠ 0 then .err .prepad
          else do
            let raw ← slice paw ((z.hs + z.ss) % 4) paw.length
            .ok { code := code, size := if z.fs = u32Max then size else 0, raw := raw }
        else do
          let paw ← b64Decode body
          let lead ← slice paw 0 z.ls
          if beNat lead ≠ 0 then
            if z.ls = 1 then .err .nonZeroedLeadByte else .err .nonZeroedLeadBytes
          else do
            let raw ← slice paw z.ls paw.length
            .ok { code := code, size := if z.fs = u32Max then size else 0, raw := raw }) := by
  have r := row_of_sizage hz
  have hcl := r.len
  have hss := r.ss4
  obtain ⟨c, t, hc, hhard, _⟩ := r.hard
  have hda : Ascii (encD (digitsB 64 z.ss size)) := ascii_encD (digitsB_lt (by decide) _ _)
  generalize hq : code ++ encD (digitsB 64 z.ss size) ++ body = q
  have hqa : Ascii q := by
    rw [← hq]
    exact ascii_append (ascii_append (ascii_of_isB64 r.b64) hda) hb
  have hql : q.length = z.hs + z.ss + body.length := by rw [← hq]; simp [hcl]; omega
  obtain ⟨q', hq'⟩ : ∃ q', q ++ rest = c :: q' := by rw [← hq, hc]; exact ⟨_, rfl⟩
  unfold Matter.exfil
  rw [hq']
  simp only
  rw [← hq', hhard, Res.ok_bind, if_neg (by simp; omega), sliceStr_prefix hqa hr (Nat.zero_le _) (by omega), Res.ok_bind]
  have h1 : (q.take z.hs).drop 0 = code := by rw [← hq, ← hcl]; simp
  rw [h1, hz, Res.ok_bind]
  have htot : (sliceStr (q ++ rest) 0 (z.hs + z.ss + body.length)) = .ok q := by
    rw [sliceStr_prefix hqa hr (Nat.zero_le _) (by omega), ← hql]; simp
  have hmat : sliceStr q (z.hs + z.ss) q.length = .ok body := by
    rw [sliceStr_ascii_to_end hqa (by omega), ← hq]
    rw [List.drop_append_of_le_length (by simp; omega), List.drop_eq_nil_of_le (by simp; omega)]; simp
  by_cases hf : z.fs = u32Max
  · have hv := r.var hf
    simp only [hf, if_true] at hbl ⊢
    rw [if_neg (by omega), if_neg (by simp; omega), sliceStr_prefix hqa hr (by omega) (by omega), Res.ok_bind]
    have h2 : (q.take (z.hs + z.ss)).drop z.hs = encD (digitsB 64 z.ss size) := by
      rw [← hq, List.take_append_of_le_length (by simp; omega), List.take_of_length_le (by simp; omega), ← hcl]; simp
    rw [h2, b64ToU32_encD (digitsB_lt (by decide) _ _) (by simp; omega), valB_digitsB, Nat.mod_eq_of_lt hsv]
    simp only [Res.ok_bind]
    rw [if_neg (by simp; omega), ← hbl, htot, Res.ok_bind, hmat, Res.ok_bind]
    simp only [hv.1, ne_eq, not_true, if_false]
  · simp only [hf, if_false, Res.ok_bind] at hbl ⊢
    rw [if_neg (by simp; omega), ← hbl, htot, Res.ok_bind, hmat, Res.ok_bind]
    by_cases hp : (z.hs + z.ss) % 4 = 0
    · simp only [hp, ne_eq, not_true, if_false]
    · simp only [hp, ne_eq, not_false_iff, if_true]

/-! ## The specification's code list is the table -/

theorem varCode_sizage (large : Bool) {lead : Nat} {f : UInt8} (hl : lead ≤ 2) (hf : f = ch 'A' ∨ f = ch 'B') :
    sizage (Spec.varCode large lead f) =
      .ok { hs := if large then 4 else 2, ss := if large then 4 else 2, ls := lead, fs := u32Max } := by
  match lead, hl with
  | 0, _ => rcases hf with rfl | rfl <;> cases large <;> decide +kernel
  | 1, _ => rcases hf with rfl | rfl <;> cases large <;> decide +kernel
  | 2, _ => rcases hf with rfl | rfl <;> cases large <;> decide +kernel

theorem table_is_spec : ∀ e ∈ sizes,
    (e.2.fs = u32Max ∧ ∃ large ∈ [true, false], ∃ f ∈ [ch 'A', ch 'B'], e.2.ls ≤ 2 ∧ e.1 = Spec.varCode large e.2.ls f) ∨
    (e.2.fs ≠ u32Max ∧ (e.1, (e.2.fs - (e.2.hs + e.2.ss)) * 3 / 4 - e.2.ls) ∈ Spec.fixedCodes) := by decide +kernel

theorem spec_in_table : ∀ e ∈ Spec.fixedCodes, ∃ r ∈ sizes, r.1 = e.1 ∧ r.2.fs ≠ u32Max ∧
    e.2 = (r.2.fs - (r.2.hs + r.2.ss)) * 3 / 4 - r.2.ls := by decide +kernel

theorem fixed_sizage {code : Str} {n : Nat} (h : (code, n) ∈ Spec.fixedCodes) :
    ∃ z, sizage code = .ok z ∧ z.fs ≠ u32Max ∧ n = (z.fs - (z.hs + z.ss)) * 3 / 4 - z.ls := by
  obtain ⟨r, hr, h1, h2, h3⟩ := spec_in_table _ h
  simp only at h1 h3
  exact ⟨r.2, by rw [← h1]; exact sizage_of_mem r hr, h2, h3⟩

theorem sizage_spec {code : Str} {z : Sizage} (h : sizage code = .ok z) :
    (z.fs = u32Max ∧ ∃ large f, z.ls ≤ 2 ∧ (f = ch 'A' ∨ f = ch 'B') ∧ code = Spec.varCode large z.ls f) ∨
    (z.fs ≠ u32Max ∧ (code, (z.fs - (z.hs + z.ss)) * 3 / 4 - z.ls) ∈ Spec.fixedCodes) := by
  rcases table_is_spec _ (sizage_mem h) with ⟨h1, l, _, f, hf, h2, h3⟩ | h
  · left; exact ⟨h1, l, f, h2, by simpa using hf, h3⟩
  · right; exact h

theorem isCode_sizage {code : Str} (h : Spec.IsCode code) : ∃ z, sizage code = .ok z := by
  rcases h with ⟨n, h⟩ | ⟨l, lead, f, hl, hf, rfl⟩
  · obtain ⟨z, hz, _⟩ := fixed_sizage h; exact ⟨z, hz⟩
  · exact ⟨_, varCode_sizage l hl hf⟩

theorem sizage_isCode {code : Str} {z : Sizage} (h : sizage code = .ok z) : Spec.IsCode code := by
  rcases sizage_spec h with ⟨_, l, f, h1, h2, h3⟩ | ⟨_, h⟩
  · exact .inr ⟨l, z.ls, f, h1, h2, h3⟩
  · exact .inl ⟨_, h⟩

end Matter
end Cesride
