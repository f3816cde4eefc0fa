import Verif.Spec.Altered
import Verif.Props.Matter
import Verif.Props.Indexer

/-! # C84: objects whose fields were set by hand -/

namespace Cesride

theorem b64IndexToChar_ne_panic (i : Nat) : b64IndexToChar i ≠ .panic := by
  unfold b64IndexToChar
  repeat' split
  all_goals simp

theorem digitLoop_ne_panic : ∀ (fuel drop x : Nat) (out : Str), digitLoop fuel drop x out ≠ .panic
  | 0, _, _, _ => by simp [digitLoop]
  | fuel + 1, drop, x, out => by
    unfold digitLoop
    split
    · simp
    · cases drop with
      | zero =>
        intro h
        rcases Res.bind_eq_panic.mp h with h | ⟨c, _, h⟩
        · exact b64IndexToChar_ne_panic _ h
        · exact digitLoop_ne_panic _ _ _ _ h
      | succ d => exact digitLoop_ne_panic _ _ _ _

theorem uintToB64_ne_panic (E : Env) (n length : Nat) : uintToB64 E n length ≠ .panic := by
  unfold uintToB64
  split
  · simp
  · intro h
    rcases Res.bind_eq_panic.mp h with h | ⟨c, _, h⟩
    · exact digitLoop_ne_panic _ _ _ _ h
    · cases h

namespace Matter

/-- The lengths that a row of the table demands. -/
def Fits (m : Matter) (z : Sizage) : Prop :=
  (z.fs = u32Max → m.size < 64 ^ z.ss ∧ m.raw.length + z.ls = 3 * m.size) ∧
  (z.fs ≠ u32Max → m.raw.length = (z.fs - (z.hs + z.ss)) * 3 / 4 - z.ls)

/-- The same up to groups of three bytes. -/
def Aligned (m : Matter) (z : Sizage) : Prop :=
  (m.raw.length + (z.hs + z.ss) % 4 + z.ls) % 3 = 0 ∧ (z.fs = u32Max → m.size < 64 ^ z.ss)

theorem fixed_row {code : Str} {n : Nat} {z : Sizage} (hz : sizage code = .ok z) (h : (code, n) ∈ Spec.fixedCodes) :
    z.fs ≠ u32Max ∧ n = (z.fs - (z.hs + z.ss)) * 3 / 4 - z.ls := by
  obtain ⟨y, hy, hf, hn⟩ := fixed_sizage h
  rw [hz] at hy
  cases hy
  exact ⟨hf, hn⟩

theorem var_row {code : Str} {z : Sizage} (hz : sizage code = .ok z) {l : Bool} {lead : Nat} {f : UInt8} (h1 : lead ≤ 2) (h2 : f = ch 'A' ∨ f = ch 'B')
    (h3 : code = Spec.varCode l lead f) : z = { hs := if l then 4 else 2, ss := if l then 4 else 2, ls := lead, fs := u32Max } := by
  rw [h3, varCode_sizage l h1 h2] at hz
  injection hz with hz
  exact hz.symm

/-- Every row of the table is one of the specification. -/
theorem row_spec {code : Str} {z : Sizage} (hz : sizage code = .ok z) :
    (z.fs = u32Max ∧ ∃ l f, z.ls ≤ 2 ∧ (f = ch 'A' ∨ f = ch 'B') ∧ code = Spec.varCode l z.ls f ∧ z.ss = if l then 4 else 2) ∨
    (z.fs ≠ u32Max ∧ (code, (z.fs - (z.hs + z.ss)) * 3 / 4 - z.ls) ∈ Spec.fixedCodes) := by
  rcases sizage_isCode hz with ⟨n, h⟩ | ⟨l, lead, f, h1, h2, h3⟩
  · obtain ⟨a, b⟩ := fixed_row hz h
    exact .inr ⟨a, b ▸ h⟩
  · have := var_row hz h1 h2 h3
    subst this
    exact .inl ⟨rfl, l, f, h1, h2, h3, rfl⟩

theorem fits_iff {m : Matter} {z : Sizage} (hz : sizage m.code = .ok z) : Spec.RawFits m.code m.size m.raw.length ↔ Fits m z := by
  constructor
  · rintro (h | ⟨l, lead, f, h1, h2, h3, h4, h5⟩)
    · obtain ⟨a, b⟩ := fixed_row hz h
      exact ⟨fun hf => absurd hf a, fun _ => b⟩
    · have := var_row hz h1 h2 h3
      subst this
      exact ⟨fun _ => ⟨h4, h5⟩, fun hf => absurd rfl hf⟩
  · rintro ⟨hv, hf⟩
    rcases row_spec hz with ⟨a, l, f, h1, h2, h3, h4⟩ | ⟨a, h⟩
    · obtain ⟨b, c⟩ := hv a
      exact .inr ⟨l, z.ls, f, h1, h2, h3, h4 ▸ b, c⟩
    · exact .inl (hf a ▸ h)

theorem fits_aligned {m : Matter} {z : Sizage} (hz : sizage m.code = .ok z) (h : Fits m z) : Aligned m z := by
  have r := row_of_sizage hz
  refine ⟨?_, fun hf => (h.1 hf).1⟩
  by_cases hf : z.fs = u32Max
  · have := r.var hf
    have := h.1 hf
    omega
  · obtain ⟨a, b, c, d, e, f⟩ := r.fix hf
    have := h.2 hf
    rw [a] at this ⊢
    simp only [Nat.add_zero] at this ⊢
    omega

theorem aligned_iff {m : Matter} {z : Sizage} (hz : sizage m.code = .ok z) : Spec.RawAligned m.code m.size m.raw.length ↔ Aligned m z := by
  have r := row_of_sizage hz
  constructor
  · rintro (⟨n, h, hn⟩ | ⟨l, lead, f, h1, h2, h3, h4, h5⟩)
    · obtain ⟨a, b⟩ := fixed_row hz h
      obtain ⟨a', b', c, d, e, f⟩ := r.fix a
      rw [a'] at b
      simp only [Nat.add_zero] at b
      refine ⟨?_, fun hf => absurd hf a⟩
      rw [a']
      omega
    · have := var_row hz h1 h2 h3
      subst this
      refine ⟨?_, fun _ => h4⟩
      have := (r.var rfl).1
      rw [this]
      exact h5
  · rintro ⟨ha, hv⟩
    rcases row_spec hz with ⟨a, l, f, h1, h2, h3, h4⟩ | ⟨a, h⟩
    · have := (r.var a).1
      exact .inr ⟨l, z.ls, f, h1, h2, h3, h4 ▸ hv a, by omega⟩
    · obtain ⟨a', b', c, d, e, f⟩ := r.fix a
      refine .inl ⟨_, h, ?_⟩
      rw [a'] at ha ⊢
      simp only [Nat.add_zero] at ha ⊢
      omega

/-- The object that reading gives back: the size of a fixed-size code is zero. -/
def normal (m : Matter) (z : Sizage) : Matter := if z.fs = u32Max then m else { m with size := 0 }

theorem normal_wf {m : Matter} {z : Sizage} (hz : sizage m.code = .ok z) (h : Fits m z) : Wf (normal m z) z := by
  unfold normal
  by_cases hf : z.fs = u32Max
  · rw [if_pos hf]; exact ⟨hz, h.1, fun h => absurd hf h⟩
  · rw [if_neg hf]; exact ⟨hz, fun h => absurd h hf, fun _ => ⟨rfl, h.2 hf⟩⟩

theorem normal_code {m : Matter} {z : Sizage} : (normal m z).code = m.code ∧ (normal m z).raw = m.raw := by
  unfold normal; split <;> exact ⟨rfl, rfl⟩

theorem normal_infil {m : Matter} {z : Sizage} (hz : sizage m.code = .ok z) (E : Env) : (normal m z).infil E = m.infil E := by
  unfold normal
  by_cases hf : z.fs = u32Max
  · rw [if_pos hf]
  · rw [if_neg hf]
    unfold Matter.infil
    simp only [hz, Res.ok_bind, if_neg hf]

theorem normal_binfil {m : Matter} {z : Sizage} (hz : sizage m.code = .ok z) (E : Env) : (normal m z).binfil E = m.binfil E := by
  unfold normal
  by_cases hf : z.fs = u32Max
  · rw [if_pos hf]
  · rw [if_neg hf]
    unfold Matter.binfil
    simp only [hz, Res.ok_bind, if_neg hf]

/-- The text encoder, for every object with a known code. -/
theorem infil_cases {m : Matter} {z : Sizage} (hz : sizage m.code = .ok z) (E : Env) :
    (Aligned m z ∧ m.infil E = .ok (text (normal m z) z)) ∨
    (¬ Aligned m z ∧ (∃ e, m.infil E = .err e)) ∨
    (¬ Aligned m z ∧ z.fs ≠ u32Max ∧ (3 - m.raw.length % 3) % 3 < z.ls ∧ E.overflowChecks = true ∧ m.infil E = .panic) := by
  have r := row_of_sizage hz
  have hpls := r.pls
  by_cases hf : z.fs = u32Max
  · have hv := r.var hf
    have hn : normal m z = m := by rw [normal, if_pos hf]
    rw [hn]
    have hp : 0 < 64 ^ z.ss := Nat.pos_of_ne_zero (by simp)
    by_cases hs : m.size < 64 ^ z.ss
    · have h24 : 64 ^ z.ss ≤ 64 ^ 4 := Nat.pow_le_pow_right (by decide) r.ss4
      have hbl : (m.code ++ encD (digitsB 64 z.ss m.size)).length = z.hs + z.ss := by simp [r.len]
      have he : m.infil E = if (m.raw.length + z.ls) % 3 = 0 then .ok (text m z) else .err .invalidCodeSize := by
        unfold Matter.infil
        simp only [hz, Res.ok_bind, if_pos hf]
        rw [if_neg (by omega), if_neg (by omega), uintToB64_eq E hs (by omega), Res.ok_bind, hbl]
        by_cases h3 : (m.raw.length + z.ls) % 3 = 0
        · rw [if_neg (by omega), if_pos h3, b64EncodeSlice_eq (by simp; omega), Res.ok_bind, text_split hz]
          rw [show (z.hs + z.ss) % 4 = 0 by omega]
          simp
        · rw [if_pos (by omega), if_neg h3]
      by_cases h3 : (m.raw.length + z.ls) % 3 = 0
      · rw [if_pos h3] at he
        exact .inl ⟨⟨by omega, fun _ => hs⟩, he⟩
      · rw [if_neg h3] at he
        exact .inr (.inl ⟨fun h => h3 (by have := h.1; omega), _, he⟩)
    · refine .inr (.inl ⟨fun h => hs (h.2 hf), .invalidVarSize, ?_⟩)
      unfold Matter.infil
      simp only [hz, Res.ok_bind, if_pos hf]
      rw [if_neg (by omega), if_pos (by omega)]
  · obtain ⟨a, b, c, d, e, f⟩ := r.fix hf
    have hal : Aligned m z ↔ (m.raw.length + z.hs % 4 + z.ls) % 3 = 0 := by
      unfold Aligned
      rw [a]
      simp [hf]
    rw [a] at hpls
    simp only [Nat.add_zero] at hpls
    by_cases hps : z.ls ≤ (3 - m.raw.length % 3) % 3
    · have hsub : E.subU32 ((3 - m.raw.length % 3) % 3) z.ls = .ok ((3 - m.raw.length % 3) % 3 - z.ls) := by
        rw [Env.subU32, if_pos hps]
      by_cases h3 : (m.raw.length + z.hs % 4 + z.ls) % 3 = 0
      · refine .inl ⟨hal.mpr h3, ?_⟩
        have hq : (3 - m.raw.length % 3) % 3 = z.hs % 4 + z.ls := by omega
        rw [hq] at hsub
        unfold Matter.infil
        simp only [hz, Res.ok_bind, if_neg hf, hq, hsub]
        rw [r.len, if_neg (by omega)]
        rw [b64EncodeSlice_eq (by simp; omega), Res.ok_bind]
        rw [sliceStr_ascii_to_end (ascii_encD (sextets_lt _)) (by rw [encD_length, sextets_length]; simp; omega), Res.ok_bind,
          text_split (by rw [normal_code.1]; exact hz), normal_code.1, normal_code.2]
        rw [a]
        simp [digitsB, encD_drop]
      · refine .inr (.inl ⟨fun h => h3 (hal.mp h), .invalidCodeSize, ?_⟩)
        unfold Matter.infil
        simp only [hz, Res.ok_bind, if_neg hf, hsub]
        rw [r.len, if_pos (by omega)]
    · have hna : ¬ Aligned m z := fun h => by have := hal.mp h; omega
      by_cases ho : E.overflowChecks = true
      · refine .inr (.inr ⟨hna, hf, by omega, ho, ?_⟩)
        unfold Matter.infil
        simp only [hz, Res.ok_bind, if_neg hf]
        rw [Env.subU32, if_neg hps, if_pos ho]
        rfl
      · refine .inr (.inl ⟨hna, .invalidCodeSize, ?_⟩)
        unfold Matter.infil
        simp only [hz, Res.ok_bind, if_neg hf]
        rw [Env.subU32, if_neg hps, if_neg ho, Res.ok_bind, if_pos (by omega)]

theorem finish_ok {ls fs n : Nat} {bcode raw b : List UInt8} (h : binfil.finish ls fs n bcode raw = .ok b) :
    (bcode.length + ls + raw.length) % 3 = 0 ∧ (bcode.length + ls + raw.length) * 4 / 3 = fs := by
  unfold binfil.finish at h
  simp only [List.length_append, List.length_replicate] at h
  split at h
  · cases h
  · omega

theorem finish_ne_panic {ls fs n : Nat} {bcode raw : List UInt8} : binfil.finish ls fs n bcode raw ≠ .panic := by
  unfold binfil.finish
  simp only
  split <;> simp

theorem bhead_ne_panic {m : Matter} {z : Sizage} {fs : Nat} {both : Str} :
    (if (z.hs + z.ss + 1) * 3 / 4 ≤ 3 then do
      let v ← b64ToU32 both
      let full := toBe 4 (v * 2 ^ (2 * ((z.hs + z.ss) % 4)) % 2 ^ 32)
      binfil.finish z.ls fs ((z.hs + z.ss + 1) * 3 / 4) (full.drop (4 - (z.hs + z.ss + 1) * 3 / 4)) m.raw
    else if (z.hs + z.ss + 1) * 3 / 4 ≤ 6 then do
      let v ← b64ToU64 both
      let full := toBe 8 (v * 2 ^ (2 * ((z.hs + z.ss) % 4)) % 2 ^ 64)
      binfil.finish z.ls fs ((z.hs + z.ss + 1) * 3 / 4) (full.drop (8 - (z.hs + z.ss + 1) * 3 / 4)) m.raw
    else .err .invalidCodeSize : Res (List UInt8)) ≠ .panic := by
  intro h
  split at h
  · rcases Res.bind_eq_panic.mp h with h | ⟨v, _, h⟩
    · exact b64ToUint_ne_panic _ _ _ h
    · exact finish_ne_panic h
  · split at h
    · rcases Res.bind_eq_panic.mp h with h | ⟨v, _, h⟩
      · exact b64ToUint_ne_panic _ _ _ h
      · exact finish_ne_panic h
    · cases h

theorem bhead_ok {m : Matter} {z : Sizage} {fs : Nat} {both : Str} {b : List UInt8} (h :
    (if (z.hs + z.ss + 1) * 3 / 4 ≤ 3 then do
      let v ← b64ToU32 both
      let full := toBe 4 (v * 2 ^ (2 * ((z.hs + z.ss) % 4)) % 2 ^ 32)
      binfil.finish z.ls fs ((z.hs + z.ss + 1) * 3 / 4) (full.drop (4 - (z.hs + z.ss + 1) * 3 / 4)) m.raw
    else if (z.hs + z.ss + 1) * 3 / 4 ≤ 6 then do
      let v ← b64ToU64 both
      let full := toBe 8 (v * 2 ^ (2 * ((z.hs + z.ss) % 4)) % 2 ^ 64)
      binfil.finish z.ls fs ((z.hs + z.ss + 1) * 3 / 4) (full.drop (8 - (z.hs + z.ss + 1) * 3 / 4)) m.raw
    else .err .invalidCodeSize : Res (List UInt8)) = .ok b) :
    ((z.hs + z.ss + 1) * 3 / 4 + z.ls + m.raw.length) % 3 = 0 ∧ ((z.hs + z.ss + 1) * 3 / 4 + z.ls + m.raw.length) * 4 / 3 = fs := by
  split at h
  · obtain ⟨v, _, h⟩ := Res.bind_eq_ok.mp h
    have := finish_ok h
    simp only [List.length_drop, toBe_length] at this
    rwa [show 4 - (4 - (z.hs + z.ss + 1) * 3 / 4) = (z.hs + z.ss + 1) * 3 / 4 by omega] at this
  · split at h
    · obtain ⟨v, _, h⟩ := Res.bind_eq_ok.mp h
      have := finish_ok h
      simp only [List.length_drop, toBe_length] at this
      rwa [show 8 - (8 - (z.hs + z.ss + 1) * 3 / 4) = (z.hs + z.ss + 1) * 3 / 4 by omega] at this
    · cases h

theorem binfil_ne_panic (m : Matter) (E : Env) : m.binfil E ≠ .panic := by
  intro h
  unfold Matter.binfil at h
  rcases Res.bind_eq_panic.mp h with h | ⟨z, hz, h⟩
  · exact sizage_ne_panic _ h
  rcases Res.bind_eq_panic.mp h with h | ⟨⟨fs, both⟩, _, h⟩
  · split at h
    · split at h
      · cases h
      · split at h
        · cases h
        · rcases Res.bind_eq_panic.mp h with h | ⟨v, _, h⟩
          · exact uintToB64_ne_panic _ _ _ h
          · cases h
    · cases h
  · simp only at h
    split at h
    · cases h
    · exact bhead_ne_panic h

theorem binfil_fits {m : Matter} {z : Sizage} (hz : sizage m.code = .ok z) {E : Env} {b : List UInt8} (h : m.binfil E = .ok b) : Fits m z := by
  have r := row_of_sizage hz
  unfold Matter.binfil at h
  simp only [hz, Res.ok_bind] at h
  obtain ⟨⟨fs, both⟩, hs, h⟩ := Res.bind_eq_ok.mp h
  simp only at h
  split at h
  · cases h
  obtain ⟨h3, h4⟩ := bhead_ok h
  have hcs := r.cs
  by_cases hf : z.fs = u32Max
  · have hv := r.var hf
    rw [if_pos hf] at hs
    split at hs
    · cases hs
    split at hs
    · cases hs
    rename_i hsz
    have hp : 0 < 64 ^ z.ss := Nat.pos_of_ne_zero (by simp)
    obtain ⟨soft, _, hs⟩ := Res.bind_eq_ok.mp hs
    cases hs
    refine ⟨fun _ => ⟨by omega, ?_⟩, fun h => absurd hf h⟩
    omega
  · obtain ⟨a, b', c, d, e, f⟩ := r.fix hf
    rw [if_neg hf] at hs
    cases hs
    refine ⟨fun h => absurd h hf, fun _ => ?_⟩
    rw [a] at h3 h4 ⊢
    have hpls := r.pls
    rw [a] at hpls
    simp only [Nat.add_zero] at h3 h4 hpls ⊢
    omega

/-- Texts of two objects with the same code that agree up to the end of the size field have the same size. -/
theorem text_size {m y : Matter} {z : Sizage} (hm : sizage m.code = .ok z) (hc : y.code = m.code) (h1 : m.size < 64 ^ z.ss) (h2 : y.size < 64 ^ z.ss)
    {k : Nat} (hk : z.hs + z.ss ≤ k) (h : (text m z).take k = text y z) : m.size = y.size := by
  have hy : sizage y.code = .ok z := by rw [hc]; exact hm
  have r := row_of_sizage hm
  have h := congrArg (List.take (z.hs + z.ss)) h
  rw [List.take_take, Nat.min_eq_left hk, text, text, frameD, frameD, encD_append, encD_append] at h
  rw [List.take_append_of_le_length (by rw [encD_length, headD_length hm]; exact Nat.le_refl _),
    List.take_append_of_le_length (by rw [encD_length, headD_length hy]; exact Nat.le_refl _),
    List.take_of_length_le (by rw [encD_length, headD_length hm]; exact Nat.le_refl _),
    List.take_of_length_le (by rw [encD_length, headD_length hy]; exact Nat.le_refl _)] at h
  have h := encD_inj (headD_lt hm) (headD_lt hy) h
  unfold headD at h
  rw [hc] at h
  have h := List.append_cancel_left h
  have h := congrArg (valB 64) h
  rwa [valB_digitsB, valB_digitsB, Nat.mod_eq_of_lt h1, Nat.mod_eq_of_lt h2] at h

end Matter

open Matter

/-- C84 (binary). Whatever was done with the setters, encoding to binary never panics; it succeeds exactly when code, size and raw belong together, and then
reading gives back this code and raw (and the size, where the code has one), and the text form is the same data. -/
theorem C84_binary (E : Env) (m : Matter) :
    m.qb2 E ≠ .panic ∧
    ((∃ b, m.qb2 E = .ok b) ↔ Spec.RawFits m.code m.size m.raw.length) ∧
    (∀ b, m.qb2 E = .ok b → ∃ t y, m.qb64 E = .ok t ∧ Spec.IsDecoding t b ∧ Matter.ofBinary E b = .ok y ∧ Matter.ofText E t = .ok y ∧
      y.code = m.code ∧ y.raw = m.raw ∧ (Spec.IsVarCode m.code → y.size = m.size)) := by
  have hback : ∀ z, sizage m.code = .ok z → Fits m z → m.qb2 E = .ok (Matter.binary (normal m z) z) ∧
      ∃ t y, m.qb64 E = .ok t ∧ Spec.IsDecoding t (Matter.binary (normal m z) z) ∧ Matter.ofBinary E (Matter.binary (normal m z) z) = .ok y ∧
        Matter.ofText E t = .ok y ∧ y.code = m.code ∧ y.raw = m.raw ∧ (Spec.IsVarCode m.code → y.size = m.size) := by
    intro z hz hf
    have w := normal_wf hz hf
    obtain ⟨hs, h3⟩ := w.sextets_binary
    refine ⟨by rw [← show (normal m z).binfil E = m.qb2 E from normal_binfil hz E]; exact w.binfil E,
      text (normal m z) z, normal m z, by rw [← show (normal m z).infil E = m.qb64 E from normal_infil hz E]; exact w.infil E,
      by rw [← hs]; exact isDecoding_sextets h3, ?_, ?_, normal_code.1, normal_code.2, ?_⟩
    · have := w.bexfil E []
      rwa [List.append_nil] at this
    · have := w.exfil (rest := []) rfl
      rwa [List.append_nil] at this
    · rintro ⟨l, lead, f, h1, h2, h3⟩
      have := var_row hz h1 h2 h3
      rw [normal, if_pos (by rw [this])]
  refine ⟨binfil_ne_panic m E, ⟨?_, ?_⟩, ?_⟩
  · rintro ⟨b, hb⟩
    cases hz : sizage m.code with
    | ok z => exact (fits_iff hz).mpr (binfil_fits hz hb)
    | err e => simp [Matter.qb2, Matter.binfil, hz] at hb
    | panic => exact absurd hz (sizage_ne_panic _)
  · intro h
    have hc : Spec.IsCode m.code := by
      rcases h with h | ⟨l, lead, f, h1, h2, h3, _⟩
      · exact .inl ⟨_, h⟩
      · exact .inr ⟨l, lead, f, h1, h2, h3⟩
    obtain ⟨z, hz⟩ := isCode_sizage hc
    exact ⟨_, (hback z hz ((fits_iff hz).mp h)).1⟩
  · intro b hb
    cases hz : sizage m.code with
    | ok z =>
      obtain ⟨h1, t, y, h⟩ := hback z hz (binfil_fits hz hb)
      rw [hb] at h1
      cases h1
      exact ⟨t, y, h⟩
    | err e => simp [Matter.qb2, Matter.binfil, hz] at hb
    | panic => exact absurd hz (sizage_ne_panic _)

/-- The two codes with lead bytes and fixed size, and the others. -/
theorem lead_fixed : ∀ e ∈ Matter.sizes, e.2.fs ≠ u32Max → 0 < e.2.ls →
    (e.1 = lit "2AAA" ∧ e.2.ls = 1) ∨ (e.1 = lit "3AAA" ∧ e.2.ls = 2) := by decide +kernel

/-- C84 (text). Encoding to text succeeds exactly when the fields belong together up to whole groups of three raw bytes; it panics exactly for the two
fixed-size codes with lead bytes, with overflow checks, when the raw leaves too little room for the lead. -/
theorem C84_text (E : Env) (m : Matter) :
    ((∃ t, m.qb64 E = .ok t) ↔ Spec.RawAligned m.code m.size m.raw.length) ∧
    (m.qb64 E = .panic ↔ E.overflowChecks = true ∧
      ((m.code = lit "2AAA" ∧ m.raw.length % 3 = 0) ∨ (m.code = lit "3AAA" ∧ m.raw.length % 3 ≠ 1))) := by
  have hq : m.qb64 E = m.infil E := rfl
  have hp : ∀ z, sizage m.code = .ok z → (z.fs ≠ u32Max ∧ (3 - m.raw.length % 3) % 3 < z.ls ↔
      (m.code = lit "2AAA" ∧ m.raw.length % 3 = 0) ∨ (m.code = lit "3AAA" ∧ m.raw.length % 3 ≠ 1)) := by
    intro z hz
    constructor
    · rintro ⟨h1, h2⟩
      have := lead_fixed _ (sizage_mem hz) h1 (by simp only; omega)
      simp only at this
      rcases this with ⟨a, b⟩ | ⟨a, b⟩
      · exact .inl ⟨a, by omega⟩
      · exact .inr ⟨a, by omega⟩
    · rintro (⟨a, b⟩ | ⟨a, b⟩)
      · rw [a] at hz
        have : sizage (lit "2AAA") = .ok ⟨4, 0, 1, 8⟩ := by decide +kernel
        rw [this] at hz
        cases hz
        exact ⟨by decide, by simp only; omega⟩
      · rw [a] at hz
        have : sizage (lit "3AAA") = .ok ⟨4, 0, 2, 8⟩ := by decide +kernel
        rw [this] at hz
        cases hz
        exact ⟨by decide, by simp only; omega⟩
  cases hz : sizage m.code with
  | panic => exact absurd hz (sizage_ne_panic _)
  | err e =>
    have he : m.qb64 E = .err e := by rw [hq]; simp [Matter.infil, hz]
    have hno : ¬ Spec.IsCode m.code := fun h => by
      obtain ⟨z, h⟩ := isCode_sizage h
      rw [hz] at h
      cases h
    refine ⟨⟨?_, ?_⟩, ⟨?_, ?_⟩⟩
    · rintro ⟨t, ht⟩; rw [he] at ht; cases ht
    · rintro (⟨n, h, _⟩ | ⟨l, lead, f, h1, h2, h3, _⟩)
      · exact absurd (.inl ⟨n, h⟩) hno
      · exact absurd (.inr ⟨l, lead, f, h1, h2, h3⟩) hno
    · intro h; rw [he] at h; cases h
    · rintro ⟨_, ⟨h, _⟩ | ⟨h, _⟩⟩
      · exact absurd (.inl ⟨2, by rw [h]; decide⟩) hno
      · exact absurd (.inl ⟨1, by rw [h]; decide⟩) hno
  | ok z =>
    rw [aligned_iff hz, hq, ← hp z hz]
    rcases infil_cases hz E with ⟨h1, h2⟩ | ⟨h1, e, h2⟩ | ⟨h1, h2, h3, h4, h5⟩
    · refine ⟨⟨fun _ => h1, fun _ => ⟨_, h2⟩⟩, ⟨fun h => (by rw [h2] at h; cases h), ?_⟩⟩
      rintro ⟨_, h3, h4⟩
      have := h1.1
      have r := row_of_sizage hz
      have := r.pls
      omega
    · refine ⟨⟨fun ⟨t, h⟩ => (by rw [h2] at h; cases h), fun h => absurd h h1⟩, ⟨fun h => (by rw [h2] at h; cases h), ?_⟩⟩
      rintro ⟨h4, h3, h5⟩
      exfalso
      unfold Matter.infil at h2
      simp only [hz, Res.ok_bind, if_neg h3] at h2
      rw [Env.subU32, if_neg (by omega), if_pos h4] at h2
      cases h2
    · exact ⟨⟨fun ⟨t, h⟩ => (by rw [h5] at h; cases h), fun h => absurd h h1⟩, ⟨fun _ => ⟨h4, h2, h3⟩, fun _ => h5⟩⟩

/-- C84 (what the text says). A text that was encoded reads back as an object with this code and raw exactly when the fields belong together. -/
theorem C84_text_reads_back (E : Env) (m : Matter) {t : Str} (h : m.qb64 E = .ok t) :
    (∃ y, Matter.ofText E t = .ok y ∧ y.code = m.code ∧ y.raw = m.raw ∧ (Spec.IsVarCode m.code → y.size = m.size)) ↔ Spec.RawFits m.code m.size m.raw.length := by
  constructor
  · rintro ⟨y, hy, hc, hr, hs⟩
    obtain ⟨z, hz, hT, hw⟩ := exfil_canonical hy
    have hzm : sizage m.code = .ok z := by rw [← hc]; exact hz
    have ht : t = text (normal m z) z ∧ Aligned m z := by
      rcases infil_cases hzm E with ⟨h1, h2⟩ | ⟨h1, e, h2⟩ | ⟨h1, _, _, _, h2⟩
      · rw [show m.infil E = .ok t from h] at h2
        exact ⟨Res.ok.inj h2, h1⟩
      · rw [show m.infil E = .ok t from h] at h2; cases h2
      · rw [show m.infil E = .ok t from h] at h2; cases h2
    have hb : ∀ c ∈ t.take (total y z), c ≠ ch '=' := by
      intro c hcm
      have := List.mem_of_mem_take hcm
      rw [ht.1] at this
      exact isB64_ne_pad c (encD_isB64 (frameD_lt (headD_lt (by rw [normal_code.1]; exact hzm)) _ _) c this)
    obtain ⟨w, he⟩ := hw hb
    rw [fits_iff hzm]
    refine ⟨fun hf => ?_, fun hf => ?_⟩
    · have hv := w.var hf
      have hm := ht.2.2 hf
      rw [ht.1, normal, if_pos hf] at he
      have := text_size hzm hc hm hv.1 (k := total y z) (by have := w.arith; omega) he
      rw [this, ← hr]
      exact hv
    · rw [← hr]; exact (w.fix hf).2
  · intro hf
    obtain ⟨b, hb⟩ := (C84_binary E m).2.1.mpr hf
    obtain ⟨t', y, h1, _, _, h2, h3, h4, h5⟩ := (C84_binary E m).2.2 b hb
    rw [h] at h1
    cases h1
    exact ⟨y, h2, h3, h4, h5⟩

/-- C84 (known exception, a defect): an object whose raw was set three bytes too long is encoded, and its text reads back as a different object. -/
theorem C84_text_defect (E : Env) : ∃ (m : Matter) (t : Str) (y : Matter), m.qb64 E = .ok t ∧ Matter.ofText E t = .ok y ∧ y.code = m.code ∧ y.raw ≠ m.raw ∧
    ¬ Spec.RawFits m.code m.size m.raw.length := by
  let m : Matter := { code := lit "1AAF", size := 0, raw := [1, 2, 3, 4, 5, 6] }
  have h : m.qb64 E = .ok (lit "1AAFAQIDBAUG") := by
    have : m.qb64 E = m.qb64 Env.debug := by
      simp [m, Matter.qb64, Matter.infil, show sizage (lit "1AAF") = .ok ⟨4, 0, 0, 8⟩ by decide +kernel, u32Max, Env.subU32]
    rw [this]; decide +kernel
  refine ⟨m, lit "1AAFAQIDBAUG", { code := lit "1AAF", size := 0, raw := [1, 2, 3] }, h,
    show Matter.exfil (lit "1AAFAQIDBAUG") = .ok { code := lit "1AAF", size := 0, raw := [1, 2, 3] } by decide +kernel, rfl, by decide, ?_⟩
  rintro (h | ⟨l, lead, f, h1, h2, h3, _⟩)
  · revert h; decide +kernel
  · have hz : sizage (lit "1AAF") = .ok ⟨4, 0, 0, 8⟩ := by decide +kernel
    have := var_row hz h1 h2 h3
    injection this with _ _ _ h
    revert h; decide

/-! ## Indexed signatures -/

namespace Indexer

theorem infil_iff {x : Indexer} {z : ISizage} (hz : sizage x.code = .ok z) (hf : z.fs ≠ u32Max) (hls : z.ls = 0) (E : Env) :
    (∃ t, x.infil E = .ok t) ↔ Wf x z := by
  have r := row_of_sizage hz
  constructor
  · rintro ⟨t, h⟩
    unfold Indexer.infil at h
    simp only [hz, Res.ok_bind, if_neg hf] at h
    split at h
    · cases h
    rename_i hi
    split at h
    · cases h
    rename_i ho
    have hp : 0 < 64 ^ (z.ss - z.os) := Nat.pos_of_ne_zero (by simp)
    have hp' : 0 < 64 ^ z.os := Nat.pos_of_ne_zero (by simp)
    have hw : HeadOk x z := ⟨hz, by omega, fun h0 => by
      have : ¬ 64 ^ z.os - 1 < x.ondex := fun h => ho ⟨h0, h⟩
      omega⟩
    obtain ⟨s1, s2⟩ := hw.soft E
    rw [s1, Res.ok_bind, s2, Res.ok_bind, ← encD_headD hz, encD_length, headD_length hz, if_neg (by omega), hls] at h
    rw [show E.subU32 ((3 - x.raw.length % 3) % 3) 0 = .ok ((3 - x.raw.length % 3) % 3) by simp [Env.subU32], Res.ok_bind] at h
    split at h
    · cases h
    rename_i hps
    rw [b64Encode_eq (by simp; omega)] at h
    rw [sliceStr_ascii_to_end (ascii_encD (sextets_lt _)) (by rw [encD_length, sextets_length]; simp; omega), Res.ok_bind] at h
    split at h
    · cases h
    rename_i hlen
    rw [List.length_append, List.length_drop, encD_length, encD_length, headD_length hz, sextets_length] at hlen
    simp only [List.length_append, List.length_replicate, Nat.sub_zero] at hlen
    refine ⟨hw, hls, fun h => absurd h hf, fun _ => ?_⟩
    obtain ⟨a, b, c, d⟩ := r.fix hf
    have := r.p2
    omega
  · intro w
    exact ⟨_, w.infil E⟩

theorem infil_ne_panic {x : Indexer} {z : ISizage} (hz : sizage x.code = .ok z) (hf : z.fs ≠ u32Max) (hls : z.ls = 0) (E : Env) :
    x.infil E ≠ .panic := by
  intro h
  unfold Indexer.infil at h
  simp only [hz, Res.ok_bind, if_neg hf] at h
  split at h
  · cases h
  split at h
  · cases h
  rcases Res.bind_eq_panic.mp h with h | ⟨i, _, h⟩
  · exact uintToB64_ne_panic _ _ _ h
  rcases Res.bind_eq_panic.mp h with h | ⟨o, _, h⟩
  · exact uintToB64_ne_panic _ _ _ h
  split at h
  · cases h
  rw [hls, show E.subU32 ((3 - x.raw.length % 3) % 3) 0 = .ok ((3 - x.raw.length % 3) % 3) by simp [Env.subU32], Res.ok_bind] at h
  split at h
  · cases h
  rename_i hps
  have r := row_of_sizage hz
  have := r.p2
  rw [b64Encode_eq (by simp; omega)] at h
  rw [sliceStr_ascii_to_end (ascii_encD (sextets_lt _)) (by rw [encD_length, sextets_length]; simp; omega), Res.ok_bind] at h
  split at h <;> cases h

theorem finish_ok {ls fs : Nat} {bcode raw b : List UInt8} (h : binfil.finish ls fs bcode raw = .ok b) :
    (bcode.length + ls + raw.length) % 3 = 0 ∧ (bcode.length + ls + raw.length) * 4 / 3 = fs := by
  unfold binfil.finish at h
  simp only [List.length_append, List.length_replicate] at h
  split at h
  · cases h
  · omega

/-- What a binary encoding implies: the raw has its length, and an index and other index without more room than their own digits fit. -/
theorem binfil_ok {x : Indexer} {z : ISizage} (hz : sizage x.code = .ok z) (hf : z.fs ≠ u32Max) (hls : z.ls = 0) {E : Env} {b : List UInt8}
    (h : x.binfil E = .ok b) : x.raw.length = (z.fs - (z.hs + z.ss)) * 3 / 4 ∧ (z.os = 0 → z.ss ≤ 5 → x.index < 64 ^ z.ss) := by
  have r := row_of_sizage hz
  unfold Indexer.binfil at h
  simp only [hz, Res.ok_bind, if_neg hf] at h
  obtain ⟨bd, hbd, h⟩ := Res.bind_eq_ok.mp h
  split at h
  · cases h
  rename_i hi
  split at h
  · cases h
  obtain ⟨i, _, h⟩ := Res.bind_eq_ok.mp h
  obtain ⟨o, _, h⟩ := Res.bind_eq_ok.mp h
  split at h
  · cases h
  obtain ⟨d, hd, h⟩ := Res.bind_eq_ok.mp h
  split at h
  · cases h
  have hlen : ((z.hs + z.ss + 1) * 3 / 4 + 0 + x.raw.length) % 3 = 0 ∧ ((z.hs + z.ss + 1) * 3 / 4 + 0 + x.raw.length) * 4 / 3 = z.fs := by
    rw [hls] at h
    split at h
    · obtain ⟨v, _, h⟩ := Res.bind_eq_ok.mp h
      have := finish_ok h
      simp only [List.length_drop, toBe_length] at this
      rwa [show 4 - (4 - (z.hs + z.ss + 1) * 3 / 4) = (z.hs + z.ss + 1) * 3 / 4 by omega] at this
    · split at h
      · obtain ⟨v, _, h⟩ := Res.bind_eq_ok.mp h
        have := finish_ok h
        simp only [List.length_drop, toBe_length] at this
        rwa [show 8 - (8 - (z.hs + z.ss + 1) * 3 / 4) = (z.hs + z.ss + 1) * 3 / 4 by omega] at this
      · cases h
  refine ⟨?_, fun _ h5 => ?_⟩
  · obtain ⟨a, b, c, d⟩ := r.fix hf
    have := r.p2
    omega
  · rw [powBound, if_pos h5] at hbd
    cases hbd
    have hp : 0 < 64 ^ z.ss := Nat.pos_of_ne_zero (by simp)
    omega

theorem ifinish_ne_panic {ls fs : Nat} {bcode raw : List UInt8} : binfil.finish ls fs bcode raw ≠ .panic := by
  unfold binfil.finish
  simp only
  split <;> simp

/-- The binary encoder panics exactly when the bound on the index overflows. -/
theorem binfil_panic_iff {x : Indexer} {z : ISizage} (hz : sizage x.code = .ok z) (hf : z.fs ≠ u32Max) (hls : z.ls = 0) (E : Env) :
    x.binfil E = .panic ↔ 6 ≤ z.ss ∧ E.overflowChecks = true := by
  constructor
  · intro h
    unfold Indexer.binfil at h
    simp only [hz, Res.ok_bind, if_neg hf] at h
    rcases Res.bind_eq_panic.mp h with h | ⟨bd, hbd, h⟩
    · unfold powBound at h
      split at h
      · cases h
      · split at h
        · rename_i h1 h2; exact ⟨by omega, h2⟩
        · cases h
    exfalso
    split at h
    · cases h
    split at h
    · cases h
    rcases Res.bind_eq_panic.mp h with h | ⟨i, _, h⟩
    · exact uintToB64_ne_panic _ _ _ h
    rcases Res.bind_eq_panic.mp h with h | ⟨o, _, h⟩
    · exact uintToB64_ne_panic _ _ _ h
    split at h
    · cases h
    rw [hls, show E.subU32 ((3 - x.raw.length % 3) % 3) 0 = .ok ((3 - x.raw.length % 3) % 3) by simp [Env.subU32], Res.ok_bind] at h
    split at h
    · cases h
    split at h
    · rcases Res.bind_eq_panic.mp h with h | ⟨v, _, h⟩
      · exact b64ToUint_ne_panic _ _ _ h
      · exact ifinish_ne_panic h
    · split at h
      · rcases Res.bind_eq_panic.mp h with h | ⟨v, _, h⟩
        · exact b64ToUint_ne_panic _ _ _ h
        · exact ifinish_ne_panic h
      · cases h
  · rintro ⟨h1, h2⟩
    unfold Indexer.binfil
    simp only [hz, Res.ok_bind]
    rw [powBound, if_neg (by omega), if_pos h2]
    rfl

/-- The encoder of the other index writes nothing for a code without digits for it. -/
theorem text_ondex {x : Indexer} {z : ISizage} (h0 : z.os = 0) (o : Nat) : text { x with ondex := o } z = text x z ∧
    binary { x with ondex := o } z = binary x z := by
  have : headD { x with ondex := o } z = headD x z := by simp [headD, h0, digitsB]
  rw [text, text, binary, binary, this]
  exact ⟨rfl, rfl⟩

theorem wf_ondex {x : Indexer} {z : ISizage} (w : Wf x z) (h0 : z.os = 0) (o : Nat) : Wf { x with ondex := o } z :=
  ⟨⟨w.szg, w.index, fun h => absurd h (by omega)⟩, w.ls, w.var, w.fix⟩

end Indexer

open Indexer in
theorem idxFits_iff {c : Spec.IdxCode} (hc : c ∈ Spec.idxCodes) {x : Indexer} (hx : x.code = c.code) :
    Spec.IdxFits c x.index x.ondex x.raw.length ↔ Wf x (idxRow c) := by
  obtain ⟨hz, hcur, hboth, hf, hraw, hms, hsep, hnsep, _⟩ := idxCodes_table c hc
  rw [← hx] at hz
  have hls : (idxRow c).ls = 0 := rfl
  constructor
  · rintro ⟨h1, h2, h3⟩
    refine ⟨⟨hz, by rw [hms]; exact h2, fun h0 => ?_⟩, hls, fun h => absurd h hf, fun _ => by rw [hraw]; exact h1⟩
    cases hs : c.separate with
    | true => rw [(hsep hs).1]; exact h3 hs
    | false => rw [hnsep hs] at h0; omega
  · intro w
    refine ⟨by rw [w.fix hf, hraw], by rw [← hms]; exact w.index, fun hs => ?_⟩
    rw [← (hsep hs).1]
    exact w.ondex (by rw [(hsep hs).1]; exact (hsep hs).2)

open Indexer in
theorem idx_back {c : Spec.IdxCode} (hc : c ∈ Spec.idxCodes) {x : Indexer} (hx : x.code = c.code) (w : Wf x (idxRow c))
    (hno : ¬ (c.current = true ∧ c.separate = true ∧ x.ondex ≠ 0)) :
    ∃ y : Indexer, Wf y (idxRow c) ∧ Meant y.code (idxRow c).os y.index y.ondex ∧ y = { x with ondex := Spec.ondexBack c x.index x.ondex } ∧
      text y (idxRow c) = text x (idxRow c) ∧ binary y (idxRow c) = binary x (idxRow c) := by
  obtain ⟨hz, hcur, hboth, hf, hraw, hms, hsep, hnsep, _⟩ := idxCodes_table c hc
  cases hs : c.separate with
  | false =>
    have h0 := hnsep hs
    refine ⟨_, wf_ondex w h0 (Spec.ondexBack c x.index x.ondex), ?_, rfl, text_ondex h0 _⟩
    unfold Meant Spec.ondexBack
    simp only [hx, hcur, hs]
    cases c.current <;> simp
  | true =>
    have he : ({ x with ondex := Spec.ondexBack c x.index x.ondex } : Indexer) = x := by
      unfold Spec.ondexBack
      cases hcc : c.current with
      | false => simp [hs]
      | true =>
        have : x.ondex = 0 := Classical.not_not.mp fun h => hno ⟨hcc, hs, h⟩
        cases x
        simp only at this
        simp [this]
    refine ⟨x, w, ?_, he.symm, rfl, rfl⟩
    unfold Meant
    rw [hx, hcur]
    cases hcc : c.current with
    | false =>
      simp only [Bool.false_eq_true, if_false]
      intro h; have := hsep hs; omega
    | true =>
      simp only [if_true]
      exact Classical.not_not.mp fun h => hno ⟨hcc, hs, h⟩

open Indexer in
/-- C84 (indexed signatures, text). Whatever was done with the setters, encoding to text never panics, succeeds exactly when index, other index and raw fit
the fields of the code, and reading gives back this code, index and raw and the other index that the code can express. The exception: another index that was
set on a current-only code with a field for it is written, and the text is then refused. -/
theorem C84_indexed_text (E : Env) {c : Spec.IdxCode} (hc : c ∈ Spec.idxCodes) {x : Indexer} (hx : x.code = c.code) :
    x.qb64 E ≠ .panic ∧ ((∃ t, x.qb64 E = .ok t) ↔ Spec.IdxFits c x.index x.ondex x.raw.length) ∧
    (∀ t, x.qb64 E = .ok t →
      (¬ (c.current = true ∧ c.separate = true ∧ x.ondex ≠ 0) → Indexer.ofText E t = .ok { x with ondex := Spec.ondexBack c x.index x.ondex }) ∧
      (c.current = true → c.separate = true → x.ondex ≠ 0 → ∃ e, Indexer.ofText E t = .err e)) := by
  obtain ⟨hz, hcur, hboth, hf, hraw, hms, hsep, hnsep, _⟩ := idxCodes_table c hc
  rw [← hx] at hz
  have hls : (idxRow c).ls = 0 := rfl
  refine ⟨infil_ne_panic hz hf hls E, ?_, ?_⟩
  · rw [idxFits_iff hc hx]; exact infil_iff hz hf hls E
  · intro t ht
    have w := (infil_iff hz hf hls E).mp ⟨t, ht⟩
    have he : t = text x (idxRow c) := by
      have := w.infil E
      rw [show x.infil E = .ok t from ht] at this
      exact Res.ok.inj this
    refine ⟨fun hno => ?_, fun h1 h2 h3 => ?_⟩
    · obtain ⟨y, wy, my, hy, hty, _⟩ := idx_back hc hx w hno
      rw [← hy, he, ← hty]
      have := wy.exfil my (rest := []) rfl
      rwa [List.append_nil] at this
    · cases hr : Indexer.ofText E t with
      | err e => exact ⟨e, rfl⟩
      | panic =>
        exfalso
        refine ((C22_no_panic E).2.1 t ?_).1 hr
        rw [he]; exact w.text_ascii
      | ok y =>
        exfalso
        obtain ⟨z, hw, hm, hT, hhead, _⟩ := exfil_canonical hr
        have r := row_of_sizage hw.szg
        have rx := row_of_sizage hz
        have hs := text_split hz
        rw [← he] at hs
        obtain ⟨c0, t0, e0, hh0, _⟩ := r.hard
        obtain ⟨c1, t1, e1, hh1, _⟩ := rx.hard
        have hp0 : y.code <+: t := by
          have h1 : y.code <+: encD (y.headD z) := by
            rw [encD_headD hw.szg, List.append_assoc]; exact List.prefix_append _ _
          rw [← hhead] at h1
          exact h1.trans (List.take_prefix _ _)
        have hp1 : x.code <+: t := by
          rw [hs, encD_headD hz, List.append_assoc, List.append_assoc]
          exact List.prefix_append _ _
        have hcc : c0 = c1 := by
          obtain ⟨u, hu⟩ := hp0
          obtain ⟨v, hv⟩ := hp1
          rw [e0] at hu
          rw [e1, ← hu] at hv
          simp only [List.cons_append] at hv
          injection hv with hv
          exact hv.symm
        have hhs : z.hs = (idxRow c).hs := by
          rw [hcc, hh1] at hh0
          injection hh0 with hh0
          exact hh0.symm
        have hcode : y.code = x.code := by
          rw [List.prefix_iff_eq_take.mp hp0, List.prefix_iff_eq_take.mp hp1, r.len, rx.len, hhs]
        have hzz : z = idxRow c := by
          have := hw.szg
          rw [hcode, hz] at this
          exact (Res.ok.inj this).symm
        subst hzz
        rw [hs, List.take_append_of_le_length (by rw [encD_length, headD_length hz]; exact Nat.le_refl _),
          List.take_of_length_le (by rw [encD_length, headD_length hz]; exact Nat.le_refl _)] at hhead
        have hd := encD_inj (headD_lt hz) (headD_lt hw.szg) hhead
        unfold Indexer.headD at hd
        have hd := List.append_inj_right' hd (by simp)
        have hd := congrArg (valB 64) hd
        have ho : 0 < (idxRow c).os := by have := hsep h2; omega
        rw [valB_digitsB, valB_digitsB, Nat.mod_eq_of_lt (w.ondex ho), Nat.mod_eq_of_lt (hw.ondex ho)] at hd
        unfold Meant at hm
        rw [hcode, hx, hcur, h1, if_pos rfl] at hm
        exact h3 (by rw [hd, hm])

open Indexer in
/-- C84 (indexed signatures, binary). With fields that fit, encoding to binary gives the same data as the text (exactly `3A` and `3B` panic, with
overflow checks: C18); a raw of another length is refused, and so is an index that is too large for a code without a field for another index. -/
theorem C84_indexed_binary (E : Env) {c : Spec.IdxCode} (hc : c ∈ Spec.idxCodes) {x : Indexer} (hx : x.code = c.code) :
    (x.qb2 E = .panic ↔ (c.code = lit "3A" ∨ c.code = lit "3B") ∧ E.overflowChecks = true) ∧
    (Spec.IdxFits c x.index x.ondex x.raw.length → ¬ ((c.code = lit "3A" ∨ c.code = lit "3B") ∧ E.overflowChecks = true) →
      ∃ t b, x.qb64 E = .ok t ∧ x.qb2 E = .ok b ∧ Spec.IsDecoding t b ∧
        (¬ (c.current = true ∧ c.separate = true ∧ x.ondex ≠ 0) → Indexer.ofBinary E b = .ok { x with ondex := Spec.ondexBack c x.index x.ondex })) ∧
    (∀ b, x.qb2 E = .ok b → x.raw.length = c.raw ∧ (c.separate = false → x.index < 64 ^ c.digits)) := by
  obtain ⟨hz, hcur, hboth, hf, hraw, hms, hsep, hnsep, h6⟩ := idxCodes_table c hc
  rw [← hx] at hz
  have hls : (idxRow c).ls = 0 := rfl
  refine ⟨by rw [← h6]; exact binfil_panic_iff hz hf hls E, fun hfit hno => ?_, fun b hb => ?_⟩
  · have w := (idxFits_iff hc hx).mp hfit
    have hb := w.binfil E
    rw [if_neg (by rw [h6]; exact hno)] at hb
    obtain ⟨hs, h3⟩ := w.sextets_binary
    refine ⟨_, _, w.infil E, hb, by rw [← hs]; exact isDecoding_sextets h3, fun hn => ?_⟩
    obtain ⟨y, wy, my, hy, _, hby⟩ := idx_back hc hx w hn
    rw [← hy, ← hby]
    have := wy.bexfil my E []
    rwa [List.append_nil] at this
  · obtain ⟨h1, h2⟩ := binfil_ok hz hf hls hb
    refine ⟨by rw [h1, hraw], fun hs => ?_⟩
    have h0 := hnsep hs
    rw [h0, Nat.sub_zero] at hms
    rw [← hms]
    exact h2 h0 (by rw [hms]; have : ∀ c ∈ Spec.idxCodes, c.digits ≤ 5 := by decide
                    exact this c hc)

/-- C84 (known exception, a defect): an index that was set beyond the digits of a code with a field for another index is encoded to binary all the same,
and reads back as a different index. -/
theorem C84_indexed_binary_defect (o : Bool) : ∃ (x : Indexer) (b : List UInt8) (y : Indexer), x.code = lit "2A" ∧
    x.qb2 (Env.exact o) = .ok b ∧ Indexer.ofBinary (Env.exact o) b = .ok y ∧ y.index ≠ x.index := by
  refine ⟨{ code := lit "2A", raw := List.replicate 64 0, index := 5000, ondex := 0 },
    [0xD8, 0x00, 0x4E] ++ List.replicate 66 0, { code := lit "2A", raw := List.replicate 64 0, index := 78, ondex := 0 }, rfl, ?_, ?_, by decide⟩
  · cases o <;> decide +kernel
  · cases o <;> decide +kernel

/-- Non-vacuity: a consistent object, one whose text is encoded although it is not, a refused one. -/
example : Spec.RawFits (lit "4B") 2 6 := .inr ⟨false, 0, ch 'B', by decide, .inr rfl, rfl, by decide, rfl⟩
example : Matter.qb64 Env.debug { code := lit "4B", size := 9, raw := [1, 2, 3] } = .ok (lit "4BAJAQID") := by decide +kernel
example : Matter.qb2 Env.debug { code := lit "4B", size := 9, raw := [1, 2, 3] } = .err .invalidCodeSize := by decide +kernel
example : Matter.qb64 Env.debug { code := lit "3AAA", size := 0, raw := [] } = .panic := by decide +kernel
example : Spec.IdxFits ⟨lit "2B", true, 2, true, 64⟩ 7 5 64 := ⟨rfl, by decide, fun _ => by decide⟩
example : (Indexer.ofText Env.debug (lit "2BAHAF" ++ List.replicate 86 (ch 'A'))).isOk = false := by decide +kernel

end Cesride
