import Verif.Lemmas.Frame
import Verif.Model.Matter

/-! # Lemmas about the Matter model -/

namespace Cesride

/-- Sextets of a Base64URL text. -/
def codeDigits (s : Str) : List Nat := s.map (fun c => (sextetVal c).getD 0)

@[simp] theorem codeDigits_length (s : Str) : (codeDigits s).length = s.length := by simp [codeDigits]

theorem codeDigits_encD {d : List Nat} (hd : ∀ x ∈ d, x < 64) : codeDigits (encD d) = d := by
  induction d with
  | nil => rfl
  | cons x xs ih =>
    have hx := hd x (by simp)
    have := ih (fun y hy => hd y (by simp [hy]))
    simp only [codeDigits, encD, List.map_cons] at this ⊢
    rw [this, sextetVal_char hx]; rfl

theorem encD_codeDigits {s : Str} (h : ∀ c ∈ s, isB64 c = true) : encD (codeDigits s) = s := by
  obtain ⟨d, hd, rfl⟩ := exists_encD h
  rw [codeDigits_encD hd]

theorem codeDigits_lt {s : Str} (h : ∀ c ∈ s, isB64 c = true) : ∀ x ∈ codeDigits s, x < 64 := by
  obtain ⟨d, hd, rfl⟩ := exists_encD h
  rw [codeDigits_encD hd]; exact hd

namespace Matter

/-- Everything the proofs need from a table row. -/
def rowOk (code : Str) (z : Sizage) : Bool :=
  code.length == z.hs && code.all isB64 &&
  (code.head?.map hardage == some (.ok z.hs)) &&
  ((code.head?.bind sextetVal).map bardage == some (.ok z.hs)) &&
  decide (z.ls ≤ 2) && decide ((z.hs + z.ss) % 4 + z.ls ≤ 2) && decide (z.hs + z.ss ≤ 8) &&
  decide (1 ≤ z.hs ∧ z.hs ≤ 4) && decide (z.ss ≤ 4) && ((z.hs + z.ss) % 4 == 0 || z.ls == 0) &&
  (if z.fs = u32Max then (z.hs + z.ss) % 4 == 0 && decide (0 < z.ss)
   else z.ss == 0 && z.fs % 4 == 0 && decide (z.hs < z.fs) && decide (z.fs ≤ 124) &&
     decide (((z.fs - z.hs) * 3 / 4 - z.ls + (z.hs % 4 + z.ls)) * 4 = (z.fs - z.hs + z.hs % 4) * 3) &&
     decide (0 < (z.fs - z.hs) * 3 / 4 - z.ls))

theorem table_rowOk : ∀ e ∈ sizes, rowOk e.1 e.2 = true := by decide +kernel

theorem lookup_mem {α β : Type} [BEq α] [LawfulBEq α] {l : List (α × β)} {a : α} {b : β}
    (h : l.lookup a = some b) : (a, b) ∈ l := by
  induction l with
  | nil => simp at h
  | cons x xs ih =>
    obtain ⟨k, v⟩ := x
    rw [List.lookup_cons] at h
    split at h
    · rename_i hk
      have : a = k := by simpa using hk
      cases h; subst this; simp
    · exact List.mem_cons_of_mem _ (ih h)

theorem sizage_mem {code : Str} {z : Sizage} (h : sizage code = .ok z) : (code, z) ∈ sizes := by
  unfold sizage at h
  split at h
  · rename_i z' hz; cases h; exact lookup_mem hz
  · cases h

theorem sizage_of_mem : ∀ e ∈ sizes, sizage e.1 = .ok e.2 := by decide +kernel

theorem sizage_ne_panic (s : Str) : sizage s ≠ .panic := by
  unfold sizage; split <;> simp

/-- Facts about a table row, in usable form. -/
structure Row (code : Str) (z : Sizage) : Prop where
  len : code.length = z.hs
  b64 : ∀ c ∈ code, isB64 c = true
  hard : ∃ c t, code = c :: t ∧ hardage c = .ok z.hs ∧ ∃ i, sextetVal c = some i ∧ bardage i = .ok z.hs
  ls : z.ls ≤ 2
  pls : (z.hs + z.ss) % 4 + z.ls ≤ 2
  cs : z.hs + z.ss ≤ 8
  hs1 : 1 ≤ z.hs
  hs4 : z.hs ≤ 4
  ss4 : z.ss ≤ 4
  pOrL : (z.hs + z.ss) % 4 = 0 ∨ z.ls = 0
  var : z.fs = u32Max → (z.hs + z.ss) % 4 = 0 ∧ 0 < z.ss
  fix : z.fs ≠ u32Max → z.ss = 0 ∧ z.fs % 4 = 0 ∧ z.hs < z.fs ∧ z.fs ≤ 124 ∧
    ((z.fs - z.hs) * 3 / 4 - z.ls + (z.hs % 4 + z.ls)) * 4 = (z.fs - z.hs + z.hs % 4) * 3 ∧
    0 < (z.fs - z.hs) * 3 / 4 - z.ls

theorem row_of_sizage {code : Str} {z : Sizage} (h : sizage code = .ok z) : Row code z := by
  have := table_rowOk _ (sizage_mem h)
  simp only [rowOk, Bool.and_eq_true, beq_iff_eq, decide_eq_true_eq, Bool.or_eq_true, List.all_eq_true] at this
  obtain ⟨⟨⟨⟨⟨⟨⟨⟨⟨⟨h1, h2⟩, h3⟩, h4⟩, h5⟩, h6⟩, h7⟩, h8, h8'⟩, h9⟩, h10⟩, h11⟩ := this
  refine ⟨h1, h2, ?_, h5, h6, h7, h8, h8', h9, h10, ?_, ?_⟩
  · cases code with
    | nil => simp at h3
    | cons c t =>
      refine ⟨c, t, rfl, by simpa using h3, ?_⟩
      simp only [List.head?_cons, Option.bind_some] at h4
      cases hv : sextetVal c with
      | none => simp [hv] at h4
      | some i => exact ⟨i, rfl, by simpa [hv] using h4⟩
  · intro hf
    simp only [hf, if_true, Bool.and_eq_true, beq_iff_eq, decide_eq_true_eq] at h11
    exact h11
  · intro hf
    simp only [hf, if_false, Bool.and_eq_true, beq_iff_eq, decide_eq_true_eq] at h11
    obtain ⟨⟨⟨⟨⟨a, b⟩, c⟩, d⟩, e⟩, f⟩ := h11
    exact ⟨a, b, c, d, e, f⟩

/-- Well-formed primitive for a table row. -/
structure Wf (m : Matter) (z : Sizage) : Prop where
  szg : sizage m.code = .ok z
  var : z.fs = u32Max → m.size < 64 ^ z.ss ∧ m.raw.length + z.ls = 3 * m.size
  fix : z.fs ≠ u32Max → m.size = 0 ∧ m.raw.length = (z.fs - (z.hs + z.ss)) * 3 / 4 - z.ls

/-- Head digits: code then size. -/
def headD (m : Matter) (z : Sizage) : List Nat := codeDigits m.code ++ digitsB 64 z.ss m.size

/-- Total number of characters. -/
def total (m : Matter) (z : Sizage) : Nat := if z.fs = u32Max then m.size * 4 + (z.hs + z.ss) else z.fs

/-- Canonical text. -/
def text (m : Matter) (z : Sizage) : Str := encD (frameD (headD m z) z.ls m.raw)

/-- Canonical binary. -/
def binary (m : Matter) (z : Sizage) : List UInt8 := packD (headD m z) ++ List.replicate z.ls 0 ++ m.raw

theorem Wf.arith {m : Matter} {z : Sizage} (w : Wf m z) :
    (m.raw.length + (z.hs + z.ss) % 4 + z.ls) % 3 = 0 ∧
    (3 - m.raw.length % 3) % 3 = (z.hs + z.ss) % 4 + z.ls ∧
    total m z = (z.hs + z.ss) - (z.hs + z.ss) % 4 + (m.raw.length + (z.hs + z.ss) % 4 + z.ls) / 3 * 4 ∧
    total m z % 4 = 0 ∧ ((z.hs + z.ss) % 4 = 0 ∨ 0 < m.raw.length + z.ls) ∧ z.hs + z.ss ≤ total m z := by
  have r := row_of_sizage w.szg
  have h1 := r.pls
  have h2 := r.pOrL
  unfold total
  by_cases hf : z.fs = u32Max
  · have := w.var hf
    have := r.var hf
    simp only [hf, if_true]
    omega
  · obtain ⟨e1, e2⟩ := w.fix hf
    obtain ⟨a, b, c, d, e, f⟩ := r.fix hf
    simp only [hf, if_false]
    rw [a] at e2 ⊢
    simp only [Nat.add_zero] at e2 ⊢
    rw [← e2] at e f
    omega

theorem headD_length {m : Matter} {z : Sizage} (h : sizage m.code = .ok z) : (headD m z).length = z.hs + z.ss := by
  have r := row_of_sizage h
  simp [headD, r.len]

theorem headD_lt {m : Matter} {z : Sizage} (h : sizage m.code = .ok z) : ∀ x ∈ headD m z, x < 64 := by
  have r := row_of_sizage h
  intro x hx
  rcases List.mem_append.mp hx with hx | hx
  · exact codeDigits_lt r.b64 x hx
  · exact digitsB_lt (by decide) _ _ x hx

theorem encD_headD {m : Matter} {z : Sizage} (h : sizage m.code = .ok z) :
    encD (headD m z) = m.code ++ encD (digitsB 64 z.ss m.size) := by
  rw [headD, encD_append, encD_codeDigits (row_of_sizage h).b64]

theorem Wf.size_lt {m : Matter} {z : Sizage} (w : Wf m z) : m.size < 64 ^ z.ss := by
  have r := row_of_sizage w.szg
  by_cases hf : z.fs = u32Max
  · exact (w.var hf).1
  · rw [(w.fix hf).1]; exact Nat.pow_pos (by decide)

theorem Wf.size_lt' {m : Matter} {z : Sizage} (w : Wf m z) : m.size < 2 ^ 24 := by
  have := w.size_lt
  have r := row_of_sizage w.szg
  have : 64 ^ z.ss ≤ 64 ^ 4 := Nat.pow_le_pow_right (by decide) r.ss4
  omega

theorem Wf.valSize {m : Matter} {z : Sizage} (w : Wf m z) : valB 64 (digitsB 64 z.ss m.size) = m.size := by
  rw [valB_digitsB, Nat.mod_eq_of_lt w.size_lt]

theorem Wf.text_length {m : Matter} {z : Sizage} (w : Wf m z) : (text m z).length = total m z := by
  obtain ⟨h3, _, ht, _, hne, hle⟩ := w.arith
  have hl := headD_length w.szg
  have := frameD_length (headD m z) z.ls m.raw (by rw [hl]; exact h3)
  rw [hl] at this
  rw [text, encD_length]
  omega

theorem Wf.text_lt {m : Matter} {z : Sizage} (w : Wf m z) : ∀ x ∈ frameD (headD m z) z.ls m.raw, x < 64 :=
  frameD_lt (headD_lt w.szg) _ _

theorem Wf.text_b64 {m : Matter} {z : Sizage} (w : Wf m z) : ∀ c ∈ text m z, isB64 c = true :=
  encD_isB64 w.text_lt

theorem Wf.text_ascii {m : Matter} {z : Sizage} (w : Wf m z) : Ascii (text m z) := ascii_encD w.text_lt

theorem text_split {m : Matter} {z : Sizage} (h : sizage m.code = .ok z) : text m z =
    m.code ++ encD (digitsB 64 z.ss m.size) ++
      encD ((sextets (List.replicate ((z.hs + z.ss) % 4 + z.ls) 0 ++ m.raw)).drop ((z.hs + z.ss) % 4)) := by
  rw [text, frameD, encD_append, encD_headD h, headD_length h]

/-- Encoding of a well-formed primitive. -/
theorem Wf.infil {m : Matter} {z : Sizage} (w : Wf m z) (E : Env) : m.infil E = .ok (text m z) := by
  obtain ⟨h3, hps, ht, _, hne, hle⟩ := w.arith
  have r := row_of_sizage w.szg
  unfold Matter.infil
  simp only [w.szg, Res.ok_bind, hps]
  split
  · rename_i hf
    have hv := r.var hf
    have hv2 := w.var hf
    have h64 := w.size_lt'
    rw [if_neg (by omega), if_neg (by omega)]
    rw [uintToB64_eq E hv2.1 (by omega), Res.ok_bind]
    have hbl : (m.code ++ encD (digitsB 64 z.ss m.size)).length = z.hs + z.ss := by simp [r.len]
    rw [hbl, if_neg (by omega)]
    rw [b64EncodeSlice_eq (by simp; omega), Res.ok_bind, text_split w.szg]
    rw [show (z.hs + z.ss) % 4 = 0 by omega]
    simp
  · rename_i hf
    obtain ⟨a, b, c, d, e, f⟩ := r.fix hf
    have : E.subU32 ((z.hs + z.ss) % 4 + z.ls) z.ls = .ok ((z.hs + z.ss) % 4) := by
      simp [Env.subU32]
    rw [this, Res.ok_bind, r.len]
    rw [if_neg (by rw [a]; simp)]
    rw [b64EncodeSlice_eq (by rw [lead_len]; omega), Res.ok_bind]
    rw [sliceStr_ascii_to_end (ascii_encD (sextets_lt _))
      (by rw [encD_length, sextets_length, lead_len]; omega), Res.ok_bind, text_split w.szg]
    rw [a]
    simp [digitsB, encD_drop]

/-- The binary form is the Base64 decoding of the text. -/
theorem Wf.sextets_binary {m : Matter} {z : Sizage} (w : Wf m z) :
    encD (sextets (binary m z)) = text m z ∧ (binary m z).length % 3 = 0 := by
  obtain ⟨h3, hps, ht, _, hne, hle⟩ := w.arith
  have hl := headD_length w.szg
  have := sextets_pack (headD_lt w.szg) (ls := z.ls) (raw := m.raw) (by rw [hl]; exact h3) (by rw [hl]; exact hne)
  rw [binary, text, this.1]
  exact ⟨rfl, this.2⟩

theorem Wf.binary_length {m : Matter} {z : Sizage} (w : Wf m z) : (binary m z).length * 4 = total m z * 3 := by
  obtain ⟨h, h3⟩ := w.sextets_binary
  have := congrArg List.length h
  rw [encD_length, sextets_length, w.text_length] at this
  omega

/-- Binary encoding of a well-formed primitive. -/
theorem Wf.binfil {m : Matter} {z : Sizage} (w : Wf m z) (E : Env) : m.binfil E = .ok (binary m z) := by
  have r := row_of_sizage w.szg
  have hbl := w.binary_length
  have hb3 := w.sextets_binary.2
  have hhl := headD_length w.szg
  have hhlt := headD_lt w.szg
  have hcs := r.cs
  have hpb := pack_bound hhlt
  rw [hhl] at hpb
  have hpack : packD (headD m z) = toBe ((z.hs + z.ss + 1) * 3 / 4) (valB 64 (headD m z) * 4 ^ ((z.hs + z.ss) % 4)) := by
    rw [packD, hhl]
  have hfin : ∀ n, binfil.finish z.ls (total m z) n (packD (headD m z)) m.raw = .ok (binary m z) := by
    intro n
    unfold binfil.finish
    simp only
    rw [show packD (headD m z) ++ List.replicate z.ls 0 ++ m.raw = binary m z from rfl]
    rw [if_neg (by omega)]
  have hboth : encD (headD m z) = m.code ++ encD (digitsB 64 z.ss m.size) := encD_headD w.szg
  unfold Matter.binfil
  simp only [w.szg, Res.ok_bind]
  have hsel : (if z.fs = u32Max then
      if (z.hs + z.ss) % 4 ≠ 0 then .err .invalidCodeSize
      else if 64 ^ z.ss - 1 < m.size then .err .invalidVarSize
      else do
        let soft ← uintToB64 E m.size z.ss
        .ok (z.hs + z.ss + m.size * 4, m.code ++ soft)
    else .ok (z.fs, m.code) : Res (Nat × Str)) = .ok (total m z, encD (headD m z)) := by
    unfold total
    split
    · rename_i hf
      have hv := r.var hf
      have hv2 := w.var hf
      have h64 := w.size_lt'
      rw [if_neg (by omega), if_neg (by omega), uintToB64_eq E hv2.1 (by omega), Res.ok_bind, hboth,
        Nat.add_comm (m.size * 4)]
    · rename_i hf
      obtain ⟨a, _⟩ := r.fix hf
      rw [hboth, a]; simp [digitsB]
  rw [hsel, Res.ok_bind]
  simp only [encD_length, hhl, ne_eq, not_true, if_false]
  have e4 : (2:Nat) ^ (2 * ((z.hs + z.ss) % 4)) = 4 ^ ((z.hs + z.ss) % 4) := by rw [Nat.pow_mul]
  rw [e4]
  have hp1 : 256 ^ ((z.hs + z.ss + 1) * 3 / 4) ≤ 256 ^ 6 := Nat.pow_le_pow_right (by decide) (by omega)
  split
  · rename_i hn
    have hp2 : 256 ^ ((z.hs + z.ss + 1) * 3 / 4) ≤ 256 ^ 3 := Nat.pow_le_pow_right (by decide) hn
    rw [b64ToU32_encD hhlt (by omega), Res.ok_bind, Nat.mod_eq_of_lt (by omega), toBe_drop _ _ _ (by omega),
      show 4 - (4 - (z.hs + z.ss + 1) * 3 / 4) = (z.hs + z.ss + 1) * 3 / 4 by omega, ← hpack, hfin]
  · rw [if_pos (by omega)]
    rw [b64ToU64_encD hhlt (by omega), Res.ok_bind, Nat.mod_eq_of_lt (by omega), toBe_drop _ _ _ (by omega),
      show 8 - (8 - (z.hs + z.ss + 1) * 3 / 4) = (z.hs + z.ss + 1) * 3 / 4 by omega, ← hpack, hfin]

/-- Parsing the canonical text of a well-formed primitive, followed by any string. -/
theorem Wf.exfil {m : Matter} {z : Sizage} (w : Wf m z) {rest : Str} (hr : utf8Valid rest = true) :
    Matter.exfil (text m z ++ rest) = .ok m := by
  obtain ⟨h3, hps, ht, _, hne, hle⟩ := w.arith
  have r := row_of_sizage w.szg
  have hta := w.text_ascii
  have htl := w.text_length
  have hts := text_split w.szg
  have hpls := r.pls
  obtain ⟨c, t, hc, hhard, _⟩ := r.hard
  have hcl := r.len
  obtain ⟨q', hq⟩ : ∃ q', text m z ++ rest = c :: q' := by
    rw [hts, hc]; exact ⟨_, rfl⟩
  unfold Matter.exfil
  rw [hq]
  simp only
  rw [← hq, hhard, Res.ok_bind]
  have hlen : (text m z ++ rest).length = total m z + rest.length := by simp [htl]
  rw [hlen, if_neg (by omega), sliceStr_prefix hta hr (Nat.zero_le _) (by omega), Res.ok_bind]
  have hcode : ((text m z).take z.hs).drop 0 = m.code := by
    rw [hts, List.append_assoc, ← hcl]; simp
  rw [hcode, w.szg, Res.ok_bind]
  have hsel : (if z.fs = u32Max then
          if (z.hs + z.ss) % 4 ≠ 0 then .err .invalidCodeSize
          else if total m z + rest.length < z.hs + z.ss then .err .shortage
          else do
            let soft ← sliceStr (text m z ++ rest) z.hs (z.hs + z.ss)
            let size ← b64ToU32 soft
            .ok (size * 4 + (z.hs + z.ss), size)
        else .ok (z.fs, 0) : Res (Nat × Nat)) = .ok (total m z, m.size) := by
    unfold total
    split
    · rename_i hf
      have hv := r.var hf
      rw [if_neg (by omega), if_neg (by omega), sliceStr_prefix hta hr (by omega) (by omega), Res.ok_bind]
      have : ((text m z).take (z.hs + z.ss)).drop z.hs = encD (digitsB 64 z.ss m.size) := by
        rw [hts, List.take_append_of_le_length (by simp; omega), List.take_of_length_le (by simp; omega), ← hcl]
        simp
      rw [this, b64ToU32_encD (digitsB_lt (by decide) _ _) (by simp; have := r.ss4; omega), Res.ok_bind, w.valSize]
    · rename_i hf
      rw [(w.fix hf).1]
  rw [hsel, Res.ok_bind]
  simp only
  rw [if_neg (by omega), sliceStr_prefix hta hr (Nat.zero_le _) (by omega), Res.ok_bind]
  have htrim : ((text m z).take (total m z)).drop 0 = text m z := by
    rw [← htl]; simp
  rw [htrim]
  rw [sliceStr_ascii_to_end hta (by omega), Res.ok_bind]
  have hmat : (text m z).drop (z.hs + z.ss)
      = encD ((sextets (List.replicate ((z.hs + z.ss) % 4 + z.ls) 0 ++ m.raw)).drop ((z.hs + z.ss) % 4)) := by
    rw [hts, List.drop_append, List.drop_of_length_le (by simp [hcl])]
    simp [hcl]
  rw [hmat]
  have hdec : b64Decode (List.replicate ((z.hs + z.ss) % 4) (ch 'A') ++
      encD ((sextets (List.replicate ((z.hs + z.ss) % 4 + z.ls) 0 ++ m.raw)).drop ((z.hs + z.ss) % 4)))
      = .ok (List.replicate ((z.hs + z.ss) % 4 + z.ls) 0 ++ m.raw) := by
    rw [← encD_replicate, ← encD_append, sextets_zeros_split h3 ⟨by omega, hne⟩]
    exact b64Decode_encD_sextets (by rw [lead_len]; omega)
  split
  · rename_i hp
    have hl0 : z.ls = 0 := by
      rcases r.pOrL with h | h
      · exact absurd h hp
      · exact h
    rw [hdec, Res.ok_bind, slice_eq (Nat.zero_le _) (by rw [lead_len]; omega), Res.ok_bind, hl0]
    have e1 : (List.take ((z.hs + z.ss) % 4) (List.replicate ((z.hs + z.ss) % 4 + 0) (0 : UInt8) ++ m.raw)).drop 0
        = List.replicate ((z.hs + z.ss) % 4) 0 := by
      simp
    rw [e1, beNat_replicate]
    simp only [Nat.zero_mod, ne_eq, not_true, if_false]
    rw [slice_to_end (by rw [lead_len]; omega), Res.ok_bind]
    simp
  · rename_i hp
    have hp : (z.hs + z.ss) % 4 = 0 := by omega
    rw [hp] at hdec ⊢
    simp only [List.replicate_zero, List.nil_append, Nat.zero_add] at hdec ⊢
    rw [hdec, Res.ok_bind, slice_eq (Nat.zero_le _) (by simp), Res.ok_bind]
    have e1 : (List.take z.ls (List.replicate z.ls (0 : UInt8) ++ m.raw)).drop 0 = List.replicate z.ls 0 := by
      simp
    rw [e1, beNat_replicate]
    simp only [ne_eq, not_true, if_false]
    rw [slice_to_end (by simp), Res.ok_bind]
    simp

end Matter
end Cesride
