import Verif.Lemmas.Body
import Verif.Model.Indexer

/-! # Lemmas about the Indexer model -/

namespace Cesride
namespace Indexer

/-- Everything the proofs need from a table row. -/
def rowOk (code : Str) (z : ISizage) : Bool :=
  code.length == z.hs && code.all isB64 &&
  (code.head?.map hardage == some (.ok z.hs)) &&
  ((code.head?.bind sextetVal).map bardage == some (.ok z.hs)) &&
  decide (z.ls ≤ 1) && decide ((z.hs + z.ss) % 4 ≤ 2) && decide (z.hs + z.ss ≤ 8) &&
  decide (1 ≤ z.hs ∧ z.hs ≤ 2) && decide (z.os < z.ss) && decide (z.ss - z.os ≤ 3 ∧ z.os ≤ 3) &&
  ((z.hs + z.ss) % 4 == 0 || z.ls == 0) &&
  (if z.fs = u32Max then (z.hs + z.ss) % 4 == 0 && z.os == 0 && z.ls == 0 && z.ss == 2
   else z.fs % 4 == 0 && decide (z.hs + z.ss + 72 ≤ z.fs) && decide (z.fs ≤ 160) &&
     decide (((z.fs - (z.hs + z.ss)) * 3 / 4 + (z.hs + z.ss) % 4) * 4 = (z.fs - (z.hs + z.ss) + (z.hs + z.ss) % 4) * 3))

theorem table_rowOk : ∀ e ∈ sizes, rowOk e.1 e.2 = true := by decide +kernel

theorem sizage_mem {code : Str} {z : ISizage} (h : sizage code = .ok z) : (code, z) ∈ sizes := by
  unfold sizage at h
  split at h
  · rename_i z' hz; cases h; exact Matter.lookup_mem hz
  · cases h

theorem sizage_of_mem : ∀ e ∈ sizes, sizage e.1 = .ok e.2 := by decide +kernel

theorem sizage_ne_panic (s : Str) : sizage s ≠ .panic := by
  unfold sizage; split <;> simp

theorem hardage_ne_panic (c : UInt8) : hardage c ≠ .panic := by
  unfold hardage; repeat' split
  all_goals simp

theorem bardage_ne_panic (c : Nat) : bardage c ≠ .panic := by
  unfold bardage; repeat' split
  all_goals simp

theorem hardage_le {c : UInt8} {hs : Nat} (h : hardage c = .ok hs) : 1 ≤ hs ∧ hs ≤ 2 := by
  unfold hardage at h
  repeat' split at h
  all_goals first
    | (injection h with h; omega)
    | cases h

theorem bardage_le {c : Nat} {hs : Nat} (h : bardage c = .ok hs) : 1 ≤ hs ∧ hs ≤ 2 := by
  unfold bardage at h
  repeat' split at h
  all_goals first
    | (injection h with h; omega)
    | cases h

/-- Facts about a table row, in usable form. -/
structure Row (code : Str) (z : ISizage) : Prop where
  len : code.length = z.hs
  b64 : ∀ c ∈ code, isB64 c = true
  hard : ∃ c t, code = c :: t ∧ hardage c = .ok z.hs ∧ ∃ i, sextetVal c = some i ∧ bardage i = .ok z.hs
  ls1 : z.ls ≤ 1
  p2 : (z.hs + z.ss) % 4 ≤ 2
  cs : z.hs + z.ss ≤ 8
  hs1 : 1 ≤ z.hs
  hs2 : z.hs ≤ 2
  os : z.os < z.ss
  ms3 : z.ss - z.os ≤ 3
  os3 : z.os ≤ 3
  pOrL : (z.hs + z.ss) % 4 = 0 ∨ z.ls = 0
  var : z.fs = u32Max → (z.hs + z.ss) % 4 = 0 ∧ z.os = 0 ∧ z.ls = 0 ∧ z.ss = 2
  fix : z.fs ≠ u32Max → z.fs % 4 = 0 ∧ z.hs + z.ss + 72 ≤ z.fs ∧ z.fs ≤ 160 ∧
    ((z.fs - (z.hs + z.ss)) * 3 / 4 + (z.hs + z.ss) % 4) * 4 = (z.fs - (z.hs + z.ss) + (z.hs + z.ss) % 4) * 3

theorem row_of_sizage {code : Str} {z : ISizage} (h : sizage code = .ok z) : Row code z := by
  have := table_rowOk _ (sizage_mem h)
  simp only [rowOk, Bool.and_eq_true, beq_iff_eq, decide_eq_true_eq, Bool.or_eq_true, List.all_eq_true] at this
  obtain ⟨⟨⟨⟨⟨⟨⟨⟨⟨⟨⟨h1, h2⟩, h3⟩, h4⟩, h5⟩, h6⟩, h7⟩, h8, h8'⟩, h9⟩, h10, h10'⟩, h11⟩, h12⟩ := this
  refine ⟨h1, h2, ?_, h5, h6, h7, h8, h8', h9, h10, h10', h11, ?_, ?_⟩
  · cases code with
    | nil => simp at h3
    | cons c t =>
      refine ⟨c, t, rfl, by simpa using h3, ?_⟩
      simp only [List.head?_cons, Option.bind_some] at h4
      cases hv : sextetVal c with
      | none => simp [hv] at h4
      | some i => exact ⟨i, rfl, by simpa [hv] using h4⟩
  · intro hf
    simp only [hf, if_true, Bool.and_eq_true, beq_iff_eq] at h12
    obtain ⟨⟨⟨a, b⟩, c⟩, d⟩ := h12
    exact ⟨a, b, c, d⟩
  · intro hf
    simp only [hf, if_false, Bool.and_eq_true, beq_iff_eq, decide_eq_true_eq] at h12
    obtain ⟨⟨⟨a, b⟩, c⟩, d⟩ := h12
    exact ⟨a, b, c, d⟩

/-- The ondex is the one the soft part stands for. -/
def Meant (code : Str) (os index ondex : Nat) : Prop :=
  if isCurrent code then ondex = 0 else os = 0 → ondex = index

/-- Well-formed head: table code, index and ondex within bounds, ondex as the soft part means it. -/
structure HeadOk (x : Indexer) (z : ISizage) : Prop where
  szg : sizage x.code = .ok z
  index : x.index < 64 ^ (z.ss - z.os)
  ondex : 0 < z.os → x.ondex < 64 ^ z.os

/-- Well-formed indexed primitive of a code without lead bytes. -/
structure Wf (x : Indexer) (z : ISizage) : Prop extends HeadOk x z where
  ls : z.ls = 0
  var : z.fs = u32Max → x.raw.length = 3 * x.index
  fix : z.fs ≠ u32Max → x.raw.length = (z.fs - (z.hs + z.ss)) * 3 / 4

/-- Head digits: code, index, ondex. -/
def headD (x : Indexer) (z : ISizage) : List Nat :=
  codeDigits x.code ++ digitsB 64 (z.ss - z.os) x.index ++ digitsB 64 z.os x.ondex

/-- Total number of characters. -/
def total (x : Indexer) (z : ISizage) : Nat := if z.fs = u32Max then x.index * 4 + (z.hs + z.ss) else z.fs

/-- Canonical text. -/
def text (x : Indexer) (z : ISizage) : Str := encD (frameD (headD x z) 0 x.raw)

/-- Canonical binary. -/
def binary (x : Indexer) (z : ISizage) : List UInt8 := packD (headD x z) ++ List.replicate 0 0 ++ x.raw

theorem headD_length {x : Indexer} {z : ISizage} (h : sizage x.code = .ok z) : (headD x z).length = z.hs + z.ss := by
  have r := row_of_sizage h
  have := r.os
  simp [headD, r.len]; omega

theorem headD_lt {x : Indexer} {z : ISizage} (h : sizage x.code = .ok z) : ∀ d ∈ headD x z, d < 64 := by
  have r := row_of_sizage h
  intro d hd
  rcases List.mem_append.mp hd with hd | hd
  · rcases List.mem_append.mp hd with hd | hd
    · exact codeDigits_lt r.b64 d hd
    · exact digitsB_lt (by decide) _ _ d hd
  · exact digitsB_lt (by decide) _ _ d hd

theorem encD_headD {x : Indexer} {z : ISizage} (h : sizage x.code = .ok z) :
    encD (headD x z) = x.code ++ encD (digitsB 64 (z.ss - z.os) x.index) ++ encD (digitsB 64 z.os x.ondex) := by
  rw [headD, encD_append, encD_append, encD_codeDigits (row_of_sizage h).b64]

theorem pow3 {k : Nat} (h : k ≤ 3) : 64 ^ k ≤ 262144 := by
  have : 64 ^ k ≤ 64 ^ 3 := Nat.pow_le_pow_right (by decide) h
  omega

theorem HeadOk.index_lt {x : Indexer} {z : ISizage} (w : HeadOk x z) : x.index < 262144 := by
  have := w.index
  have := pow3 (row_of_sizage w.szg).ms3
  omega

/-- Index and ondex digits as `u32_to_b64` writes them. -/
theorem HeadOk.soft {x : Indexer} {z : ISizage} (w : HeadOk x z) (E : Env) :
    uintToB64 E x.index (z.ss - z.os) = .ok (encD (digitsB 64 (z.ss - z.os) x.index)) ∧
    uintToB64 E x.ondex z.os = .ok (encD (digitsB 64 z.os x.ondex)) := by
  have r := row_of_sizage w.szg
  have h1 := w.index_lt
  refine ⟨uintToB64_eq E w.index (by omega), ?_⟩
  by_cases h0 : z.os = 0
  · rw [h0]; rfl
  · have := w.ondex (by omega)
    have := pow3 r.os3
    exact uintToB64_eq E (w.ondex (by omega)) (by omega)

theorem Wf.arith {x : Indexer} {z : ISizage} (w : Wf x z) :
    (x.raw.length + (z.hs + z.ss) % 4 + 0) % 3 = 0 ∧
    (3 - x.raw.length % 3) % 3 = (z.hs + z.ss) % 4 ∧
    total x z = (z.hs + z.ss) - (z.hs + z.ss) % 4 + (x.raw.length + (z.hs + z.ss) % 4) / 3 * 4 ∧
    total x z % 4 = 0 ∧ ((z.hs + z.ss) % 4 = 0 ∨ 0 < x.raw.length + 0) ∧ z.hs + z.ss ≤ total x z := by
  have r := row_of_sizage w.szg
  have h1 := r.p2
  unfold total
  by_cases hf : z.fs = u32Max
  · have := w.var hf
    have := r.var hf
    simp only [hf, if_true]
    omega
  · have e2 := w.fix hf
    obtain ⟨a, b, c, d⟩ := r.fix hf
    simp only [hf, if_false]
    rw [← e2] at d
    omega

theorem Wf.text_length {x : Indexer} {z : ISizage} (w : Wf x z) : (text x z).length = total x z := by
  obtain ⟨h3, _, ht, _, hne, hle⟩ := w.arith
  have hl := headD_length w.szg
  have := frameD_length (headD x z) 0 x.raw (by rw [hl]; exact h3)
  rw [hl] at this
  rw [text, encD_length]
  omega

theorem Wf.text_lt {x : Indexer} {z : ISizage} (w : Wf x z) : ∀ d ∈ frameD (headD x z) 0 x.raw, d < 64 :=
  frameD_lt (headD_lt w.szg) _ _

theorem Wf.text_b64 {x : Indexer} {z : ISizage} (w : Wf x z) : ∀ c ∈ text x z, isB64 c = true :=
  encD_isB64 w.text_lt

theorem Wf.text_ascii {x : Indexer} {z : ISizage} (w : Wf x z) : Ascii (text x z) := ascii_encD w.text_lt

theorem text_split {x : Indexer} {z : ISizage} (h : sizage x.code = .ok z) : text x z =
    encD (headD x z) ++
      encD ((sextets (List.replicate ((z.hs + z.ss) % 4 + 0) 0 ++ x.raw)).drop ((z.hs + z.ss) % 4)) := by
  rw [text, frameD, encD_append, headD_length h]

theorem Wf.fs {x : Indexer} {z : ISizage} (w : Wf x z) (e : Err) (e' : Err) :
    (if z.fs = u32Max then
      if (z.hs + z.ss) % 4 ≠ 0 then .err e
      else if z.os ≠ 0 then .err e'
      else .ok (x.index * 4 + (z.hs + z.ss))
    else .ok z.fs : Res Nat) = .ok (total x z) := by
  have r := row_of_sizage w.szg
  unfold total
  split
  · rename_i hf
    obtain ⟨a, b, _⟩ := r.var hf
    rw [if_neg (by omega), if_neg (by omega)]
  · rfl

theorem Wf.fs32 {x : Indexer} {z : ISizage} (w : Wf x z) (E : Env) (e : Err) (e' : Err) :
    (if z.fs = u32Max then
      if (z.hs + z.ss) % 4 ≠ 0 then .err e
      else if z.os ≠ 0 then .err e'
      else E.fitU32 (x.index * 4 + (z.hs + z.ss))
    else .ok z.fs : Res Nat) = .ok (total x z) := by
  have r := row_of_sizage w.szg
  rw [← w.fs e e']
  have := w.toHeadOk.index_lt
  have := r.cs
  have : E.fitU32 (x.index * 4 + (z.hs + z.ss)) = .ok (x.index * 4 + (z.hs + z.ss)) := by
    rw [Env.fitU32, if_pos (by omega)]
  rw [this]

/-- Encoding of a well-formed primitive. -/
theorem Wf.infil {x : Indexer} {z : ISizage} (w : Wf x z) (E : Env) : x.infil E = .ok (text x z) := by
  obtain ⟨h3, hps, ht, _, hne, hle⟩ := w.arith
  have r := row_of_sizage w.szg
  have hts := text_split w.szg
  have htl := w.text_length
  have hi := w.index
  obtain ⟨s1, s2⟩ := w.toHeadOk.soft E
  unfold Indexer.infil
  simp only [w.szg, Res.ok_bind, hps, w.fs32]
  rw [if_neg (by omega)]
  rw [if_neg (by intro ⟨h1, h2⟩; have := w.ondex h1; omega)]
  rw [s1, Res.ok_bind, s2, Res.ok_bind]
  rw [← encD_headD w.szg, encD_length, headD_length w.szg, if_neg (by omega)]
  rw [w.ls]
  have : E.subU32 ((z.hs + z.ss) % 4) 0 = .ok ((z.hs + z.ss) % 4) := by simp [Env.subU32]
  rw [this, Res.ok_bind, if_neg (by omega)]
  rw [b64Encode_eq (by simp; omega)]
  rw [sliceStr_ascii_to_end (ascii_encD (sextets_lt _)) (by rw [encD_length, sextets_length]; simp; omega), Res.ok_bind]
  have he : encD (headD x z) ++ (encD (sextets (List.replicate ((z.hs + z.ss) % 4) 0 ++ x.raw))).drop ((z.hs + z.ss) % 4 - 0) = text x z := by
    rw [hts, encD_drop]; rfl
  rw [he, if_neg (by omega)]

/-- The binary form is the Base64 decoding of the text. -/
theorem Wf.sextets_binary {x : Indexer} {z : ISizage} (w : Wf x z) :
    encD (sextets (binary x z)) = text x z ∧ (binary x z).length % 3 = 0 := by
  obtain ⟨h3, hps, ht, _, hne, hle⟩ := w.arith
  have hl := headD_length w.szg
  have := sextets_pack (headD_lt w.szg) (ls := 0) (raw := x.raw) (by rw [hl]; exact h3) (by rw [hl]; exact hne)
  rw [binary, text, this.1]
  exact ⟨rfl, this.2⟩

theorem Wf.binary_length {x : Indexer} {z : ISizage} (w : Wf x z) : (binary x z).length * 4 = total x z * 3 := by
  obtain ⟨h, h3⟩ := w.sextets_binary
  have := congrArg List.length h
  rw [encD_length, sextets_length, w.text_length] at this
  omega

theorem powBound_ge {E : Env} {z : ISizage} {b : Nat} (h : powBound E z.ss = .ok b) (hms : z.ss - z.os ≤ 3) (i : Nat)
    (hi : i < 64 ^ (z.ss - z.os)) : ¬ b < i := by
  unfold powBound at h
  split at h
  · injection h with h
    have : 64 ^ (z.ss - z.os) ≤ 64 ^ z.ss := Nat.pow_le_pow_right (by decide) (by omega)
    omega
  · have := pow3 hms
    split at h
    · cases h
    · injection h with h; unfold u32Max at h; omega

/-- Binary encoding of a well-formed primitive: everything after the index bound test. -/
theorem Wf.binfil {x : Indexer} {z : ISizage} (w : Wf x z) (E : Env) :
    x.binfil E = if 6 ≤ z.ss ∧ E.overflowChecks = true then .panic else .ok (binary x z) := by
  have r := row_of_sizage w.szg
  obtain ⟨h3, hps, ht, hT4, hne, hle⟩ := w.arith
  have hbl := w.binary_length
  have hb3 := w.sextets_binary.2
  have hhl := headD_length w.szg
  have hhlt := headD_lt w.szg
  have hcs := r.cs
  have hpb := pack_bound hhlt
  rw [hhl] at hpb
  obtain ⟨s1, s2⟩ := w.toHeadOk.soft E
  have hpack : packD (headD x z) = toBe ((z.hs + z.ss + 1) * 3 / 4) (valB 64 (headD x z) * 4 ^ ((z.hs + z.ss) % 4)) := by
    rw [packD, hhl]
  have hfin : binfil.finish 0 (total x z) (packD (headD x z)) x.raw = .ok (binary x z) := by
    unfold binfil.finish
    simp only
    rw [show packD (headD x z) ++ List.replicate 0 0 ++ x.raw = binary x z from rfl]
    rw [if_neg (by omega)]
  unfold Indexer.binfil
  simp only [w.szg, Res.ok_bind, hps]
  by_cases hov : 6 ≤ z.ss ∧ E.overflowChecks = true
  · rw [if_pos hov]
    have : powBound E z.ss = .panic := by simp [powBound, show ¬ z.ss ≤ 5 by omega, hov.2]
    rw [this]; rfl
  rw [if_neg hov]
  obtain ⟨b, hb⟩ : ∃ b, powBound E z.ss = .ok b := by
    unfold powBound
    split
    · exact ⟨_, rfl⟩
    · split
      · rename_i h1 h2; exact absurd ⟨by omega, h2⟩ hov
      · exact ⟨_, rfl⟩
  rw [hb, Res.ok_bind, if_neg (powBound_ge hb r.ms3 _ w.index)]
  rw [if_neg (by intro ⟨h1, h2⟩; have := w.ondex (by omega); omega)]
  rw [w.fs, Res.ok_bind, s1, Res.ok_bind, s2, Res.ok_bind]
  rw [← encD_headD w.szg, encD_length, hhl, if_neg (by omega), w.ls]
  have : E.subU32 ((z.hs + z.ss) % 4) 0 = .ok ((z.hs + z.ss) % 4) := by simp [Env.subU32]
  rw [this, Res.ok_bind, if_neg (by omega)]
  have e4 : (2:Nat) ^ (2 * ((z.hs + z.ss) % 4)) = 4 ^ ((z.hs + z.ss) % 4) := by rw [Nat.pow_mul]
  rw [e4]
  have hp1 : 256 ^ ((z.hs + z.ss + 1) * 3 / 4) ≤ 256 ^ 6 := Nat.pow_le_pow_right (by decide) (by omega)
  split
  · rename_i hn
    have hp2 : 256 ^ ((z.hs + z.ss + 1) * 3 / 4) ≤ 256 ^ 3 := Nat.pow_le_pow_right (by decide) hn
    rw [b64ToU32_encD hhlt (by omega), Res.ok_bind, Nat.mod_eq_of_lt (by omega), toBe_drop _ _ _ (by omega),
      show 4 - (4 - (z.hs + z.ss + 1) * 3 / 4) = (z.hs + z.ss + 1) * 3 / 4 by omega, ← hpack, hfin]
  · rw [if_pos (by omega)]
    rw [b64ToU64_encD hhlt (by omega), Res.ok_bind, Nat.mod_eq_of_lt (by omega), toBe_drop _ _ _ (by omega),
      show 8 - (8 - (z.hs + z.ss + 1) * 3 / 4) = (z.hs + z.ss + 1) * 3 / 4 by omega, ← hpack, hfin]

/-! ## Parsing -/

theorem readOndex_digits {x : Indexer} {z : ISizage} (w : HeadOk x z) (c : Meant x.code z.os x.index x.ondex) :
    readOndex x.code z.os x.index (encD (digitsB 64 z.os x.ondex)) = .ok x.ondex := by
  have r := row_of_sizage w.szg
  have hb : 0 < z.os → b64ToU32 (encD (digitsB 64 z.os x.ondex)) = .ok x.ondex := by
    intro h0
    rw [b64ToU32_encD (digitsB_lt (by decide) _ _) (by simp; have := r.os3; omega), valB_digitsB,
      Nat.mod_eq_of_lt (w.ondex h0)]
  unfold readOndex
  unfold Meant at c
  split
  · rename_i hc
    simp only [hc, if_true] at c
    split
    · rw [hb (by omega), Res.ok_bind, if_neg (by omega), c]
    · rw [c]
  · rename_i hc
    simp only [hc, Bool.false_eq_true, if_false] at c
    split
    · exact hb (by omega)
    · rw [c (by omega)]

theorem head_slices {x : Indexer} {z : ISizage} (h : sizage x.code = .ok z) :
    (encD (headD x z)).take z.hs = x.code ∧
    ((encD (headD x z)).take (z.hs + (z.ss - z.os))).drop z.hs = encD (digitsB 64 (z.ss - z.os) x.index) ∧
    ((encD (headD x z)).take (z.hs + (z.ss - z.os + z.os))).drop (z.hs + (z.ss - z.os)) = encD (digitsB 64 z.os x.ondex) := by
  have r := row_of_sizage h
  have hl := r.len
  rw [encD_headD h]
  refine ⟨?_, ?_, ?_⟩
  · rw [List.append_assoc, ← hl]; simp
  · rw [List.take_append_of_le_length (by simp; omega), List.take_of_length_le (by simp; omega), ← hl]; simp
  · rw [List.take_of_length_le (by simp; omega)]
    rw [List.drop_append, List.drop_of_length_le (by simp; omega)]
    simp [hl]

/-- The second half of `exfil`: material of `s` after a head `x`. -/
def exfilBody (x : Indexer) (z : ISizage) (s : Str) : Res Indexer :=
  if s.length < total x z then .err .shortage
  else do
    let trim ← sliceStr s 0 (total x z)
    let material ← sliceStr trim (z.hs + z.ss) trim.length
    if (z.hs + z.ss) % 4 ≠ 0 then do
      let paw ← b64Decode (List.replicate ((z.hs + z.ss) % 4) (ch 'A') ++ material)
      let pad ← slice paw 0 ((z.hs + z.ss) % 4)
      if beNat pad % 2 ^ (2 * (if (z.hs + z.ss) % 4 ≠ 0 then (z.hs + z.ss) % 4 else z.ls)) ≠ 0 then .err .prepad
      else do
        let raw ← slice paw ((z.hs + z.ss) % 4) paw.length
        .ok { x with raw := raw }
    else do
      let paw ← b64Decode material
      let lead ← slice paw 0 z.ls
      if beNat lead ≠ 0 then
        if z.ls = 1 then .err .nonZeroedLeadByte else .err .nonZeroedLeadBytes
      else do
        let raw ← slice paw ((z.hs + z.ss) % 4) paw.length
        .ok { x with raw := raw }

theorem fs_eq {x : Indexer} {z : ISizage} (h : sizage x.code = .ok z) (e e' : Err) :
    (if z.fs = u32Max then
      if (z.hs + z.ss) % 4 ≠ 0 then .err e
      else if z.os ≠ 0 then .err e'
      else .ok (x.index * 4 + (z.hs + z.ss))
    else .ok z.fs : Res Nat) = .ok (total x z) := by
  have r := row_of_sizage h
  unfold total
  split
  · rename_i hf
    obtain ⟨a, b, _⟩ := r.var hf
    rw [if_neg (by omega), if_neg (by omega)]
  · rfl

/-- Parsing text that starts with a well-formed head. -/
theorem exfil_head {x : Indexer} {z : ISizage} (w : HeadOk x z) (c : Meant x.code z.os x.index x.ondex) {rest : Str}
    (hr : utf8Valid rest = true) :
    Indexer.exfil (encD (headD x z) ++ rest) = exfilBody x z (encD (headD x z) ++ rest) := by
  have r := row_of_sizage w.szg
  have hos := r.os
  have hta := ascii_encD (headD_lt w.szg)
  have hl := headD_length w.szg
  obtain ⟨t1, t2, t3⟩ := head_slices w.szg
  obtain ⟨c0, t, hc, hhard, _⟩ := r.hard
  obtain ⟨q', hq⟩ : ∃ q', encD (headD x z) ++ rest = c0 :: q' := by
    rw [encD_headD w.szg, hc]; exact ⟨_, rfl⟩
  unfold Indexer.exfil
  rw [hq]
  simp only
  rw [← hq, hhard, Res.ok_bind]
  have hlen : (encD (headD x z) ++ rest).length = z.hs + z.ss + rest.length := by simp [hl]
  rw [if_neg (by omega), sliceStr_prefix hta hr (Nat.zero_le _) (by simp; omega), Res.ok_bind, List.drop_zero, t1, w.szg, Res.ok_bind]
  rw [if_neg (by omega), sliceStr_prefix hta hr (by omega) (by simp; omega), Res.ok_bind, t2]
  rw [b64ToU32_encD (digitsB_lt (by decide) _ _) (by simp; have := r.ms3; omega), Res.ok_bind, valB_digitsB,
      Nat.mod_eq_of_lt w.index]
  rw [sliceStr_prefix hta hr (by omega) (by simp; omega), Res.ok_bind, t3, readOndex_digits w c, Res.ok_bind]
  rw [fs_eq w.szg, Res.ok_bind]
  rfl

/-- Parsing the canonical text of a well-formed primitive, followed by any string. -/
theorem Wf.exfil {x : Indexer} {z : ISizage} (w : Wf x z) (c : Meant x.code z.os x.index x.ondex) {rest : Str}
    (hr : utf8Valid rest = true) : Indexer.exfil (text x z ++ rest) = .ok x := by
  obtain ⟨h3, hps, ht, _, hne, hle⟩ := w.arith
  have r := row_of_sizage w.szg
  have hta := w.text_ascii
  have htl := w.text_length
  have hts := text_split w.szg
  have hhl := headD_length w.szg
  have hp2 := r.p2
  have hmr : utf8Valid (encD ((sextets (List.replicate ((z.hs + z.ss) % 4 + 0) 0 ++ x.raw)).drop ((z.hs + z.ss) % 4)) ++ rest) = true := by
    rw [utf8Valid_ascii_append]
    · exact hr
    · exact ascii_encD (fun d hd => sextets_lt _ d (List.mem_of_mem_drop hd))
  have e := exfil_head w.toHeadOk c hmr
  rw [← List.append_assoc, ← hts] at e
  rw [e]
  unfold exfilBody
  rw [if_neg (by simp [htl])]
  rw [sliceStr_prefix hta hr (Nat.zero_le _) (by omega), Res.ok_bind, List.drop_zero, ← htl, List.take_length]
  rw [sliceStr_ascii_to_end hta (by omega), Res.ok_bind]
  have hmat : (text x z).drop (z.hs + z.ss)
      = encD ((sextets (List.replicate ((z.hs + z.ss) % 4 + 0) 0 ++ x.raw)).drop ((z.hs + z.ss) % 4)) := by
    rw [hts, List.drop_append, List.drop_of_length_le (by simp [hhl])]
    simp [hhl]
  have hdec := body_decode h3 ⟨by omega, hne⟩
  rw [hmat, w.ls]
  split
  · rename_i hp
    rw [hdec, Res.ok_bind, slice_eq (Nat.zero_le _) (by simp), Res.ok_bind]
    have e1 : (List.take ((z.hs + z.ss) % 4) (List.replicate ((z.hs + z.ss) % 4 + 0) (0 : UInt8) ++ x.raw)).drop 0
        = List.replicate ((z.hs + z.ss) % 4) 0 := by
      simp
    rw [e1, beNat_replicate]
    simp only [Nat.zero_mod, ne_eq, not_true, if_false]
    rw [slice_to_end (by simp), Res.ok_bind]
    simp
  · rename_i hp
    have hp : (z.hs + z.ss) % 4 = 0 := by omega
    rw [hp] at hdec ⊢
    simp only [List.replicate_zero, List.nil_append, Nat.zero_add] at hdec ⊢
    rw [hdec, Res.ok_bind, slice_eq (Nat.zero_le _) (by simp), Res.ok_bind]
    simp only [List.take_zero, List.drop_nil, show beNat [] = 0 from rfl, ne_eq, not_true, if_false]
    rw [slice_to_end (by simp), Res.ok_bind]
    simp

end Indexer
end Cesride
