import Verif.Lemmas.Indexer3
import Verif.Spec.Indexed

/-!
# Properties C17 - C22 of `Indexer`

Statements use the public constructor `Indexer.new` and the accessors of the model together with
`Verif/Spec/Cesr.lean` and `Verif/Spec/Indexed.lean`.
-/

namespace Cesride
open Indexer

/-- `Indexer::new` with code, raw and indices. -/
abbrev Indexer.ofRaw (E : Env) (code : Str) (raw : List UInt8) (index : Nat) (ondex : Option Nat) : Res Indexer :=
  Indexer.new E (some index) ondex (some code) (some raw) none none none
/-- `Indexer::new` with qb64 text. -/
abbrev Indexer.ofText (E : Env) (t : Str) : Res Indexer := Indexer.new E none none none none none (some t) none
/-- `Indexer::new` with qb64 bytes. -/
abbrev Indexer.ofTextBytes (E : Env) (t : List UInt8) : Res Indexer := Indexer.new E none none none none (some t) none none
/-- `Indexer::new` with qb2 bytes. -/
abbrev Indexer.ofBinary (E : Env) (b : List UInt8) : Res Indexer := Indexer.new E none none none none none none (some b)

/-- The table row of a codex code. -/
def idxRow (c : Spec.IdxCode) : ISizage :=
  { hs := c.code.length
    ss := if c.separate then 2 * c.digits else c.digits
    os := if c.separate then c.digits else 0
    ls := 0
    fs := if c.raw = 114 then (if c.digits = 1 then 156 else 160) else (if c.digits = 1 then 88 else 92) }

theorem idxCodes_table : ∀ c ∈ Spec.idxCodes, sizage c.code = .ok (idxRow c) ∧ isCurrent c.code = c.current ∧
    isBoth c.code = !c.current ∧ (idxRow c).fs ≠ u32Max ∧
    ((idxRow c).fs - ((idxRow c).hs + (idxRow c).ss)) * 3 / 4 = c.raw ∧ (idxRow c).ss - (idxRow c).os = c.digits ∧
    (c.separate = true → (idxRow c).os = c.digits ∧ 0 < c.digits) ∧ (c.separate = false → (idxRow c).os = 0) ∧
    (6 ≤ (idxRow c).ss ↔ (c.code = lit "3A" ∨ c.code = lit "3B")) := by decide +kernel

/-- Same row for the same text. -/
theorem idxRow_unique {c : Spec.IdxCode} (hc : c ∈ Spec.idxCodes) {z : ISizage} (hz : sizage c.code = .ok z) : z = idxRow c := by
  have := (idxCodes_table c hc).1
  rw [hz] at this
  injection this

/-- Indexed primitives a caller can obtain with the sixteen signature codes: built with permitted indices,
parsed from binary, or parsed from text whose consumed characters contain no `=`. -/
inductive IdxObtained (E : Env) (c : Spec.IdxCode) : Indexer → Prop
  | built {raw index ondex x} : Spec.Permitted c index ondex → Indexer.ofRaw E c.code raw index ondex = .ok x → IdxObtained E c x
  | binary {b x} : Indexer.ofBinary E b = .ok x → x.code = c.code → IdxObtained E c x
  | text {s n x} : Indexer.ofText E s = .ok x → x.code = c.code → x.fullSize = .ok n → ch '=' ∉ s.take n → IdxObtained E c x

theorem fullSize_eq {x : Indexer} {z : ISizage} (hz : sizage x.code = .ok z) : x.fullSize = .ok (total x z) := by
  simp only [Indexer.fullSize, hz, Res.ok_bind]
  unfold total
  by_cases hf : z.fs = u32Max
  · simp [hf]
  · simp [hf]

theorem IdxObtained.wf {E : Env} {c : Spec.IdxCode} (hc : c ∈ Spec.idxCodes) {x : Indexer} (h : IdxObtained E c x) :
    x.code = c.code ∧ Wf x (idxRow c) ∧ Meant x.code (idxRow c).os x.index x.ondex := by
  obtain ⟨hz, hcur, hboth, hf, hraw, hms, hsep, hnsep, _⟩ := idxCodes_table c hc
  cases h with
  | built hp h =>
    rename_i raw index ondex
    have hw := new_wf (x := x) hz rfl h
    have hn := h
    change newWithCodeAndRaw c.code raw index ondex = .ok x at hn
    rw [new_eq hz] at hn
    generalize (if (idxRow c).fs = u32Max then 3 * index else ((idxRow c).fs - ((idxRow c).hs + (idxRow c).ss)) * 3 / 4) = rize at hn
    split at hn
    · cases hn
    split at hn
    · cases hn
    injection hn with hn
    subst hn
    refine ⟨rfl, hw, ?_⟩
    unfold Meant
    simp only [hcur, hboth]
    obtain ⟨_, hp⟩ := hp
    cases hcc : c.current
    · simp only [Bool.false_eq_true, if_false, Bool.not_false, if_true]
      intro hos
      cases ondex with
      | none => rfl
      | some o =>
        simp only at hp
        cases hs : c.separate
        · rw [hs] at hp; simpa using hp.2
        · have := hsep hs; omega
    · simp only [if_true, Bool.not_true, Bool.false_eq_true, if_false]
      cases ondex with
      | none => rfl
      | some o => simp only [hcc] at hp; exact absurd hp.1 (by simp)
  | binary h hcode =>
    obtain ⟨z, hw, hm, _, hcan⟩ := bexfil_canonical h
    have : z = idxRow c := idxRow_unique hc (by rw [← hcode]; exact hw.szg)
    subst this
    exact ⟨hcode, (hcan rfl).1, hm⟩
  | text h hcode hn hp =>
    obtain ⟨z, hw, hm, _, _, hcan⟩ := exfil_canonical h
    have : z = idxRow c := idxRow_unique hc (by rw [← hcode]; exact hw.szg)
    subst this
    rw [fullSize_eq hw.szg] at hn
    injection hn with hn
    subst hn
    exact ⟨hcode, (hcan rfl (by intro a ha he; subst he; exact hp ha)).1, hm⟩

/-! ## C20: limits -/

/-- C20. With enough raw material, building is refused with `InvalidVarIndex` exactly when the index or a
separate ondex does not fit or an ondex is given for a current-only code; otherwise the object reports the index
and ondex asked for (by default the index for both-list codes, 0 for current-only codes) and the leading bytes of
raw. (The same-index rule of the codes without separate ondex is not enforced, see `C20_same_index_not_enforced`.) -/
theorem C20_limits (E : Env) {c : Spec.IdxCode} (hc : c ∈ Spec.idxCodes) (raw : List UInt8) (index : Nat) (ondex : Option Nat) :
    Indexer.ofRaw E c.code raw index ondex =
      if 64 ^ c.digits ≤ index ∨ (∃ o, ondex = some o ∧ (c.current = true ∨ c.separate = true ∧ 64 ^ c.digits ≤ o)) then
        .err .invalidVarIndex
      else if raw.length < c.raw then .err .shortage
      else .ok { code := c.code, raw := raw.take c.raw, index := index, ondex := Spec.otherIndex c index ondex } := by
  obtain ⟨hz, hcur, hboth, hf, hraw, hms, hsep, hnsep, _⟩ := idxCodes_table c hc
  show newWithCodeAndRaw _ _ _ _ = _
  rw [new_eq hz, if_neg hf, hms, hraw, hcur, hboth]
  have hiff : (64 ^ c.digits ≤ index ∨ (∃ o, ondex = some o ∧ 0 < (idxRow c).os ∧ 64 ^ (idxRow c).os ≤ o) ∨
        (c.current = true ∧ ondex ≠ none) ∨
        ((!c.current) = false ∧ (idxRow c).os = 0 ∧ ∃ o, ondex = some o ∧ o ≠ index)) ↔
      (64 ^ c.digits ≤ index ∨ (∃ o, ondex = some o ∧ (c.current = true ∨ c.separate = true ∧ 64 ^ c.digits ≤ o))) := by
    cases ondex with
    | none => simp
    | some o =>
      simp only [Option.some.injEq, exists_eq_left', ne_eq, reduceCtorEq, not_false_eq_true, and_true]
      cases hcc : c.current <;> cases hs : c.separate
      · have := hnsep hs
        simp [this]
      · have := hsep hs
        simp [this]
      · simp
      · simp
  rw [show (some index).getD 0 = index from rfl]
  simp only [hiff]
  split
  · rfl
  · rename_i hno
    split
    · rfl
    · congr 1
      unfold Spec.otherIndex
      cases hcc : c.current
      · simp
      · cases ondex with
        | none => simp
        | some o => exact absurd (.inr ⟨o, rfl, .inl hcc⟩) hno

/-- C20, positive form: permitted indices with enough raw material are accepted and reported. -/
theorem C20_permitted_accepted (E : Env) {c : Spec.IdxCode} (hc : c ∈ Spec.idxCodes) {raw : List UInt8} {index : Nat}
    {ondex : Option Nat} (hp : Spec.Permitted c index ondex) (hraw : c.raw ≤ raw.length) :
    ∃ x, Indexer.ofRaw E c.code raw index ondex = .ok x ∧ x.code = c.code ∧ x.index = index ∧
      x.ondex = Spec.otherIndex c index ondex ∧ x.raw = raw.take c.raw := by
  rw [C20_limits E hc]
  rw [if_neg, if_neg (by omega)]
  · exact ⟨_, rfl, rfl, rfl, rfl, rfl⟩
  · obtain ⟨h1, h2⟩ := hp
    rintro (h | ⟨o, ho, h⟩)
    · omega
    · subst ho
      simp only at h2
      rcases h with h | ⟨hs, h⟩
      · rw [h2.1] at h; cases h
      · rw [if_pos hs] at h2; omega

/-- C20 (defect). For `A`, `C`, `E`, which carry one index for both lists, a different ondex is accepted and
reported, but it is not encoded: after transport the object reports the index as its ondex. -/
theorem C20_same_index_not_enforced (E : Env) {c : Spec.IdxCode} (hc : c ∈ Spec.idxCodes) (hb : c.current = false)
    (hs : c.separate = false) {raw : List UInt8} (hraw : c.raw ≤ raw.length) {index : Nat} (hi : index < 64 ^ c.digits) (o : Nat) :
    ∃ x t, Indexer.ofRaw E c.code raw index (some o) = .ok x ∧ x.ondex = o ∧ x.qb64 E = .ok t ∧
      Indexer.ofText E t = .ok { x with ondex := index } := by
  obtain ⟨hz, hcur, hboth, hf, hrw, hms, hsep, hnsep, _⟩ := idxCodes_table c hc
  have hx := C20_limits E hc raw index (some o)
  rw [if_neg (by simp [hb, hs]; omega), if_neg (by omega)] at hx
  refine ⟨_, _, hx, by simp [Spec.otherIndex, hb], (new_wf hz rfl (show newWithCodeAndRaw c.code raw index (some o) = _ from hx)).infil E, ?_⟩
  have hos := hnsep hs
  have hy := C20_limits E hc raw index (some index)
  rw [if_neg (by simp [hb, hs]; omega), if_neg (by omega)] at hy
  have hwy := new_wf hz rfl (show newWithCodeAndRaw c.code raw index (some index) = _ from hy)
  have hm : Meant c.code (idxRow c).os index (Spec.otherIndex c index (some index)) := by
    unfold Meant; simp [hcur, hb, Spec.otherIndex]
  have := hwy.exfil hm (rest := []) rfl
  rw [List.append_nil] at this
  have ht : text { code := c.code, raw := raw.take c.raw, index := index, ondex := Spec.otherIndex c index (some o) } (idxRow c)
      = text { code := c.code, raw := raw.take c.raw, index := index, ondex := Spec.otherIndex c index (some index) } (idxRow c) := by
    unfold text headD
    simp only [hos]
    rfl
  rw [ht]
  rw [show Indexer.ofText E _ = Indexer.exfil _ from rfl, this]
  simp [Spec.otherIndex, hb]

/-- Non-vacuity: permitted and refused cases. -/
example : Spec.Permitted ⟨lit "2A", false, 2, true, 64⟩ 4095 (some 7) := ⟨by decide, rfl, by decide⟩
example : (Indexer.ofRaw Env.debug (lit "2A") (List.replicate 64 1) 4096 (some 7)) = .err .invalidVarIndex := by decide +kernel
example : (Indexer.ofRaw Env.debug (lit "B") (List.replicate 64 1) 3 (some 3)) = .err .invalidVarIndex := by decide +kernel

/-! ## C17, C18, C19: round trips -/

/-- C17. Every obtained indexed signature encodes to text, which parses back to the same code, index, ondex
and raw. -/
theorem C17_text_roundtrip (E : Env) {c : Spec.IdxCode} (hc : c ∈ Spec.idxCodes) {x : Indexer} (h : IdxObtained E c x) :
    ∃ t, x.qb64 E = .ok t ∧ x.qb64b E = .ok t ∧ Indexer.ofText E t = .ok x ∧ Indexer.ofTextBytes E t = .ok x := by
  obtain ⟨_, w, hm⟩ := h.wf hc
  have h1 : Indexer.exfil (text x (idxRow c)) = .ok x := by
    have := w.exfil hm (rest := []) rfl
    rwa [List.append_nil] at this
  refine ⟨_, w.infil E, w.infil E, h1, ?_⟩
  show (do let q ← fromUtf8 (text x (idxRow c)); Indexer.exfil q) = _
  rw [fromUtf8, if_pos (utf8Valid_ascii w.text_ascii)]
  exact h1

/-- C18. The same for binary, except that for `3A` and `3B` the encoder panics in builds with overflow checks. -/
theorem C18_binary_roundtrip (E : Env) {c : Spec.IdxCode} (hc : c ∈ Spec.idxCodes) {x : Indexer} (h : IdxObtained E c x) :
    (∃ b, Indexer.ofBinary E b = .ok x ∧
      (¬ ((c.code = lit "3A" ∨ c.code = lit "3B") ∧ E.overflowChecks = true) → x.qb2 E = .ok b)) ∧
    ((c.code = lit "3A" ∨ c.code = lit "3B") ∧ E.overflowChecks = true → x.qb2 E = .panic) := by
  obtain ⟨_, w, hm⟩ := h.wf hc
  have h6 := (idxCodes_table c hc).2.2.2.2.2.2.2.2
  have hb := w.binfil E
  simp only [h6] at hb
  refine ⟨⟨Indexer.binary x (idxRow c), ?_, ?_⟩, ?_⟩
  · have := w.bexfil hm E []
    rwa [List.append_nil] at this
  · intro hno; rw [if_neg hno] at hb; exact hb
  · intro hyes; rw [if_pos hyes] at hb; exact hb

/-- C19. The binary form is the Base64URL decoding of the text form, bit for bit. -/
theorem C19_domains_equivalent (E : Env) {c : Spec.IdxCode} (hc : c ∈ Spec.idxCodes) {x : Indexer} (h : IdxObtained E c x) {b : List UInt8}
    (hb : x.qb2 E = .ok b) : ∃ t, x.qb64 E = .ok t ∧ Spec.IsDecoding t b ∧ b.length * 4 = t.length * 3 := by
  obtain ⟨_, w, hm⟩ := h.wf hc
  have hw := w.binfil E
  rw [show Indexer.binfil E x = .ok b from hb] at hw
  split at hw
  · cases hw
  injection hw with hw
  obtain ⟨hs, h3⟩ := w.sextets_binary
  refine ⟨_, w.infil E, ?_, ?_⟩
  · rw [← hs, hw]; exact isDecoding_sextets h3
  · rw [hw, w.binary_length, w.text_length]

/-- Non-vacuity: a small and a big code. -/
example : IdxObtained Env.debug ⟨lit "A", false, 1, false, 64⟩
    { code := lit "A", raw := List.replicate 64 7, index := 5, ondex := 5 } :=
  .built (raw := List.replicate 64 7) (index := 5) (ondex := none) ⟨by decide, trivial⟩ (by decide +kernel)
example : IdxObtained Env.release ⟨lit "3A", false, 3, true, 114⟩
    { code := lit "3A", raw := List.replicate 114 7, index := 65000, ondex := 4096 } :=
  .built (raw := List.replicate 114 7) (index := 65000) (ondex := some 4096) ⟨by decide, rfl, by decide⟩ (by decide +kernel)
example : ∃ c ∈ Spec.idxCodes, c.code = lit "3A" := by decide +kernel

/-! ## C21: canonical, self-framing -/

/-- C21 (a). Accepted text of a signature code without pad characters in the consumed part re-encodes to
exactly the consumed characters. -/
theorem C21_text_canonical (E : Env) {c : Spec.IdxCode} (hc : c ∈ Spec.idxCodes) {s : Str} {x : Indexer}
    (h : Indexer.ofText E s = .ok x) (hcode : x.code = c.code) :
    ∃ n, x.fullSize = .ok n ∧ n ≤ s.length ∧ (ch '=' ∉ s.take n → x.qb64 E = .ok (s.take n)) := by
  obtain ⟨z, hw, hm, hT, _, hcan⟩ := exfil_canonical h
  have : z = idxRow c := idxRow_unique hc (by rw [← hcode]; exact hw.szg)
  subst this
  refine ⟨_, fullSize_eq hw.szg, hT, fun hp => ?_⟩
  obtain ⟨w, he⟩ := hcan rfl (by intro a ha he; subst he; exact hp ha)
  rw [he]; exact w.infil E

/-- C21 (b). The same for accepted binary (outside the panic of `3A`, `3B`). -/
theorem C21_binary_canonical (E : Env) {c : Spec.IdxCode} (hc : c ∈ Spec.idxCodes) {b : List UInt8} {x : Indexer}
    (h : Indexer.ofBinary E b = .ok x) (hcode : x.code = c.code)
    (hno : ¬ ((c.code = lit "3A" ∨ c.code = lit "3B") ∧ E.overflowChecks = true)) :
    ∃ n, x.fullSize = .ok n ∧ n / 4 * 3 ≤ b.length ∧ x.qb2 E = .ok (b.take (n / 4 * 3)) := by
  obtain ⟨z, hw, hm, hT, hcan⟩ := bexfil_canonical h
  have : z = idxRow c := idxRow_unique hc (by rw [← hcode]; exact hw.szg)
  subst this
  obtain ⟨w, he⟩ := hcan rfl
  have h6 := (idxCodes_table c hc).2.2.2.2.2.2.2.2
  have hb := w.binfil E
  simp only [h6] at hb
  rw [if_neg hno] at hb
  have h4 := w.arith.2.2.2.1
  have hn : (total x (idxRow c) + 1) * 3 / 4 = total x (idxRow c) / 4 * 3 := by omega
  rw [hn] at he hT
  exact ⟨_, fullSize_eq hw.szg, hT, by rw [he]; exact hb⟩

/-- C21 (c). Trailing data is ignored in both domains. -/
theorem C21_self_framing (E : Env) {c : Spec.IdxCode} (hc : c ∈ Spec.idxCodes) {x : Indexer} (h : IdxObtained E c x) :
    ∃ t, x.qb64 E = .ok t ∧
      (∀ rest, utf8Valid rest = true → Indexer.ofText E (t ++ rest) = .ok x) ∧
      (∀ b, x.qb2 E = .ok b → ∀ rest, Indexer.ofBinary E (b ++ rest) = .ok x) := by
  obtain ⟨_, w, hm⟩ := h.wf hc
  refine ⟨_, w.infil E, fun r hr => w.exfil hm hr, fun b hb r => ?_⟩
  have hw := w.binfil E
  rw [show Indexer.binfil E x = .ok b from hb] at hw
  split at hw
  · cases hw
  injection hw with hw
  rw [hw]; exact w.bexfil hm E r

/-- C21 (d). Every proper prefix is refused in both domains. -/
theorem C21_truncated (E : Env) {c : Spec.IdxCode} (hc : c ∈ Spec.idxCodes) {x : Indexer} (h : IdxObtained E c x) :
    ∃ t, x.qb64 E = .ok t ∧
      (∀ k < t.length, Indexer.ofText E (t.take k) = .err (if k = 0 then .emptyMaterial else .shortage)) ∧
      (∀ b, x.qb2 E = .ok b → ∀ k < b.length, Indexer.ofBinary E (b.take k) = .err (if k = 0 then .emptyMaterial else .shortage)) := by
  obtain ⟨_, w, hm⟩ := h.wf hc
  have ht := w.text_length
  refine ⟨_, w.infil E, fun k hk => w.exfil_truncated hm (by omega), fun b hb k hk => ?_⟩
  have hw := w.binfil E
  rw [show Indexer.binfil E x = .ok b from hb] at hw
  split at hw
  · cases hw
  injection hw with hw
  rw [hw] at hk ⊢; exact w.bexfil_truncated hm E hk

/-- Non-vacuity: text followed by other data. -/
example : ∃ x, Indexer.ofText Env.debug (lit "AF" ++ List.replicate 86 (ch 'A') ++ lit "-rest") = .ok x ∧ x.code = lit "A" ∧ x.index = 5 :=
  ⟨{ code := lit "A", raw := List.replicate 64 0, index := 5, ondex := 5 }, by decide +kernel, by decide, rfl⟩

/-- C21/C17 exception (defect): the lead-byte test codes do not round-trip. Parsed `1z` text keeps the lead byte in
raw; encoding that object again panics with overflow checks and fails without. -/
theorem C21_lead_code_defect : ∃ s x, (∀ E, Indexer.ofText E s = .ok x) ∧ x.raw.length = 54 ∧
    (∀ E : Env, E.overflowChecks = true → x.qb64 E = .panic) ∧ (∀ E : Env, E.overflowChecks = false → x.qb64 E = .err .invalidCodeSize) := by
  refine ⟨lit "1z" ++ List.replicate 74 (ch 'A'), { code := lit "1z", raw := List.replicate 54 0, index := 0, ondex := 0 },
    fun _ => (by decide +kernel : Indexer.exfil (lit "1z" ++ List.replicate 74 (ch 'A')) = _), by simp, ?_, ?_⟩
  · intro E hE
    have hs : sizage (lit "1z") = .ok { hs := 2, ss := 2, os := 1, fs := 76, ls := 1 } := by decide +kernel
    have hu : uintToB64 E 0 1 = .ok (encD (digitsB 64 1 0)) := uintToB64_eq E (by decide) (by decide)
    simp [Indexer.qb64, Indexer.infil, hs, u32Max, hu, Env.subU32, hE, show (lit "1z").length = 2 by rfl]
  · intro E hE
    have hs : sizage (lit "1z") = .ok { hs := 2, ss := 2, os := 1, fs := 76, ls := 1 } := by decide +kernel
    have hu : uintToB64 E 0 1 = .ok (encD (digitsB 64 1 0)) := uintToB64_eq E (by decide) (by decide)
    simp [Indexer.qb64, Indexer.infil, hs, u32Max, hu, Env.subU32, hE, show (lit "1z").length = 2 by rfl]

/-! ## C22: panics -/

/-- C22. Binary parsing never panics, text parsing never panics on ASCII text (so neither does the byte
constructor), and any panic is due to a character that straddles a byte offset. -/
theorem C22_no_panic (E : Env) :
    (∀ b, Indexer.ofBinary E b ≠ .panic) ∧
    (∀ s : Str, (∀ c ∈ s, c < 128) → Indexer.ofText E s ≠ .panic ∧ Indexer.ofTextBytes E s ≠ .panic) ∧
    (∀ s : Str, Indexer.ofText E s = .panic → ∃ i ≤ s.length, isBoundary s i = false) := by
  have hasc : ∀ s : Str, (∀ c ∈ s, c < 128) → Indexer.exfil s ≠ .panic := by
    intro s ha h
    obtain ⟨i, hi, hb⟩ := exfil_panic h
    rw [isBoundary_ascii ha hi] at hb
    cases hb
  refine ⟨bexfil_ne_panic E, fun s ha => ⟨hasc s ha, ?_⟩, fun s h => exfil_panic h⟩
  show (do let q ← fromUtf8 s; Indexer.exfil q) ≠ _
  rw [fromUtf8, if_pos (utf8Valid_ascii ha)]
  exact hasc s ha

/-- C22 (defect): well-formed UTF-8 text can make the parser panic. -/
theorem C22_nonascii_panics : ∃ s : Str, utf8Valid s = true ∧ (∀ E, Indexer.ofText E s = .panic) ∧ (∀ E, Indexer.ofTextBytes E s = .panic) :=
  ⟨[ch '0', 0xC3, 0xA9], by decide +kernel, fun _ => (by decide +kernel : Indexer.exfil [ch '0', 0xC3, 0xA9] = .panic),
    fun _ => (by decide +kernel : Indexer.newWithQb64b [ch '0', 0xC3, 0xA9] = .panic)⟩

end Cesride
