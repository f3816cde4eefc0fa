import Verif.Lemmas.Matter6

/-!
# Properties C01 - C14 of `Matter`

Statements use the public constructor `Matter.new E code raw qb64b qb64 qb2` and the accessors
`qb64`, `qb64b`, `qb2`, `fullSize` of the model together with `Verif/Spec/Cesr.lean`.
-/

namespace Cesride
open Matter

/-- `Matter.new` with code and raw material. -/
abbrev Matter.ofRaw (E : Env) (code : Str) (raw : List UInt8) : Res Matter := Matter.new E (some code) (some raw) none none none
/-- `Matter.new` with qb64 text. -/
abbrev Matter.ofText (E : Env) (t : Str) : Res Matter := Matter.new E none none none (some t) none
/-- `Matter.new` with qb64 bytes. -/
abbrev Matter.ofTextBytes (E : Env) (t : List UInt8) : Res Matter := Matter.new E none none (some t) none none
/-- `Matter.new` with qb2 bytes. -/
abbrev Matter.ofBinary (E : Env) (b : List UInt8) : Res Matter := Matter.new E none none none none (some b)

/-- The primitives a caller can obtain: built from a code of the library and raw bytes, parsed from
binary, or parsed from text whose consumed characters contain no `=`. -/
inductive Obtained (E : Env) : Matter → Prop
  | built {code raw m} : Spec.IsCode code → Matter.ofRaw E code raw = .ok m → Obtained E m
  | binary {b m} : Matter.ofBinary E b = .ok m → Obtained E m
  | text {s n m} : Matter.ofText E s = .ok m → m.fullSize = .ok n → ch '=' ∉ s.take n → Obtained E m

theorem Matter.Wf.of_fullSize {m : Matter} {z : Sizage} (hz : sizage m.code = .ok z) {n : Nat} (h : m.fullSize = .ok n) :
    n = total m z := by
  simp only [Matter.fullSize, hz, Res.ok_bind] at h
  unfold total
  by_cases hf : z.fs = u32Max
  · simp only [hf, ne_eq, not_true, if_false, if_true] at h ⊢
    injection h with h; omega
  · simp only [hf, ne_eq, not_false_iff, if_false, if_true] at h ⊢
    injection h with h; omega

theorem Obtained.wf {E : Env} {m : Matter} (h : Obtained E m) : ∃ z, Wf m z := by
  cases h with
  | built hc h =>
    obtain ⟨z, hz⟩ := isCode_sizage hc
    exact new_wf' hz h
  | binary h =>
    obtain ⟨z, w, _⟩ := bexfil_canonical h
    exact ⟨z, w⟩
  | text h hn hp =>
    obtain ⟨z, hz, hT, hw⟩ := exfil_canonical h
    have := Wf.of_fullSize hz hn
    subst this
    exact ⟨z, (hw (by intro c hc he; subst he; exact hp hc)).1⟩

/-! ## C01, C02, C03, C13 -/

/-- C01. Every obtained primitive encodes to text, and that text parses back to the same primitive
(same code, size and raw), both as `&str` and as bytes. -/
theorem C01_text_roundtrip (E : Env) {m : Matter} (h : Obtained E m) :
    ∃ t, m.qb64 E = .ok t ∧ m.qb64b E = .ok t ∧ Matter.ofText E t = .ok m ∧ Matter.ofTextBytes E t = .ok m := by
  obtain ⟨z, w⟩ := h.wf
  have h1 : Matter.exfil (text m z) = .ok m := by
    have := w.exfil (rest := []) rfl
    simpa using this
  refine ⟨text m z, w.infil E, w.infil E, h1, ?_⟩
  show (do let q ← fromUtf8 (text m z); Matter.exfil q) = _
  rw [fromUtf8, if_pos (utf8Valid_ascii w.text_ascii)]
  exact h1

/-- C01 (existence part). Raw material that is long enough (fixed codes) or below the size limit
(variable codes) does build a primitive, and it carries the given bytes. -/
theorem C01_constructible (E : Env) (code : Str) (raw : List UInt8) :
    (∀ n, (code, n) ∈ Spec.fixedCodes → n ≤ raw.length → ∃ m, Matter.ofRaw E code raw = .ok m ∧ m.code = code ∧ m.raw = raw.take n ∧ Obtained E m) ∧
    (Spec.IsVarCode code → raw.length ≤ 3 * (64 ^ 4 - 1) → ∃ m, Matter.ofRaw E code raw = .ok m ∧ m.raw = raw ∧ Obtained E m) := by
  constructor
  · intro n h hl
    obtain ⟨z, hz, hf, hn⟩ := fixed_sizage h
    have := new_fixed hz hf raw
    rw [if_neg (by omega)] at this
    refine ⟨_, this, rfl, ?_, .built (.inl ⟨n, h⟩) this⟩
    rw [hn]
  · intro h hl
    obtain ⟨z, hz⟩ := isCode_sizage (.inr h)
    have hf : z.fs = u32Max := by
      obtain ⟨l, lead, f, h1, h2, h3⟩ := h
      rw [h3, varCode_sizage l h1 h2] at hz
      injection hz with hz
      rw [← hz]
    obtain ⟨f, _, _, _, hnew⟩ := new_var hz hf (raw := raw) (by omega)
    have hq := quad_lead raw.length
    have hll := leadSize_le raw.length
    split at hnew
    · exact ⟨_, hnew, rfl, .built (.inr h) hnew⟩
    · rw [if_pos (by omega)] at hnew
      exact ⟨_, hnew, rfl, .built (.inr h) hnew⟩

/-- C02. The same for the binary domain. -/
theorem C02_binary_roundtrip (E : Env) {m : Matter} (h : Obtained E m) :
    ∃ b, m.qb2 E = .ok b ∧ Matter.ofBinary E b = .ok m := by
  obtain ⟨z, w⟩ := h.wf
  refine ⟨Matter.binary m z, w.binfil E, ?_⟩
  have := w.bexfil E []
  rw [List.append_nil] at this
  exact this

/-- C03. The binary form is the Base64URL decoding of the text form, bit for bit. -/
theorem C03_domains_equivalent (E : Env) {m : Matter} (h : Obtained E m) :
    ∃ t b, m.qb64 E = .ok t ∧ m.qb2 E = .ok b ∧ Spec.IsDecoding t b ∧ b.length * 4 = t.length * 3 := by
  obtain ⟨z, w⟩ := h.wf
  obtain ⟨hs, h3⟩ := w.sextets_binary
  refine ⟨text m z, Matter.binary m z, w.infil E, w.binfil E, ?_, ?_⟩
  · rw [← hs]; exact isDecoding_sextets h3
  · rw [w.binary_length, w.text_length]

/-- C13. Encodings start with the code, use alphabet characters only, are 24-bit aligned, and have the
length `full_size` reports. -/
theorem C13_aligned (E : Env) {m : Matter} (h : Obtained E m) :
    ∃ t b n, m.qb64 E = .ok t ∧ m.qb2 E = .ok b ∧ m.fullSize = .ok n ∧
      m.code <+: t ∧ Spec.IsB64Text t ∧ t.length = n ∧ n % 4 = 0 ∧ b.length % 3 = 0 ∧ b.length = n / 4 * 3 := by
  obtain ⟨z, w⟩ := h.wf
  have hb := w.binary_length
  have ht := w.text_length
  have h4 := w.arith.2.2.2.1
  refine ⟨text m z, Matter.binary m z, total m z, w.infil E, w.binfil E, w.fullSize, ?_, ?_, ht, h4, by omega, by omega⟩
  · rw [text_split w.szg, List.append_assoc]; exact List.prefix_append _ _
  · exact (isB64Text_iff _).mpr w.text_b64

/-- Non-vacuity: a two byte number, a 5 byte string and a digest-sized primitive are obtained. -/
example : Obtained Env.debug { code := lit "M", size := 0, raw := [1, 2] } :=
  .built (code := lit "M") (raw := [1, 2, 3]) (.inl ⟨2, by decide⟩) (by decide +kernel)
example : Obtained Env.release { code := lit "5B", size := 2, raw := [1, 2, 3, 4, 5] } :=
  .built (code := lit "4B") (raw := [1, 2, 3, 4, 5]) (.inr ⟨false, 0, ch 'B', by decide, by decide, by decide⟩) (by decide +kernel)
example : Matter.qb64 Env.debug { code := lit "5B", size := 2, raw := [1, 2, 3, 4, 5] } = .ok (lit "5BACAAECAwQF") := by decide +kernel

/-! ## C04, C05: canonical forms -/

/-- C04 (a). Accepted text without pad characters in the consumed part re-encodes to exactly the consumed
characters. -/
theorem C04_text_canonical (E : Env) {s : Str} {m : Matter} (h : Matter.ofText E s = .ok m) :
    ∃ n, m.fullSize = .ok n ∧ n ≤ s.length ∧ (ch '=' ∉ s.take n → m.qb64 E = .ok (s.take n)) := by
  obtain ⟨z, hz, hT, hw⟩ := exfil_canonical h
  have hn : m.fullSize = .ok (total m z) := by
    simp only [Matter.fullSize, hz, Res.ok_bind]
    unfold total
    by_cases hf : z.fs = u32Max
    · simp only [hf, ne_eq, not_true, if_false, if_true]; rw [Nat.add_comm]
    · simp only [hf, ne_eq, not_false_iff, if_false, if_true]
  refine ⟨_, hn, hT, fun hp => ?_⟩
  obtain ⟨w, he⟩ := hw (by intro c hc he; subst he; exact hp hc)
  rw [he]; exact w.infil E

/-- C04 (b). For every accepted text, pad characters or not: two texts that denote the same primitive
agree on the consumed characters. -/
theorem C04_text_unique (E : Env) {s t : Str} {m : Matter} (hs : Matter.ofText E s = .ok m) (ht : Matter.ofText E t = .ok m) :
    ∃ n, m.fullSize = .ok n ∧ n ≤ s.length ∧ n ≤ t.length ∧ s.take n = t.take n := by
  obtain ⟨n, hn, h1, _⟩ := C04_text_canonical E hs
  obtain ⟨n', hn', h2, _⟩ := C04_text_canonical E ht
  have : n = n' := by rw [hn] at hn'; injection hn'
  subst this
  exact ⟨n, hn, h1, h2, exfil_inj hs ht hn⟩

/-- C04 (c), the defect: pad characters are accepted, and then the object does not re-encode. -/
theorem C04_pad_accepted : ∃ s m, utf8Valid s = true ∧ (∀ E, Matter.ofText E s = .ok m) ∧
    (∀ E, m.qb64 E = .err .invalidCodeSize) ∧ (∀ E, m.qb2 E = .err .invalidCodeSize) := by
  refine ⟨lit "MAA=", { code := lit "M", size := 0, raw := [0] }, by decide, fun _ => (by decide +kernel : Matter.exfil (lit "MAA=") = _), ?_, ?_⟩
  · intro E; simp [Matter.qb64, Matter.infil, show sizage (lit "M") = .ok { hs := 1, ss := 0, fs := 4, ls := 0 } by rfl, u32Max,
      Env.subU32, show (lit "M").length = 1 by rfl]
  · intro E; rfl

/-- C05. Accepted binary re-encodes to exactly the consumed bytes; two byte strings that denote the same
primitive agree on them. -/
theorem C05_binary_canonical (E : Env) {b : List UInt8} {m : Matter} (h : Matter.ofBinary E b = .ok m) :
    ∃ n, m.fullSize = .ok n ∧ n / 4 * 3 ≤ b.length ∧ m.qb2 E = .ok (b.take (n / 4 * 3)) := by
  obtain ⟨z, w, hb⟩ := bexfil_canonical h
  have hl := w.binary_length
  have h4 := w.arith.2.2.2.1
  have hlen : (Matter.binary m z).length = total m z / 4 * 3 := by omega
  have hle : (Matter.binary m z).length ≤ b.length := by
    have := congrArg List.length hb
    simp at this; omega
  refine ⟨total m z, w.fullSize, by omega, ?_⟩
  have : b.take (total m z / 4 * 3) = Matter.binary m z := by
    rw [hb, List.take_append_of_le_length (by omega), List.take_of_length_le (by omega)]
  rw [this]; exact w.binfil E

/-- Non-vacuity for C04/C05: a text followed by other data, and a binary with a tail. -/
example : Matter.ofText Env.debug (lit "MAAEzz") = .ok { code := lit "M", size := 0, raw := [0, 4] } := by decide +kernel
example : Matter.ofBinary Env.debug [0x30, 0, 4, 99] = .ok { code := lit "M", size := 0, raw := [0, 4] } := by decide +kernel

/-! ## C06: sizes -/

/-- C06. Raw length, size and full size agree with the code, for everything obtained. -/
theorem C06_sizes (E : Env) {m : Matter} (h : Obtained E m) :
    (∃ n, (m.code, n) ∈ Spec.fixedCodes ∧ m.raw.length = n ∧ m.size = 0) ∨
    (∃ large lead f, lead ≤ 2 ∧ (f = ch 'A' ∨ f = ch 'B') ∧ m.code = Spec.varCode large lead f ∧
      m.raw.length + lead = 3 * m.size ∧ m.size < 64 ^ (if large then 4 else 2) ∧
      m.fullSize = .ok ((if large then 8 else 4) + 4 * m.size)) := by
  obtain ⟨z, w⟩ := h.wf
  rcases sizage_spec w.szg with ⟨hf, l, f, h1, h2, h3⟩ | ⟨hf, hm⟩
  · right
    refine ⟨l, z.ls, f, h1, h2, h3, (w.var hf).2, ?_, ?_⟩
    · have := (w.var hf).1
      have e := w.szg
      rw [h3, varCode_sizage l h1 h2] at e
      injection e with e
      rw [← e] at this
      exact this
    · rw [w.fullSize, total, if_pos hf]
      have e := w.szg
      rw [h3, varCode_sizage l h1 h2] at e
      injection e with e
      congr 1
      rw [← e]
      cases l <;> simp <;> omega
  · left
    exact ⟨_, hm, (w.fix hf).2, (w.fix hf).1⟩

/-- C06, the defect: text with pad characters yields an object with less raw material than its code has. -/
theorem C06_short_raw_accepted : ∃ s m, utf8Valid s = true ∧ (∀ E, Matter.ofText E s = .ok m) ∧
    (m.code, 4) ∈ Spec.fixedCodes ∧ m.raw.length = 2 :=
  ⟨lit "0HAAAA==", { code := lit "0H", size := 0, raw := [0, 0] },
    by decide +kernel, fun _ => (by decide +kernel : Matter.exfil (lit "0HAAAA==") = .ok { code := lit "0H", size := 0, raw := [0, 0] }),
    by decide +kernel, by rfl⟩

/-! ## C07, C08, C09: framing -/

/-- C07. Whatever follows the encoding is ignored: any UTF-8 text after the text form, any bytes after the
binary form. In the byte-oriented text constructor the tail must be UTF-8, otherwise the whole is refused. -/
theorem C07_self_framing (E : Env) {m : Matter} (h : Obtained E m) :
    ∃ t b, m.qb64 E = .ok t ∧ m.qb2 E = .ok b ∧
      (∀ rest, utf8Valid rest = true → Matter.ofText E (t ++ rest) = .ok m) ∧
      (∀ rest, Matter.ofTextBytes E (t ++ rest) = if utf8Valid rest then .ok m else .err .utf8) ∧
      (∀ rest, Matter.ofBinary E (b ++ rest) = .ok m) := by
  obtain ⟨z, w⟩ := h.wf
  refine ⟨text m z, Matter.binary m z, w.infil E, w.binfil E, fun r hr => w.exfil hr, fun r => ?_, fun r => w.bexfil E r⟩
  show (do let q ← fromUtf8 (text m z ++ r); Matter.exfil q) = _
  rw [fromUtf8, utf8Valid_ascii_append w.text_ascii]
  by_cases hr : utf8Valid r = true
  · simp only [hr, if_true, Res.ok_bind]; exact w.exfil hr
  · simp only [hr, Bool.false_eq_true, if_false, Res.err_bind]

/-- C08. Every proper prefix is refused: empty input as empty material, anything else as a shortage. -/
theorem C08_truncated (E : Env) {m : Matter} (h : Obtained E m) :
    ∃ t b, m.qb64 E = .ok t ∧ m.qb2 E = .ok b ∧
      (∀ k < t.length, Matter.ofText E (t.take k) = .err (if k = 0 then .emptyMaterial else .shortage)) ∧
      (∀ k < t.length, Matter.ofTextBytes E (t.take k) = .err (if k = 0 then .emptyMaterial else .shortage)) ∧
      (∀ k < b.length, Matter.ofBinary E (b.take k) = .err (if k = 0 then .emptyMaterial else .shortage)) := by
  obtain ⟨z, w⟩ := h.wf
  have ht := w.text_length
  refine ⟨text m z, Matter.binary m z, w.infil E, w.binfil E, fun k hk => w.exfil_truncated (by omega), fun k hk => ?_,
    fun k hk => w.bexfil_truncated E hk⟩
  show (do let q ← fromUtf8 ((text m z).take k); Matter.exfil q) = _
  rw [fromUtf8, if_pos (utf8Valid_ascii (ascii_take w.text_ascii k)), Res.ok_bind]
  exact w.exfil_truncated (by omega)

/-- A text stream: the concatenated text encodings of a list of primitives. -/
inductive TextStream (E : Env) : List Matter → Str → Prop
  | nil : TextStream E [] []
  | cons {m ms t s} : m.qb64 E = .ok t → TextStream E ms s → TextStream E (m :: ms) (t ++ s)

/-- A binary stream. -/
inductive BinaryStream (E : Env) : List Matter → List UInt8 → Prop
  | nil : BinaryStream E [] []
  | cons {m ms b s} : m.qb2 E = .ok b → BinaryStream E ms s → BinaryStream E (m :: ms) (b ++ s)

theorem TextStream.ascii {E : Env} {ms : List Matter} {s : Str} (h : TextStream E ms s) (ho : ∀ m ∈ ms, Obtained E m) :
    Ascii s := by
  induction h with
  | nil => intro c hc; cases hc
  | cons hq _ ih =>
    obtain ⟨z, w⟩ := (ho _ (List.mem_cons_self ..)).wf
    have := w.infil E
    rw [Matter.qb64, this] at hq
    injection hq with hq
    subst hq
    exact ascii_append w.text_ascii (ih (fun m hm => ho m (by simp [hm])))

/-- C09 (text). A text stream determines the list of primitives in it. -/
theorem C09_text_streams (E : Env) {xs ys : List Matter} {s : Str} (hx : ∀ m ∈ xs, Obtained E m) (hy : ∀ m ∈ ys, Obtained E m)
    (h1 : TextStream E xs s) (h2 : TextStream E ys s) : xs = ys := by
  induction h1 generalizing ys with
  | nil =>
    generalize he : ([] : Str) = s at h2
    cases h2 with
    | nil => rfl
    | cons hq hs =>
      obtain ⟨z, w⟩ := (hy _ (List.mem_cons_self ..)).wf
      have := w.infil E
      rw [Matter.qb64, this] at hq
      injection hq with hq
      subst hq
      have hl := congrArg List.length he
      have hh := w.arith.2.2.2.2.2
      have := (row_of_sizage w.szg).hs1
      rw [List.length_append, w.text_length] at hl
      simp at hl; omega
  | cons hq hs ih =>
    rename_i m ms t s
    obtain ⟨z, w⟩ := (hx _ (List.mem_cons_self ..)).wf
    have := w.infil E
    rw [Matter.qb64, this] at hq
    injection hq with hq
    subst hq
    generalize he : text m z ++ s = u at h2
    cases h2 with
    | nil =>
      have hl := congrArg List.length he
      have hh := w.arith.2.2.2.2.2
      have := (row_of_sizage w.szg).hs1
      rw [List.length_append, w.text_length] at hl
      simp at hl; omega
    | cons hq' hs' =>
      rename_i m' ms' t' s'
      obtain ⟨z', w'⟩ := (hy _ (List.mem_cons_self ..)).wf
      have := w'.infil E
      rw [Matter.qb64, this] at hq'
      injection hq' with hq'
      subst hq'
      have hm : m = m' := text_inj w w' (utf8Valid_ascii (hs.ascii (fun m hm => hx m (by simp [hm]))))
        (utf8Valid_ascii (hs'.ascii (fun m hm => hy m (by simp [hm])))) he
      subst hm
      have := w.unique w'
      subst this
      have he' := List.append_cancel_left he
      subst he'
      rw [ih (fun m hm => hx m (by simp [hm])) (fun m hm => hy m (by simp [hm])) hs']

/-- C09 (binary). A binary stream determines the list of primitives in it. -/
theorem C09_binary_streams (E : Env) {xs ys : List Matter} {s : List UInt8} (hx : ∀ m ∈ xs, Obtained E m)
    (hy : ∀ m ∈ ys, Obtained E m) (h1 : BinaryStream E xs s) (h2 : BinaryStream E ys s) : xs = ys := by
  have pos : ∀ {m z}, Wf m z → 0 < (Matter.binary m z).length := by
    intro m z w
    have hh := w.arith.2.2.2.2.2
    have := (row_of_sizage w.szg).hs1
    have := w.binary_length
    omega
  induction h1 generalizing ys with
  | nil =>
    generalize he : ([] : List UInt8) = s at h2
    cases h2 with
    | nil => rfl
    | cons hq hs =>
      obtain ⟨z, w⟩ := (hy _ (List.mem_cons_self ..)).wf
      have := w.binfil E
      rw [Matter.qb2, this] at hq
      injection hq with hq
      subst hq
      have hl := congrArg List.length he
      have := pos w
      rw [List.length_append, List.length_nil] at hl; omega
  | cons hq hs ih =>
    rename_i m ms t s
    obtain ⟨z, w⟩ := (hx _ (List.mem_cons_self ..)).wf
    have := w.binfil E
    rw [Matter.qb2, this] at hq
    injection hq with hq
    subst hq
    generalize he : Matter.binary m z ++ s = u at h2
    cases h2 with
    | nil =>
      have hl := congrArg List.length he
      have := pos w
      rw [List.length_append, List.length_nil] at hl; omega
    | cons hq' hs' =>
      rename_i m' ms' t' s'
      obtain ⟨z', w'⟩ := (hy _ (List.mem_cons_self ..)).wf
      have := w'.binfil E
      rw [Matter.qb2, this] at hq'
      injection hq' with hq'
      subst hq'
      have hm : m = m' := by
        have a := w.bexfil E s
        have b := w'.bexfil E s'
        rw [he, b] at a
        injection a with a
        exact a.symm
      subst hm
      have := w.unique w'
      subst this
      have he' := List.append_cancel_left he
      subst he'
      rw [ih (fun m hm => hx m (by simp [hm])) (fun m hm => hy m (by simp [hm])) hs']

/-- Non-vacuity: a stream of two primitives. -/
example : TextStream Env.debug [{ code := lit "M", size := 0, raw := [0, 4] }, { code := lit "4B", size := 1, raw := [1, 2, 3] }]
    (lit "MAAE4BABAQID") :=
  .cons (t := lit "MAAE") (by decide +kernel) (.cons (t := lit "4BABAQID") (s := []) (by decide +kernel) .nil)

/-! ## C10, C11: construction -/

/-- C10. Fixed codes: short material is a shortage, otherwise exactly the leading bytes are stored. -/
theorem C10_fixed_raw (E : Env) {code : Str} {n : Nat} (h : (code, n) ∈ Spec.fixedCodes) (raw : List UInt8) :
    Matter.ofRaw E code raw =
      if raw.length < n then .err .shortage else .ok { code := code, size := 0, raw := raw.take n } := by
  obtain ⟨z, hz, hf, hn⟩ := fixed_sizage h
  have := new_fixed hz hf raw
  rw [← hn] at this
  exact this

/-- C11. Variable codes: `lead` is the number of lead bytes that makes the payload a multiple of three,
`q` the number of quadlets. The small code is kept exactly below `64^2` quadlets, larger material moves to
the large code of the same family, `64^4` quadlets and more are refused, raw is stored unchanged. -/
theorem C11_variable_code (E : Env) (large : Bool) {l lead q : Nat} {f : UInt8} (hl : l ≤ 2) (hf : f = ch 'A' ∨ f = ch 'B')
    (raw : List UInt8) (hlead : lead ≤ 2) (hq : raw.length + lead = 3 * q) (hraw : raw.length < 2 ^ 32) :
    Matter.ofRaw E (Spec.varCode large l f) raw =
      if large = false ∧ q < 64 ^ 2 then .ok { code := Spec.varCode false lead f, size := q, raw := raw }
      else if q < 64 ^ 4 then .ok { code := Spec.varCode true lead f, size := q, raw := raw }
      else .err .invalidVarRawSize := by
  have hz := varCode_sizage large hl hf
  obtain ⟨g, hg, _, _, hnew⟩ := new_var hz rfl hraw
  have hgf : g = f := by
    cases large
    · simp [Spec.varCode] at hg; exact hg.symm
    · rw [Spec.varCode, if_pos rfl, List.getLast?_append] at hg
      simp at hg; exact hg.symm
  subst hgf
  have h1 : quadlets raw.length = q := by unfold quadlets; omega
  have h2 : leadSize raw.length = lead := by unfold leadSize; omega
  rw [h1, h2] at hnew
  show newWithCodeAndRaw _ _ = _
  rw [hnew]
  cases large with
  | true => simp [Spec.varCode, largeVrzDex, show lit "789" = [ch '7', ch '8', ch '9'] by rfl]
  | false => simp [Spec.varCode, largeVrzDex, smallVrzDex, show lit "789" = [ch '7', ch '8', ch '9'] by rfl,
      show lit "456" = [ch '4', ch '5', ch '6'] by rfl]

/-- Non-vacuity of C11 at the promotion boundary. -/
example : Matter.ofRaw Env.debug (lit "4A") (List.replicate 12285 7) =
    .ok { code := lit "4A", size := 4095, raw := List.replicate 12285 7 } :=
  C11_variable_code Env.debug false (l := 0) (lead := 0) (q := 4095) (by decide) (.inl rfl) _ (by decide) (by rw [List.length_replicate])
    (by rw [List.length_replicate]; decide)
example : Matter.ofRaw Env.debug (lit "4A") (List.replicate 12286 7) =
    .ok { code := lit "9AAA", size := 4096, raw := List.replicate 12286 7 } :=
  C11_variable_code Env.debug false (l := 0) (lead := 2) (q := 4096) (by decide) (.inl rfl) _ (by decide) (by rw [List.length_replicate])
    (by rw [List.length_replicate]; decide)

/-- C11, the defect for material of `2^32` bytes and more: the length is truncated to 32 bits, so the material
is silently cut instead of being refused. -/
theorem C11_huge_raw_truncated (E : Env) (large : Bool) {l : Nat} {f : UInt8} (hl : l ≤ 2) (hf : f = ch 'A' ∨ f = ch 'B')
    (raw : List UInt8) :
    Matter.ofRaw E (Spec.varCode large l f) raw = Matter.ofRaw E (Spec.varCode large l f) (raw.take (raw.length % 2 ^ 32)) :=
  new_var_trunc (varCode_sizage large hl hf) rfl raw

/-- C11, a witness of the defect: four gibibytes of material give the empty primitive. -/
theorem C11_huge_raw_accepted (E : Env) (raw : List UInt8) (h : raw.length = 2 ^ 32) :
    Matter.ofRaw E (lit "4B") raw = .ok { code := lit "4B", size := 0, raw := [] } := by
  have := C11_huge_raw_truncated E false (l := 0) (by decide) (.inr rfl : ch 'B' = ch 'A' ∨ ch 'B' = ch 'B') raw
  rw [show Spec.varCode false 0 (ch 'B') = lit "4B" by rfl, h, show 2 ^ 32 % 2 ^ 32 = 0 by decide, List.take_zero] at this
  rw [this]
  rfl

/-! ## C12: panics -/

/-- Heads that promise lead bytes but no quadlets. -/
def ZeroLeadHead (large : Bool) (lead : Nat) (f : UInt8) : Str :=
  Spec.varCode large lead f ++ List.replicate (if large then 4 else 2) (ch 'A')

/-- Heads that promise two lead bytes and exactly one quadlet of material. -/
def OneQuadHeads : List Str := [lit "3AAA", lit "6AAB", lit "6BAB", lit "9AAAAAAB", lit "9AABAAAB"]

theorem zeroLeadHead_split {large : Bool} {lead : Nat} {f : UInt8} {s : Str} (hl : lead ≤ 2) (hf : f = ch 'A' ∨ f = ch 'B')
    {z : Sizage} (hz : sizage (s.take z.hs) = .ok z) (hc : s.take z.hs = Spec.varCode large lead f)
    (hA : (s.take (z.hs + z.ss)).drop z.hs = List.replicate z.ss (ch 'A')) :
    s = ZeroLeadHead large lead f ++ s.drop (z.hs + z.ss) := by
  have e := hz
  rw [hc, varCode_sizage large hl hf] at e
  injection e with e
  have hss : z.ss = if large then 4 else 2 := by rw [← e]
  unfold ZeroLeadHead
  rw [← hc, ← hss, ← hA]
  have := List.take_append_drop z.hs (s.take (z.hs + z.ss))
  rw [List.take_take, Nat.min_eq_left (by omega)] at this
  rw [this, List.take_append_drop]

/-- C12 (text). On ASCII input the text parser panics exactly when the input starts with a variable-size code
that promises lead bytes and a zero size, or with a head promising two lead bytes in one quadlet that is
followed by a doubly padded group. -/
theorem C12_text_panics_exactly (E : Env) {s : Str} (ha : Ascii s) :
    Matter.ofText E s = .panic ↔
      (∃ large lead f rest, (lead = 1 ∨ lead = 2) ∧ (f = ch 'A' ∨ f = ch 'B') ∧ s = ZeroLeadHead large lead f ++ rest) ∨
      (∃ head ∈ OneQuadHeads, ∃ x y rest, s = head ++ [x, y, ch '=', ch '='] ++ rest ∧ x ∈ Spec.alphabet ∧
        y ∈ [ch 'A', ch 'Q', ch 'g', ch 'w']) := by
  constructor
  · intro h
    rcases exfil_panic_cases ha h with ⟨z, hz, hf, hl, hcs, hA⟩ | ⟨z, v, hz, hl, hcs, hsoft, hdec, hv⟩
    · left
      rcases sizage_spec hz with ⟨_, l, f, h1, h2, h3⟩ | ⟨hc, _⟩
      · exact ⟨l, z.ls, f, _, by omega, h2, zeroLeadHead_split h1 h2 hz h3 hA⟩
      · exact absurd hf hc
    · right
      have hquad : ∃ x y, (s.take (z.hs + z.ss + 4)).drop (z.hs + z.ss) = [x, y, ch '=', ch '='] ∧ x ∈ Spec.alphabet ∧
          y ∈ [ch 'A', ch 'Q', ch 'g', ch 'w'] := by
        have hc := decode_canonical hdec
        match v, hv with
        | [a], _ =>
          simp only [b64Encode] at hc
          refine ⟨_, _, hc.symm, ?_, ?_⟩
          · rw [mem_alphabet]
            exact sextetChar_isB64 _ (Nat.mod_lt _ (by decide))
          · have hlt := a.toNat_lt
            have h4 : a.toNat * 65536 / 4096 % 64 = a.toNat % 4 * 16 := by omega
            rw [h4]
            have : a.toNat % 4 < 4 := Nat.mod_lt _ (by decide)
            match a.toNat % 4, this with
            | 0, _ => decide
            | 1, _ => decide
            | 2, _ => decide
            | 3, _ => decide
      obtain ⟨x, y, hq, hx, hy⟩ := hquad
      have hhead : s.take (z.hs + z.ss) ∈ OneQuadHeads := by
        have e : s.take (z.hs + z.ss) = s.take z.hs ++ (s.take (z.hs + z.ss)).drop z.hs := by
          have := List.take_append_drop z.hs (s.take (z.hs + z.ss))
          rw [List.take_take, Nat.min_eq_left (by omega)] at this
          exact this.symm
        rw [e]
        rcases sizage_spec hz with ⟨hf, l, f, h1, h2, h3⟩ | ⟨hf, hm⟩
        · rw [hsoft hf, h3]
          have e2 := hz
          rw [h3, varCode_sizage l h1 h2] at e2
          injection e2 with e2
          have hss : z.ss = if l then 4 else 2 := by rw [← e2]
          rw [hss, hl]
          rcases h2 with rfl | rfl <;> cases l <;> decide
        · have : z.ss = 0 := ((row_of_sizage hz).fix hf).1
          rw [this, Nat.add_zero, List.drop_eq_nil_of_le (by simp; omega), List.append_nil]
          have key : ∀ e ∈ sizes, e.2.fs ≠ u32Max → e.2.ls = 2 → e.1 ∈ OneQuadHeads := by decide +kernel
          exact key _ (sizage_mem hz) hf hl
      refine ⟨_, hhead, x, y, s.drop (z.hs + z.ss + 4), ?_, hx, hy⟩
      rw [← hq]
      have := List.take_append_drop (z.hs + z.ss) (s.take (z.hs + z.ss + 4))
      rw [List.take_take, Nat.min_eq_left (by omega)] at this
      rw [this, List.take_append_drop]
  · rintro (⟨large, lead, f, rest, hl, hf, rfl⟩ | ⟨head, hh, x, y, rest, rfl, hx, hy⟩)
    · have hz := varCode_sizage large (show lead ≤ 2 by omega) hf
      have hr : utf8Valid rest = true := utf8Valid_ascii (fun c hc => ha c (by simp [hc]))
      have := exfil_zeroLead hz rfl (by simp; omega) hr
      exact this
    · have hr : Ascii rest := fun c hc => ha c (by simp [hc])
      have hbody : Ascii [x, y, ch '=', ch '='] := fun c hc => ha c (by
        simp only [List.mem_append]; exact .inl (.inr hc))
      obtain ⟨i, hi⟩ : ∃ i, sextetVal x = some i := by
        have := (mem_alphabet x).mp hx
        rcases charIndex_spec x with ⟨_, i, _, h, _⟩ | ⟨h, _⟩
        · exact ⟨i, by simp [sextetVal, h]⟩
        · rw [h] at this; cases this
      have hdec : ∃ v, b64Decode [x, y, ch '=', ch '='] = .ok [v] := by
        have hy' : ∃ j, sextetVal y = some j ∧ j % 16 = 0 := by
          simp only [List.mem_cons, List.not_mem_nil, or_false] at hy
          rcases hy with rfl | rfl | rfl | rfl
          · exact ⟨0, by rfl, by rfl⟩
          · exact ⟨16, by rfl, by rfl⟩
          · exact ⟨32, by rfl, by rfl⟩
          · exact ⟨48, by rfl, by rfl⟩
        obtain ⟨j, hj, hj0⟩ := hy'
        refine ⟨UInt8.ofNat (i * 4 + j / 16), ?_⟩
        simp [b64Decode, b64DecodeOpt, decodeLastQuad, hi, hj, hj0]
      obtain ⟨v, hv⟩ := hdec
      have go : ∀ {code z size}, sizage code = .ok z → size < 64 ^ z.ss → z.ls = 2 → (z.hs + z.ss) % 4 = 0 →
          (z.hs + z.ss + 4 = if z.fs = u32Max then size * 4 + (z.hs + z.ss) else z.fs) →
          head = code ++ encD (digitsB 64 z.ss size) → Matter.exfil (head ++ [x, y, ch '=', ch '='] ++ rest) = .panic := by
        intro code z size hz hs hl h4 hfs he
        rw [he, exfil_head hz hs hbody (utf8Valid_ascii hr) (by simpa using hfs)]
        simp [h4, hv, hl, slice]
      simp only [OneQuadHeads, List.mem_cons, List.not_mem_nil, or_false] at hh
      show Matter.exfil _ = _
      rcases hh with rfl | rfl | rfl | rfl | rfl
      · exact go (code := lit "3AAA") (z := { hs := 4, ss := 0, fs := 8, ls := 2 }) (size := 0) (by rfl) (by decide) rfl (by decide) (by decide) (by rfl)
      · exact go (code := lit "6A") (z := { hs := 2, ss := 2, fs := u32Max, ls := 2 }) (size := 1) (by rfl) (by decide) rfl (by decide) (by decide) (by rfl)
      · exact go (code := lit "6B") (z := { hs := 2, ss := 2, fs := u32Max, ls := 2 }) (size := 1) (by rfl) (by decide) rfl (by decide) (by decide) (by rfl)
      · exact go (code := lit "9AAA") (z := { hs := 4, ss := 4, fs := u32Max, ls := 2 }) (size := 1) (by rfl) (by decide) rfl (by decide) (by decide) (by rfl)
      · exact go (code := lit "9AAB") (z := { hs := 4, ss := 4, fs := u32Max, ls := 2 }) (size := 1) (by rfl) (by decide) rfl (by decide) (by decide) (by rfl)

/-- C12 (binary). The binary parser panics exactly when the input starts with the binary form of a head that
promises lead bytes and a zero size. -/
theorem C12_binary_panics_exactly (E : Env) (b : List UInt8) :
    Matter.ofBinary E b = .panic ↔
      ∃ large lead f n, (lead = 1 ∨ lead = 2) ∧ (f = ch 'A' ∨ f = ch 'B') ∧ n = (if large then 6 else 3) ∧
        n ≤ b.length ∧ Spec.IsDecoding (ZeroLeadHead large lead f) (b.take n) := by
  constructor
  · intro h
    obtain ⟨z, hz, hf, hl, hb, h0⟩ := bexfil_panic h
    rcases sizage_spec hz with ⟨_, l, f, h1, h2, h3⟩ | ⟨hc, _⟩
    · refine ⟨l, z.ls, f, _, by omega, h2, rfl, ?_⟩
      have e := hz
      rw [h3, varCode_sizage l h1 h2] at e
      injection e with e
      have hhs : z.hs = if l then 4 else 2 := by rw [← e]
      have hss : z.ss = if l then 4 else 2 := by rw [← e]
      have hn : (z.hs + z.ss + 1) * 3 / 4 = if l then 6 else 3 := by rw [hhs, hss]; cases l <;> rfl
      rw [hn] at hb
      refine ⟨hb, ?_⟩
      have hlen : (b.take (if l then 6 else 3)).length % 3 = 0 := by
        rw [List.length_take, Nat.min_eq_left hb]; cases l <;> rfl
      have hlen' : (b.take (if l then 6 else 3)).length = if l then 6 else 3 := by
        rw [List.length_take, Nat.min_eq_left hb]
      have e1 : (sext b).take (z.hs + z.ss) = sextets (b.take (if l then 6 else 3)) := by
        have := sext_append_take (a := b.take (if l then 6 else 3)) (rest := b.drop (if l then 6 else 3)) hlen
          (k := z.hs + z.ss) (by rw [hlen', hhs, hss]; cases l <;> decide)
        rw [List.take_append_drop] at this
        rw [this, List.take_of_length_le]
        rw [sextets_length, hlen', hhs, hss]; cases l <;> decide
      have e2 : encD (sextets (b.take (if l then 6 else 3))) = ZeroLeadHead l z.ls f := by
        have := List.take_append_drop z.hs ((sext b).take (z.hs + z.ss))
        rw [h0, List.take_take, Nat.min_eq_left (by omega)] at this
        rw [← e1, ← this, encD_append, h3, encD_replicate, hss]
        rfl
      rw [← e2]
      exact isDecoding_sextets hlen
    · exact absurd hf hc
  · rintro ⟨large, lead, f, n, hl, hf, rfl, hb, hd⟩
    have hz := varCode_sizage large (show lead ≤ 2 by omega) hf
    have hlen : (b.take (if large then 6 else 3)).length % 3 = 0 := by
      rw [List.length_take, Nat.min_eq_left hb]; cases large <;> rfl
    have hlen' : (b.take (if large then 6 else 3)).length = if large then 6 else 3 := by
      rw [List.length_take, Nat.min_eq_left hb]
    have hdig := isDecoding_sextets hlen
    -- the head text is the sextets of the head bytes
    have hr := row_of_sizage hz
    have he2 : encD (sextets (b.take (if large then 6 else 3))) = ZeroLeadHead large lead f := by
      have hzb : ∀ c ∈ ZeroLeadHead large lead f, isB64 c = true := (isB64Text_iff _).mp hd.1
      obtain ⟨d, hd1, hd2⟩ := exists_encD hzb
      rw [← hd2]
      congr 1
      have hbits : d.flatMap digitBits = (sextets (b.take (if large then 6 else 3))).flatMap digitBits := by
        rw [← textBits_encD hd1, hd2, sextets_bits hlen, hd.2]
      have inj : ∀ {x y : List Nat}, (∀ a ∈ x, a < 64) → (∀ a ∈ y, a < 64) → x.flatMap digitBits = y.flatMap digitBits → x = y := by
        intro x
        induction x with
        | nil => intro y _ _ h; cases y with
          | nil => rfl
          | cons => simp [digitBits] at h
        | cons a x ih => intro y hx hy h; cases y with
          | nil => simp [digitBits] at h
          | cons c y =>
            rw [List.flatMap_cons, List.flatMap_cons] at h
            have := List.append_inj h (by simp [digitBits])
            rw [digitBits_inj (hx a (by simp)) (hy c (by simp)) this.1,
              ih (fun a ha => hx a (by simp [ha])) (fun a ha => hy a (by simp [ha])) this.2]
      exact (inj hd1 (sextets_lt _) hbits).symm
    have e1 : ∀ k ≤ (if large then 8 else 4), (sext b).take k = (sextets (b.take (if large then 6 else 3))).take k := by
      intro k hk
      have := sext_append_take (a := b.take (if large then 6 else 3)) (rest := b.drop (if large then 6 else 3)) hlen
        (k := k) (by rw [hlen']; cases large <;> simp_all)
      rw [List.take_append_drop] at this
      exact this
    have hcl := hr.len
    apply bexfil_zeroLead E (z := { hs := if large then 4 else 2, ss := if large then 4 else 2, ls := lead, fs := u32Max })
    · simp only
      rw [e1 _ (by cases large <;> decide), encD_take, he2, ZeroLeadHead]
      rw [List.take_append_of_le_length (by rw [hcl]; exact Nat.le_refl _), List.take_of_length_le (by rw [hcl]; exact Nat.le_refl _)]
      exact hz
    · rfl
    · simp only; omega
    · simp only; revert hb; cases large <;> simp
    · simp only
      apply encD_inj (fun x hx => sext_lt _ x (List.mem_of_mem_take (List.mem_of_mem_drop hx)))
        (by intro x hx; have := List.eq_of_mem_replicate hx; omega)
      rw [encD_drop, e1 _ (by cases large <;> decide), encD_take, he2, ZeroLeadHead, encD_replicate, List.take_of_length_le (by
        rw [List.length_append, hcl]; simp)]
      rw [List.drop_append_of_le_length (by rw [hcl]; exact Nat.le_refl _), List.drop_eq_nil_of_le (by rw [hcl]; exact Nat.le_refl _), List.nil_append]

/-- C12, non-ASCII text: every text that starts with `0`, `4`, `5` or `6` followed by a non-ASCII character
panics. -/
theorem C12_non_ascii_panics (E : Env) {d c : UInt8} {rest : Str} (hd : d ∈ lit "0456") (hv : utf8Valid (d :: c :: rest) = true)
    (hc : 128 ≤ c) : Matter.ofText E (d :: c :: rest) = .panic := by
  have hhard : hardage d = .ok 2 := by
    have : lit "0456" = [ch '0', ch '4', ch '5', ch '6'] := by rfl
    rw [this] at hd
    simp only [List.mem_cons, List.not_mem_nil, or_false] at hd
    rcases hd with rfl | rfl | rfl | rfl <;> rfl
  have hd128 : d < 128 := by
    have : lit "0456" = [ch '0', ch '4', ch '5', ch '6'] := by rfl
    rw [this] at hd
    simp only [List.mem_cons, List.not_mem_nil, or_false] at hd
    rcases hd with rfl | rfl | rfl | rfl <;> decide
  have hv2 : utf8Valid (c :: rest) = true := by
    have := utf8Valid_ascii_append (a := [d]) (b := c :: rest) (by simpa [Ascii] using hd128)
    rw [← this]; exact hv
  -- the second byte of the character is a continuation byte
  have hcont : ∃ e r, rest = e :: r ∧ isCont e = true := by
    unfold utf8Valid at hv2
    have hn : ¬ c < 128 := by
      intro h
      have h1 : c.toNat < 128 := by simpa [UInt8.lt_iff_toNat_lt] using h
      have h2 : 128 ≤ c.toNat := by simpa [UInt8.le_iff_toNat_le] using hc
      omega
    simp only [hn, if_false] at hv2
    cases rest with
    | nil => simp at hv2
    | cons e r =>
      refine ⟨e, r, rfl, ?_⟩
      have het := e.toNat_lt
      have cont : ∀ lo hi : Nat, 128 ≤ lo → hi ≤ 191 → lo ≤ e.toNat → e.toNat ≤ hi → isCont e = true := by
        intro lo hi h1 h2 h3 h4
        simp only [isCont, beq_iff_eq]
        omega
      split at hv2
      · simp only [Bool.and_eq_true] at hv2
        exact hv2.1
      split at hv2
      · cases r with
        | nil => simp at hv2
        | cons x r =>
          simp only [Bool.and_eq_true] at hv2
          have h1 := hv2.1.1
          split at h1
          · simp only [Bool.and_eq_true, decide_eq_true_eq, UInt8.le_iff_toNat_le] at h1
            exact cont _ _ (by decide) (by decide) h1.1 h1.2
          split at h1
          · simp only [Bool.and_eq_true, decide_eq_true_eq, UInt8.le_iff_toNat_le] at h1
            exact cont _ _ (by decide) (by decide) h1.1 h1.2
          · exact h1
      split at hv2
      · cases r with
        | nil => simp at hv2
        | cons x r => cases r with
          | nil => simp at hv2
          | cons y r =>
            simp only [Bool.and_eq_true] at hv2
            have h1 := hv2.1.1.1
            split at h1
            · simp only [Bool.and_eq_true, decide_eq_true_eq, UInt8.le_iff_toNat_le] at h1
              exact cont _ _ (by decide) (by decide) h1.1 h1.2
            split at h1
            · simp only [Bool.and_eq_true, decide_eq_true_eq, UInt8.le_iff_toNat_le] at h1
              exact cont _ _ (by decide) (by decide) h1.1 h1.2
            · exact h1
      · cases hv2
  obtain ⟨e, r, rfl, he⟩ := hcont
  show Matter.exfil (d :: c :: e :: r) = _
  unfold Matter.exfil
  simp only [hhard, Res.ok_bind]
  rw [if_neg (by simp)]
  have : sliceStr (d :: c :: e :: r) 0 2 = .panic := by
    unfold sliceStr
    rw [if_neg]
    simp [isBoundary, he]
  rw [this, Res.panic_bind]

/-- Concrete panics: zero size with a lead byte, in both domains; a non-ASCII text. -/
example : Matter.ofText Env.release (lit "5AAA") = .panic := by decide +kernel
example : Matter.ofBinary Env.release [0xe4, 0x00, 0x00] = .panic := by decide +kernel
example : Matter.ofText Env.release (lit "6AABAA==") = .panic := by decide +kernel
example : Matter.ofText Env.release [ch '0', 0xc3, 0xa9] = .panic := by decide +kernel

/-! ## C14: the code table -/

/-- C14. The known codes are exactly those of the specification; the number of hard characters follows from the
first character and from the first sextet; no code is a prefix of another; lead and pad sizes align every
primitive to 24 bits. -/
theorem C14_table :
    (∀ code, Spec.IsCode code ↔ ∃ z, sizage code = .ok z) ∧
    (∀ code z, sizage code = .ok z → code.length = z.hs ∧
      ∃ c t, code = c :: t ∧ hardage c = .ok z.hs ∧ bardage (Spec.alphabet.idxOf c) = .ok z.hs) ∧
    (∀ a b, Spec.IsCode a → Spec.IsCode b → a <+: b → a = b) ∧
    (∀ code z, sizage code = .ok z → z.fs ≠ u32Max →
      z.fs % 4 = 0 ∧ (z.fs - z.hs) * 6 = 8 * (z.ls + ((z.fs - z.hs) * 3 / 4 - z.ls)) + 2 * (z.hs % 4)) := by
  refine ⟨fun code => ⟨isCode_sizage, fun ⟨_, h⟩ => sizage_isCode h⟩, ?_, ?_, ?_⟩
  · intro code z h
    have r := row_of_sizage h
    obtain ⟨c, t, h1, h2, i, h3, h4⟩ := r.hard
    refine ⟨r.len, c, t, h1, h2, ?_⟩
    obtain ⟨hi, hc⟩ := sextetVal_some h3
    rw [← hc, idxOf_sextetChar i hi]; exact h4
  · intro a b ha hb hp
    obtain ⟨za, hza⟩ := isCode_sizage ha
    obtain ⟨zb, hzb⟩ := isCode_sizage hb
    have ra := row_of_sizage hza
    have rb := row_of_sizage hzb
    obtain ⟨c, t, h1, h2, _⟩ := ra.hard
    obtain ⟨c', t', h1', h2', _⟩ := rb.hard
    have hc : c = c' := by
      rw [h1, h1'] at hp
      exact (List.cons_prefix_cons.mp hp).1
    have : za.hs = zb.hs := by
      rw [hc, h2'] at h2; injection h2 with h2; exact h2.symm
    exact hp.eq_of_length (by rw [ra.len, rb.len, this])
  · intro code z h hf
    have key : ∀ e ∈ sizes, e.2.fs ≠ u32Max →
      e.2.fs % 4 = 0 ∧ (e.2.fs - e.2.hs) * 6 = 8 * (e.2.ls + ((e.2.fs - e.2.hs) * 3 / 4 - e.2.ls)) + 2 * (e.2.hs % 4) := by
      decide +kernel
    exact key _ (sizage_mem h) hf

/-- C14, a defect found with it: a code the table does not know is accepted at construction when it starts
with a variable-size digit, and the object then cannot be encoded. -/
theorem C14_unknown_variable_code_accepted (E : Env) : ∃ code raw m, ¬ Spec.IsCode code ∧ Matter.ofRaw E code raw = .ok m ∧
    m.qb64 E = .err .unknownSizage ∧ m.qb2 E = .err .unknownSizage := by
  refine ⟨lit "4Z", [1, 2, 3], { code := lit "4Z", size := 1, raw := [1, 2, 3] }, ?_, by rfl, by rfl, by rfl⟩
  intro h
  obtain ⟨z, hz⟩ := isCode_sizage h
  have : sizage (lit "4Z") = .err .unknownSizage := by rfl
  rw [this] at hz; cases hz

end Cesride
