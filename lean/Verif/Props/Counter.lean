import Verif.Lemmas.Counter
import Verif.Lemmas.Split
import Verif.Props.Indexer
import Verif.Props.Util

/-! # Properties C23 - C27 of `Counter` -/

namespace Cesride
open Counter

/-- `Counter::new` with code and count. -/
abbrev Counter.ofCode (E : Env) (code : Str) (count : Nat) : Res Counter := Counter.new E (some count) none (some code) none none none
/-- `Counter::new` with qb64 text. -/
abbrev Counter.ofText (E : Env) (t : Str) : Res Counter := Counter.new E none none none none (some t) none
/-- `Counter::new` with qb64 bytes. -/
abbrev Counter.ofTextBytes (E : Env) (t : List UInt8) : Res Counter := Counter.new E none none none (some t) none none
/-- `Counter::new` with qb2 bytes. -/
abbrev Counter.ofBinary (E : Env) (b : List UInt8) : Res Counter := Counter.new E none none none none none (some b)

theorem counterCodes_table : ∀ e ∈ Spec.counterCodes, (e.1, ({ hs := e.1.length, ss := e.2, fs := e.1.length + e.2, ls := 0 } : CSizage)) ∈ sizes := by
  decide +kernel

theorem counterCodes_complete : ∀ e ∈ sizes, (e.1, e.2.ss) ∈ Spec.counterCodes ∧
    e.2 = { hs := e.1.length, ss := e.2.ss, fs := e.1.length + e.2.ss, ls := 0 } := by
  decide +kernel

theorem counter_row {code : Str} {n : Nat} (h : (code, n) ∈ Spec.counterCodes) :
    (code, ({ hs := code.length, ss := n, fs := code.length + n, ls := 0 } : CSizage)) ∈ sizes := counterCodes_table _ h

theorem packD_decoding {d : List Nat} (hd : ∀ x ∈ d, x < 64) (h4 : d.length % 4 = 0) :
    Spec.IsDecoding (encD d) (packD d) ∧ (packD d).length * 4 = (encD d).length * 3 := by
  have hl : (packD d).length = d.length * 3 / 4 := by rw [packD_length]; omega
  have h3 : (packD d).length % 3 = 0 := by omega
  have hs : sextets (packD d) = d := by
    apply sextets_eq_of_val h3 hd
    · omega
    · rw [beNat_packD hd, h4]; simp
  refine ⟨?_, by rw [encD_length]; omega⟩
  have := isDecoding_sextets h3
  rwa [hs] at this

/-! ## C23, C24 -/

/-- C24. A counter is built exactly when the code is a counter code and the count fits its digits. -/
theorem C24_limits (E : Env) {code : Str} {digits : Nat} (h : (code, digits) ∈ Spec.counterCodes) (count : Nat) :
    Counter.ofCode E code count = if count ≤ 64 ^ digits - 1 then .ok { code := code, count := count } else .err .invalidVarIndex := by
  have hm := counter_row h
  have r := row_of_mem hm
  show newWithCodeAndCount code count = _
  unfold newWithCodeAndCount
  have := r.hs2
  rw [if_neg (by intro h0; subst h0; simp at this), sizage_of_mem hm]
  simp only [Res.ok_bind]
  rw [if_neg (by have := r.fs; have := r.m4; simp only at this; omega)]
  by_cases hc : count ≤ 64 ^ digits - 1
  · rw [if_pos hc, if_neg (by omega)]
  · rw [if_neg hc, if_pos (by omega)]

/-- C24. Any other code is refused. -/
theorem C24_unknown_code (E : Env) {code : Str} (h : ∀ digits, (code, digits) ∉ Spec.counterCodes) (count : Nat) :
    ∃ e, Counter.ofCode E code count = .err e := by
  show ∃ e, newWithCodeAndCount code count = .err e
  unfold newWithCodeAndCount
  split
  · exact ⟨_, rfl⟩
  · cases hz : sizage code with
    | ok z => exact absurd (counterCodes_complete _ (mem_of_sizage hz)).1 (h z.ss)
    | err e => exact ⟨e, rfl⟩
    | panic => exact absurd hz (sizage_ne_panic _)

/-- C24. The count may also be given as Base64 text, and defaults to 1. -/
theorem C24_count_forms (E : Env) (code : Str) (t : Str) :
    Counter.new E none none (some code) none none none = Counter.ofCode E code 1 ∧
    Counter.new E none (some t) (some code) none none none =
      (do let n ← b64ToU32 t; Counter.ofCode E code n) := ⟨rfl, rfl⟩

/-- Counters a caller can obtain. -/
inductive CounterObtained (E : Env) : Counter → Prop
  | built {code count x} : Counter.ofCode E code count = .ok x → CounterObtained E x
  | text {t x} : Counter.ofText E t = .ok x → CounterObtained E x
  | textBytes {t x} : Counter.ofTextBytes E t = .ok x → CounterObtained E x
  | binary {b x} : Counter.ofBinary E b = .ok x → CounterObtained E x

theorem ofTextBytes_ok {E : Env} {t : Str} {x : Counter} (h : Counter.ofTextBytes E t = .ok x) : Counter.ofText E t = .ok x := by
  have h : (do let q ← fromUtf8 t; Counter.exfil q) = .ok x := h
  obtain ⟨q, h1, h2⟩ := Res.bind_eq_ok.mp h
  unfold fromUtf8 at h1
  split at h1
  · injection h1 with h1; subst h1; exact h2
  · cases h1

/-- C24. Every obtained counter has a known code and a count that fits. -/
theorem C24_obtained_fits {E : Env} {x : Counter} (h : CounterObtained E x) : ∃ digits, (x.code, digits) ∈ Spec.counterCodes ∧ x.count < 64 ^ digits := by
  cases h with
  | built h =>
    rename_i code count
    by_cases hk : ∃ d, (code, d) ∈ Spec.counterCodes
    · obtain ⟨d, hd⟩ := hk
      rw [C24_limits E hd] at h
      split at h
      · injection h with h
        subst h
        have : 0 < 64 ^ d := Nat.pow_pos (by decide)
        exact ⟨d, hd, by simp only; omega⟩
      · cases h
    · obtain ⟨e, he⟩ := C24_unknown_code E (code := code) (fun d hd => hk ⟨d, hd⟩) count
      rw [he] at h; cases h
  | text h =>
    obtain ⟨z, h1, h2, _⟩ := exfil_inv h
    exact ⟨z.ss, (counterCodes_complete _ h1).1, h2⟩
  | textBytes h =>
    obtain ⟨z, h1, h2, _⟩ := exfil_inv (ofTextBytes_ok h)
    exact ⟨z.ss, (counterCodes_complete _ h1).1, h2⟩
  | binary h =>
    obtain ⟨z, h1, h2, _⟩ := bexfil_inv E h
    exact ⟨z.ss, (counterCodes_complete _ h1).1, h2⟩

/-- C23. Every obtained counter encodes to text and binary; both parse back to it; the text is the code followed by
the count in Base64; the binary is the decoding of the text. -/
theorem C23_roundtrip (E : Env) {x : Counter} (h : CounterObtained E x) :
    ∃ t b, x.qb64 E = .ok t ∧ x.qb64b E = .ok t ∧ x.qb2 E = .ok b ∧ Counter.ofText E t = .ok x ∧ Counter.ofTextBytes E t = .ok x ∧
      Counter.ofBinary E b = .ok x ∧ Spec.IsDecoding t b ∧ x.fullSize = .ok t.length ∧
      (∃ digits, t = x.code ++ digits ∧ (x.code, digits.length) ∈ Spec.counterCodes ∧ Spec.textNum digits = x.count ∧
        x.countAsB64 E 0 = .ok digits) := by
  obtain ⟨n, hn, hc⟩ := C24_obtained_fits h
  have hm := counter_row hn
  have r := row_of_mem hm
  have hlt := r.allD_lt x.count
  have hl4 : (allD x.code n x.count).length % 4 = 0 := by rw [r.allD_length]; exact r.m4
  obtain ⟨hd, _⟩ := packD_decoding hlt hl4
  have he : Counter.exfil (encD (allD x.code n x.count)) = .ok x := by
    have := exfil_text hm hc (rest := []) rfl
    rwa [List.append_nil] at this
  have hb : Counter.bexfil E (packD (allD x.code n x.count)) = .ok x := by
    have := bexfil_binary E hm hc []
    rwa [List.append_nil] at this
  refine ⟨_, _, infil_eq E hm hc, infil_eq E hm hc, binfil_eq E hm hc, he, ?_, hb, hd, ?_, _, r.encD_allD _, ?_, ?_, ?_⟩
  · show (do let q ← fromUtf8 _; Counter.exfil q) = _
    rw [fromUtf8, if_pos (utf8Valid_ascii (ascii_encD hlt))]
    exact he
  · rw [encD_length, r.allD_length]
    simp only [Counter.fullSize, sizage_of_mem hm, Res.ok_bind]
  · rw [encD_length, digitsB_length]; exact hn
  · rw [encD_length_textNum, valB_digitsB, Nat.mod_eq_of_lt hc]
  · have h5 := r.ss5
    have : 64 ^ n ≤ 64 ^ 5 := Nat.pow_le_pow_right (by decide) h5
    simp only [Counter.countAsB64, if_true, sizage_of_mem hm, Res.ok_bind]
    exact uintToB64_eq E hc (by omega)
where
  encD_length_textNum {k c : Nat} : Spec.textNum (encD (digitsB 64 k c)) = valB 64 (digitsB 64 k c) :=
    textNum_encD (digitsB_lt (by decide) k c)

/-- Non-vacuity. -/
example : CounterObtained Env.debug { code := lit "-0V", count := 64 ^ 5 - 1 } := .built (code := lit "-0V") (count := 64 ^ 5 - 1) (by decide +kernel)
example : CounterObtained Env.debug { code := lit "-A", count := 5 } := .text (t := lit "-AAFrest") (by decide +kernel)
example : Counter.ofCode Env.debug (lit "-A") 4096 = .err .invalidVarIndex := by decide +kernel

/-! ## C25 -/

/-- C25 (a). Accepted text re-encodes to the consumed characters. -/
theorem C25_text_canonical (E : Env) {s : Str} {x : Counter} (h : Counter.ofText E s = .ok x) :
    ∃ n ≤ s.length, x.fullSize = .ok n ∧ x.qb64 E = .ok (s.take n) := by
  obtain ⟨z, h1, h2, h3, h4⟩ := exfil_inv h
  have r := row_of_mem h1
  refine ⟨z.hs + z.ss, h3, ?_, ?_⟩
  · simp only [Counter.fullSize, sizage_of_mem h1, Res.ok_bind, r.fs]
  · rw [h4]; exact infil_eq E h1 h2

/-- C25 (b). Accepted binary re-encodes to the consumed bytes. -/
theorem C25_binary_canonical (E : Env) {b : List UInt8} {x : Counter} (h : Counter.ofBinary E b = .ok x) :
    ∃ n, x.fullSize = .ok n ∧ n * 3 / 4 ≤ b.length ∧ x.qb2 E = .ok (b.take (n * 3 / 4)) := by
  obtain ⟨z, h1, h2, h3, h4⟩ := bexfil_inv E h
  have r := row_of_mem h1
  have hm4 := r.m4
  refine ⟨z.hs + z.ss, ?_, by omega, ?_⟩
  · simp only [Counter.fullSize, sizage_of_mem h1, Res.ok_bind, r.fs]
  · have hq : x.qb2 E = _ := binfil_eq E h1 h2
    rw [hq]
    congr 1
    apply beNat_inj
    · rw [packD_length, r.allD_length, List.length_take]; omega
    · have hn : (z.hs + z.ss) * 3 / 4 = (z.hs + z.ss + 1) * 3 / 4 := by omega
      have := valB_sext_take b (len := z.hs + z.ss) (by omega)
      rw [hm4, Nat.pow_zero, Nat.div_one, h4] at this
      rw [beNat_packD (r.allD_lt _), r.allD_length, hm4, hn, ← this]
      simp

/-- C25 (c). Trailing data is ignored. -/
theorem C25_self_framing (E : Env) {x : Counter} (h : CounterObtained E x) :
    ∃ t b, x.qb64 E = .ok t ∧ x.qb2 E = .ok b ∧ (∀ rest, utf8Valid rest = true → Counter.ofText E (t ++ rest) = .ok x) ∧
      ∀ rest, Counter.ofBinary E (b ++ rest) = .ok x := by
  obtain ⟨n, hn, hc⟩ := C24_obtained_fits h
  have hm := counter_row hn
  exact ⟨_, _, infil_eq E hm hc, binfil_eq E hm hc, fun r hr => exfil_text hm hc hr, fun r => bexfil_binary E hm hc r⟩

/-- C25 (d). Truncated encodings are never accepted. (A one character text panics, see C26.) -/
theorem C25_truncated (E : Env) {x : Counter} (h : CounterObtained E x) :
    ∃ t b, x.qb64 E = .ok t ∧ x.qb2 E = .ok b ∧
      (∀ k < t.length, Counter.ofText E (t.take k) = if k = 0 then .err .emptyMaterial else if k = 1 then .panic else .err .shortage) ∧
      (∀ k < b.length, Counter.ofBinary E (b.take k) = if k = 0 then .err .emptyMaterial else if k = 1 then .err .tooSmall else .err .shortage) := by
  obtain ⟨n, hn, hc⟩ := C24_obtained_fits h
  have hm := counter_row hn
  have r := row_of_mem hm
  have hm4 := r.m4
  refine ⟨_, _, infil_eq E hm hc, binfil_eq E hm hc, fun k hk => exfil_truncated hm ?_, fun k hk => bexfil_truncated E hm ?_⟩
  · rwa [encD_length, r.allD_length] at hk
  · rw [packD_length, r.allD_length] at hk; omega

theorem counter_first {s : Str} {x : Counter} (h : Counter.exfil s = .ok x) : s.head? = some (ch '-') := by
  obtain ⟨z, h1, h2, h3, h4⟩ := exfil_inv h
  have r := row_of_mem h1
  obtain ⟨y, l, hf⟩ := r.first
  have : (s.take (z.hs + z.ss)).head? = some (ch '-') := by
    rw [h4, allD, hf]; rfl
  cases s with
  | nil => simp at this
  | cons c s =>
    have h2 := r.hs2
    rw [show z.hs + z.ss = (z.hs + z.ss - 1) + 1 by omega, List.take_succ_cons] at this
    exact this

theorem counter_bfirst {E : Env} {b : List UInt8} {x : Counter} (h : Counter.bexfil E b = .ok x) : (sext b).take 1 = [62] ∧ b ≠ [] := by
  obtain ⟨z, h1, h2, h3, h4⟩ := bexfil_inv E h
  have r := row_of_mem h1
  have hs2 := r.hs2
  obtain ⟨y, l, hf⟩ := r.first
  constructor
  · have : (sext b).take 1 = ((sext b).take (z.hs + z.ss)).take 1 := by rw [List.take_take, Nat.min_eq_left (by omega)]
    rw [this, h4, allD, hf]; rfl
  · intro h0; subst h0; simp at h3; omega

/-- C25 (e). No text and no binary is accepted both as a counter and as a primitive or an indexed signature. -/
theorem C25_disjoint (E : Env) :
    (∀ s x, Counter.ofText E s = .ok x → (∀ m, Matter.ofText E s ≠ .ok m) ∧ (∀ i, Indexer.ofText E s ≠ .ok i)) ∧
    (∀ b x, Counter.ofBinary E b = .ok x → (∀ m, Matter.ofBinary E b ≠ .ok m) ∧ (∀ i, Indexer.ofBinary E b ≠ .ok i)) := by
  constructor
  · intro s x h
    have hf := counter_first h
    cases s with
    | nil => simp at hf
    | cons c s =>
      simp only [List.head?_cons, Option.some.injEq] at hf
      subst hf
      constructor
      · intro m hm
        have hm : Matter.exfil (ch '-' :: s) = .ok m := hm
        have hh : Matter.hardage (ch '-') = .err .unexpectedCode := by decide +kernel
        simp [Matter.exfil, hh] at hm
      · intro m hm
        have hm : Indexer.exfil (ch '-' :: s) = .ok m := hm
        have hh : Indexer.hardage (ch '-') = .err .unexpectedCode := by decide +kernel
        simp [Indexer.exfil, hh] at hm
  · intro b x h
    obtain ⟨h1, hne⟩ := counter_bfirst h
    have hpos : 0 < b.length := List.length_pos_iff.mpr hne
    constructor
    · intro m hm
      have hm : Matter.bexfil E b = .ok m := hm
      have hh : Matter.bardage 62 = .err .unexpectedCode := by decide +kernel
      simp [Matter.bexfil, hne, nabSextets_eq b (show (1 + 1) * 3 / 4 ≤ b.length by omega), h1, hh] at hm
    · intro m hm
      have hm : Indexer.bexfil E b = .ok m := hm
      have hh : Indexer.bardage 62 = .err .unexpectedCode := by decide +kernel
      simp [Indexer.bexfil, hne, nabSextets_eq b (show (1 + 1) * 3 / 4 ≤ b.length by omega), h1, hh] at hm

/-! ## C26 -/

/-- C26. Binary parsing never panics; ASCII text panics exactly when it is one character long; any panic is
due to that or to a character that straddles a byte offset. -/
theorem C26_panics_exactly (E : Env) :
    (∀ b, Counter.ofBinary E b ≠ .panic) ∧
    (∀ s : Str, (∀ c ∈ s, c < 128) → (Counter.ofText E s = .panic ↔ s.length = 1)) ∧
    (∀ s : Str, Counter.ofText E s = .panic → s.length = 1 ∨ ∃ i ≤ s.length, isBoundary s i = false) := by
  refine ⟨bexfil_ne_panic E, fun s ha => ⟨fun h => ?_, fun h => ?_⟩, fun s h => exfil_panic h⟩
  · rcases exfil_panic h with h | ⟨i, hi, hb⟩
    · exact h
    · rw [isBoundary_ascii ha hi] at hb; cases hb
  · match s, h with
    | [c], _ => exact exfil_one c

/-- C26 (defect): a one byte text and a non-ASCII text make the parser panic. -/
theorem C26_panics : (∀ E, Counter.ofText E (lit "-") = .panic) ∧
    ∃ s : Str, utf8Valid s = true ∧ 8 ≤ s.length ∧ ∀ E, Counter.ofText E s = .panic :=
  ⟨fun _ => exfil_one _, lit "-AA" ++ [0xC3, 0xA9] ++ lit "AAA", by decide +kernel, by decide,
    fun _ => (by decide +kernel : Counter.exfil (lit "-AA" ++ [0xC3, 0xA9] ++ lit "AAA") = .panic)⟩

/-! ## C27 -/

theorem Components.lengths {l : List Str} {ns : List Nat} (h : Spec.Components l ns) : l.length = ns.length := by
  induction l generalizing ns with
  | nil => cases ns with
    | nil => rfl
    | cons => simp [Spec.Components] at h
  | cons s l ih => cases ns with
    | nil => simp [Spec.Components] at h
    | cons n ns => simp [ih h.2]

/-- C27. The version text is accepted exactly when it consists of one to three components joined by dots, each
standing for a number up to 63; the result is the alphabet character of each number, with `A` (0) for missing
components. -/
theorem C27_semver (E : Env) (version t : Str) :
    Counter.semVerStrToB64 E version = .ok t ↔
      ∃ comps nums, comps ≠ [] ∧ comps.length ≤ 3 ∧ (∀ s ∈ comps, ch '.' ∉ s) ∧ version = Spec.joinWith (ch '.') comps ∧
        Spec.Components comps nums ∧ (∀ n ∈ nums, n ≤ 63) ∧
        t = (nums ++ List.replicate (3 - nums.length) 0).map (fun n => Spec.alphabet.getD n 0) := by
  have hmap : ∀ ns : List Nat, (∀ n ∈ ns, n ≤ 63) → ns.map (fun n => Spec.alphabet.getD n 0) = encD ns := by
    intro ns h
    unfold encD
    apply List.map_congr_left
    intro n hn
    have key : ∀ i : Nat, i < 64 → Spec.alphabet.getD i 0 = sextetChar i := by decide +kernel
    exact key n (by have := h n hn; omega)
  have hpad : ∀ ns : List Nat, (∀ n ∈ ns, n ≤ 63) → ∀ n ∈ ns ++ List.replicate (3 - ns.length) 0, n ≤ 63 := by
    intro ns h n hn
    rcases List.mem_append.mp hn with hn | hn
    · exact h n hn
    · rw [List.eq_of_mem_replicate hn]; omega
  unfold Counter.semVerStrToB64
  constructor
  · intro h
    dsimp only at h
    split at h
    · cases h
    rename_i hlen
    obtain ⟨ns, h1, h⟩ := Res.bind_eq_ok.mp h
    obtain ⟨hc, _⟩ := (semVerParts_ok _ _).mp h1
    rw [semVerPartsToB64_eq] at h
    split at h
    · rename_i h63
      injection h with h
      have h63' : ∀ n ∈ ns, n ≤ 63 := fun n hn => h63 n (List.mem_append_left _ hn)
      exact ⟨_, ns, splitOn_ne_nil _ _, by omega, splitOn_no_sep _ _, (join_splitOn _ _).symm, hc, h63', by rw [hmap _ h63, h]⟩
    · cases h
  · rintro ⟨comps, nums, hne, hlen, hno, hv, hc, h63, ht⟩
    rw [hv, splitOn_join _ hne hno, if_neg (by omega), (semVerParts_ok _ _).mpr ⟨hc, fun n hn => by have := h63 n hn; omega⟩]
    simp only [Res.ok_bind]
    rw [semVerPartsToB64_eq, if_pos (hpad _ h63), ht, hmap _ (hpad _ h63)]

/-- C27. The numeric form is accepted exactly for parts up to 63, gives three characters, distinct versions give
distinct texts, and neither form panics. -/
theorem C27_parts (E : Env) (a b c : Nat) :
    (a ≤ 63 ∧ b ≤ 63 ∧ c ≤ 63 → ∃ t, Counter.semVerToB64 E a b c = .ok t ∧ t.length = 3 ∧ Spec.IsB64Text t ∧
      ∀ a' b' c', Counter.semVerToB64 E a' b' c' = .ok t → a' = a ∧ b' = b ∧ c' = c) ∧
    (¬ (a ≤ 63 ∧ b ≤ 63 ∧ c ≤ 63) → Counter.semVerToB64 E a b c = .err .parsing) ∧
    ∀ v, Counter.semVerStrToB64 E v ≠ .panic := by
  have hiff : ∀ a b c : Nat, (∀ n ∈ [a, b, c], n ≤ 63) ↔ (a ≤ 63 ∧ b ≤ 63 ∧ c ≤ 63) := by simp
  unfold Counter.semVerToB64
  refine ⟨fun h => ?_, fun h => ?_, fun v h => ?_⟩
  · have h63 := (hiff a b c).mpr h
    have hlt : ∀ x ∈ [a, b, c], x < 64 := fun x hx => by have := h63 x hx; omega
    refine ⟨encD [a, b, c], by rw [semVerPartsToB64_eq, if_pos h63], rfl, (isB64Text_iff _).mpr (encD_isB64 hlt), ?_⟩
    intro a' b' c' h'
    rw [semVerPartsToB64_eq] at h'
    split at h'
    · rename_i h63'
      injection h' with h'
      have := encD_inj (fun x hx => by have := h63' x hx; omega) hlt h'
      simpa using this
    · cases h'
  · rw [semVerPartsToB64_eq, if_neg (by rw [hiff]; exact h)]
  · unfold Counter.semVerStrToB64 at h
    dsimp only at h
    split at h
    · cases h
    rcases Res.bind_eq_panic.mp h with h | ⟨ns, _, h⟩
    · exact semVerParts_ne_panic _ h
    · rw [semVerPartsToB64_eq] at h
      split at h <;> cases h

/-- Non-vacuity. -/
example : Counter.semVerStrToB64 Env.debug (lit "1.2") = .ok (lit "BCA") := by decide +kernel
example : Counter.semVerStrToB64 Env.debug (lit "1.64.0") = .err .parsing := by decide +kernel
example : Counter.semVerStrToB64 Env.debug (lit "1.2.3.4") = .err .conversion := by decide +kernel

end Cesride
