import Verif.Props.Sadder
import Verif.Props.Prims
import Verif.Spec.Message

/-! # C60, C61, C62: accessors of `Serder` and `Creder`, updates of a message object -/

namespace Cesride
open Common Spec

theorem hasKey_some {o : List (Str × Value)} {k : Str} {v : Value} (h : o.lookup k = some v) : Value.hasKey o k = true := by
  rw [Saider.hasKey_eq_isSome, h]; rfl

theorem hasKey_none {o : List (Str × Value)} {k : Str} (h : o.lookup k = none) : Value.hasKey o k = false := by
  rw [Saider.hasKey_eq_isSome, h]; rfl

theorem Serder.parseAll_ok {f : Str → Res Matter} {a : List Value} {ms : List Matter} :
    Serder.parseAll f a = .ok ms ↔ Aligned (fun v m => ∃ t, v = .str t ∧ f t = .ok m) a ms := by
  induction a generalizing ms with
  | nil =>
    rw [Serder.parseAll]
    constructor
    · intro h; injection h with h; subst h; exact .nil
    · intro h; cases h; rfl
  | cons v a ih =>
    rw [Serder.parseAll]
    constructor
    · intro h
      obtain ⟨t, ht, h⟩ := Res.bind_eq_ok.mp h
      obtain ⟨m, hm, h⟩ := Res.bind_eq_ok.mp h
      obtain ⟨ms', hms, h⟩ := Res.bind_eq_ok.mp h
      injection h with h
      subst h
      exact .cons ⟨t, Sadder.toStr_ok.mp ht, hm⟩ (ih.mp hms)
    · intro h
      cases h with
      | cons h1 h2 =>
        obtain ⟨t, rfl, hm⟩ := h1
        rw [Sadder.toStr_ok.mpr rfl, Res.ok_bind, hm, Res.ok_bind, ih.mpr h2]
        rfl

theorem Serder.parseAll_panic {f : Str → Res Matter} {a : List Value} (h : Serder.parseAll f a = .panic) : ∃ t, .str t ∈ a ∧ f t = .panic := by
  induction a with
  | nil => cases h
  | cons v a ih =>
    rw [Serder.parseAll] at h
    rcases Res.bind_eq_panic.mp h with h | ⟨t, ht, h'⟩
    · exact absurd h (Saider.toStr_ne_panic v)
    clear h
    have := Sadder.toStr_ok.mp ht
    subst this
    rcases Res.bind_eq_panic.mp h' with h | ⟨m, hm, h⟩
    · exact ⟨t, by simp, h⟩
    rcases Res.bind_eq_panic.mp h with h | ⟨ms, hms, h⟩
    · obtain ⟨t', h1, h2⟩ := ih h
      exact ⟨t', by simp [h1], h2⟩
    · cases h

theorem Verfer.validateCode_ok {code : Str} {u : Unit} : Verfer.validateCode code = .ok u ↔ code ∈ verferCodes := by
  unfold Verfer.validateCode verferCodes
  split
  · rename_i h; simp only [List.contains_iff_mem] at h; simp only [true_iff]; exact h
  · rename_i h; simp only [List.contains_iff_mem] at h; simp only [false_iff, reduceCtorEq]; exact h

theorem Verfer.text_ok {E : Env} {t : Str} {m : Matter} : Verfer.new E none none none (some t) none = .ok m ↔ Matter.ofText E t = .ok m ∧ m.code ∈ verferCodes := by
  have e : Verfer.new E none none none (some t) none = (do let m ← Matter.ofText E t; Verfer.validateCode m.code; .ok m) := rfl
  rw [e]
  constructor
  · intro h
    obtain ⟨x, hx, h⟩ := Res.bind_eq_ok.mp h
    obtain ⟨u, hu, h⟩ := Res.bind_eq_ok.mp h
    injection h with h
    subst h
    exact ⟨hx, Verfer.validateCode_ok.mp hu⟩
  · rintro ⟨h1, h2⟩
    have : Verfer.validateCode m.code = .ok () := Verfer.validateCode_ok.mpr h2
    rw [h1, Res.ok_bind, this]
    rfl

theorem Diger.text_ok {E : Env} {H : Hash} {t : Str} {m : Matter} : Diger.new E H none none none none (some t) none = .ok m ↔
    Matter.ofText E t = .ok m ∧ ∃ n, (m.code, n) ∈ digestSizes := by
  unfold Diger.new
  cases h : Matter.new E none none none (some t) none with
  | panic => simp [h]
  | err e => simp [h]
  | ok x =>
    dsimp only
    constructor
    · intro h'
      obtain ⟨u, hu, h'⟩ := Res.bind_eq_ok.mp h'
      injection h' with h'
      subst h'
      exact ⟨h, validateDigestCode_ok.mp hu⟩
    · rintro ⟨h1, h2⟩
      have h1' : Res.ok x = Res.ok m := h.symm.trans h1
      injection h1' with h1'
      subst h1'
      have hval : validateDigestCode x.code = .ok () := validateDigestCode_ok.mpr h2
      rw [hval]
      rfl

/-- C60: the signing keys of a message are the texts of the `k` list, in order, one for one: each parses to the reported key, which
has a verification-key code. Without a `k` list there are none. -/
theorem C60_verfers {E : Env} {s : Sadder} {o : List (Str × Value)} (ho : s.ked = .obj o) :
    (∀ a, o.lookup (lit "k") = some (.arr a) → ∀ ms, Serder.verfers E s = .ok ms ↔
      Aligned (fun v m => ∃ t, v = .str t ∧ Matter.ofText E t = .ok m ∧ m.code ∈ verferCodes) a ms) ∧
    ((∀ a, o.lookup (lit "k") ≠ some (.arr a)) → Serder.verfers E s = .ok []) := by
  unfold Serder.verfers
  rw [ho]
  simp only [Value.toMap, Res.ok_bind]
  constructor
  · intro a ha ms
    simp only [hasKey_some ha, if_true, Sadder.index_ok.mpr ⟨o, rfl, ha⟩, Res.ok_bind, Value.toVec]
    rw [Serder.parseAll_ok]
    simp only [Verfer.text_ok]
  · intro hn
    cases h : o.lookup (lit "k") with
    | none => simp [hasKey_none h]
    | some v =>
      rw [h] at hn
      simp only [hasKey_some h, if_true, Sadder.index_ok.mpr ⟨o, rfl, h⟩, Res.ok_bind]
      cases v <;> simp_all [Value.toVec]

/-- C60: the same for the digests of the next keys in the `n` list. -/
theorem C60_digers {E : Env} {H : Hash} {s : Sadder} {o : List (Str × Value)} (ho : s.ked = .obj o) :
    (∀ a, o.lookup (lit "n") = some (.arr a) → ∀ ms, Serder.digers E H s = .ok ms ↔
      Aligned (fun v m => ∃ t, v = .str t ∧ Matter.ofText E t = .ok m ∧ ∃ n, (m.code, n) ∈ digestSizes) a ms) ∧
    ((∀ a, o.lookup (lit "n") ≠ some (.arr a)) → Serder.digers E H s = .ok []) := by
  unfold Serder.digers
  rw [ho]
  simp only [Value.toMap, Res.ok_bind]
  constructor
  · intro a ha ms
    simp only [hasKey_some ha, if_true, Sadder.index_ok.mpr ⟨o, rfl, ha⟩, Res.ok_bind, Value.toVec]
    rw [Serder.parseAll_ok]
    simp only [Diger.text_ok]
  · intro hn
    cases h : o.lookup (lit "n") with
    | none => simp [hasKey_none h]
    | some v =>
      rw [h] at hn
      simp only [hasKey_some h, if_true, Sadder.index_ok.mpr ⟨o, rfl, h⟩, Res.ok_bind]
      cases v <;> simp_all [Value.toVec]

/-- C60: the witnesses are those of the `b` list; unlike for `k` and `n`, a `b` that is not a list is an error. -/
theorem C60_werfers {E : Env} {s : Sadder} {o : List (Str × Value)} (ho : s.ked = .obj o) :
    (∀ a, o.lookup (lit "b") = some (.arr a) → ∀ ms, Serder.werfers E s = .ok ms ↔
      Aligned (fun v m => ∃ t, v = .str t ∧ Matter.ofText E t = .ok m ∧ m.code ∈ verferCodes) a ms) ∧
    (o.lookup (lit "b") = none → Serder.werfers E s = .ok []) ∧
    (∀ v, o.lookup (lit "b") = some v → (∀ a, v ≠ .arr a) → Serder.werfers E s = .err .conversion) := by
  unfold Serder.werfers
  rw [ho]
  simp only [Value.toMap, Res.ok_bind]
  refine ⟨?_, ?_, ?_⟩
  · intro a ha ms
    simp only [hasKey_some ha, if_true, Sadder.index_ok.mpr ⟨o, rfl, ha⟩, Res.ok_bind, Value.toVec]
    rw [Serder.parseAll_ok]
    simp only [Verfer.text_ok]
  · intro h
    simp [hasKey_none h]
  · intro v h hn
    simp only [hasKey_some h, if_true, Sadder.index_ok.mpr ⟨o, rfl, h⟩, Res.ok_bind]
    cases v <;> simp_all [Value.toVec]

/-- C60: the sequence number is the hexadecimal number in the text of `s` (the empty text counts as 0), below 2^128. A missing `s`
panics, anything else is an error. -/
theorem C60_sn {E : Env} {s : Sadder} {o : List (Str × Value)} (ho : s.ked = .obj o) :
    (∀ n, Serder.sn E s = .ok n ↔ ∃ t, o.lookup (lit "s") = some (.str t) ∧ ((t = [] ∧ n = 0) ∨ (HexNumeral t n ∧ n < 2 ^ 128))) ∧
    (Serder.sn E s = .panic ↔ lit "s" ∉ o.map Prod.fst) := by
  have key : ∀ t, o.lookup (lit "s") = some (.str t) → Serder.sn E s = (do let m ← Number.ofHex E t; Number.num m) := by
    intro t ht
    unfold Serder.sn Serder.sner
    rw [ho, Sadder.index_ok.mpr ⟨o, rfl, ht⟩, Res.ok_bind, Sadder.toStr_ok.mpr rfl, Res.ok_bind]
  have num : ∀ n, n < 2 ^ 128 → (do let m ← Number.ofNum E n; Number.num m) = .ok n := by
    intro n hn
    obtain ⟨x, _, _, _, h1, h2, _⟩ := C28_number_roundtrip E hn
    rw [h1, Res.ok_bind, h2]
  cases hs : o.lookup (lit "s") with
  | none =>
    have hp : Serder.sn E s = .panic := by
      unfold Serder.sn Serder.sner
      rw [ho, Sadder.index_panic.mpr (.inr ⟨o, rfl, lookup_none_iff.mp hs⟩)]
      rfl
    refine ⟨?_, ?_⟩
    · intro n; rw [hp]; simp
    · rw [hp]; simp only [true_iff]; exact lookup_none_iff.mp hs
  | some v =>
    have hin : lit "s" ∈ o.map Prod.fst := Saider.hasKey_iff.mp (by rw [Saider.hasKey_eq_isSome, hs]; rfl)
    by_cases hv : ∃ t, v = .str t
    case neg =>
      have : Serder.sn E s = .err .conversion := by
        unfold Serder.sn Serder.sner
        rw [ho, Sadder.index_ok.mpr ⟨o, rfl, hs⟩, Res.ok_bind]
        cases v <;> simp_all [Value.toStr]
      rw [this]
      refine ⟨?_, by simp [hin]⟩
      intro n
      simp only [Option.some.injEq, reduceCtorEq, false_iff]
      rintro ⟨t, rfl, _⟩
      exact hv ⟨t, rfl⟩
    obtain ⟨t, rfl⟩ := hv
    rw [key t hs]
    obtain ⟨h1, h2, h3⟩ := C28_number_hex E t
    by_cases he : t = []
    · rw [h1 he, num 0 (by decide)]
      subst he
      refine ⟨?_, by simp [hin]⟩
      intro n
      constructor
      · intro h; injection h with h; exact ⟨[], rfl, .inl ⟨rfl, h.symm⟩⟩
      · rintro ⟨t, e, h⟩
        injection e with e
        injection e with e
        subst e
        rcases h with ⟨_, rfl⟩ | ⟨⟨sign, digits, ds, e, _, hd, _⟩, _⟩
        · rfl
        · simp at e; exact absurd e.2 hd
    · by_cases hx : ∃ n, HexNumeral t n ∧ n < 2 ^ 128
      · obtain ⟨n, hn, hlt⟩ := hx
        rw [h2 n hn hlt, num n hlt]
        refine ⟨?_, by simp [hin]⟩
        intro n'
        constructor
        · intro h; injection h with h; subst h; exact ⟨t, rfl, .inr ⟨hn, hlt⟩⟩
        · rintro ⟨t', e, h⟩
          injection e with e
          injection e with e
          subst e
          rcases h with ⟨h, _⟩ | ⟨hn', hlt'⟩
          · exact absurd h he
          · have a := h2 n hn hlt
            rw [h2 n' hn' hlt'] at a
            have b := num n' hlt'
            rw [a, num n hlt] at b
            exact b
      · rw [h3 he hx]
        refine ⟨?_, by simp [hin]⟩
        intro n
        simp only [Res.err_bind, reduceCtorEq, false_iff]
        rintro ⟨t', e, h⟩
        injection e with e
        injection e with e
        subst e
        rcases h with ⟨h, _⟩ | h
        · exact he h
        · exact hx ⟨n, h⟩

/-- C60: prefix and event type. A missing field panics, a field that is not a text is an error; an establishment event is one of
the four establishment types. -/
theorem C60_pre_est {s : Sadder} {o : List (Str × Value)} (ho : s.ked = .obj o) :
    (∀ p, Serder.pre s = .ok p ↔ o.lookup (lit "i") = some (.str p)) ∧ (Serder.pre s = .panic ↔ lit "i" ∉ o.map Prod.fst) ∧
    (∀ b, Serder.est s = .ok b ↔ ∃ t, o.lookup (lit "t") = some (.str t) ∧ (b = true ↔ t ∈ establishmentIlks)) ∧
    (Serder.est s = .panic ↔ lit "t" ∉ o.map Prod.fst) := by
  unfold Serder.pre Serder.est
  rw [ho]
  refine ⟨?_, ?_, ?_, ?_⟩
  · intro p
    constructor
    · intro h
      obtain ⟨v, hv, h⟩ := Res.bind_eq_ok.mp h
      obtain ⟨o', e, hv⟩ := Sadder.index_ok.mp hv
      injection e with e
      subst e
      rw [hv, Sadder.toStr_ok.mp h]
    · intro h
      rw [Sadder.index_ok.mpr ⟨o, rfl, h⟩]
      rfl
  · constructor
    · intro h
      rcases Res.bind_eq_panic.mp h with h | ⟨v, _, h⟩
      · exact Saider.index_panic.mp h
      · exact absurd h (Saider.toStr_ne_panic v)
    · intro h
      rw [Saider.index_panic.mpr h]
      rfl
  · intro b
    constructor
    · intro h
      obtain ⟨v, hv, h⟩ := Res.bind_eq_ok.mp h
      obtain ⟨o', e, hv⟩ := Sadder.index_ok.mp hv
      injection e with e
      subst e
      obtain ⟨t, ht, h⟩ := Res.bind_eq_ok.mp h
      injection h with h
      subst h
      refine ⟨t, by rw [hv, Sadder.toStr_ok.mp ht], ?_⟩
      rw [List.contains_iff_mem]
      rfl
    · rintro ⟨t, h, hb⟩
      rw [Sadder.index_ok.mpr ⟨o, rfl, h⟩]
      have : [lit "icp", lit "rot", lit "dip", lit "drt"].contains t = b := by
        rw [Bool.eq_iff_iff, List.contains_iff_mem, hb]
        rfl
      rw [← this]
      rfl
  · constructor
    · intro h
      rcases Res.bind_eq_panic.mp h with h | ⟨v, _, h⟩
      · exact Saider.index_panic.mp h
      · rcases Res.bind_eq_panic.mp h with h | ⟨t, _, h⟩
        · exact absurd h (Saider.toStr_ne_panic v)
        · cases h
    · intro h
      rw [Saider.index_panic.mpr h]
      rfl

/-- C60: the thresholds are those that `Tholder` reads from the `kt` and `nt` fields; without the field there is none. -/
theorem C60_thresholds {E : Env} {F : Str → Option Str} {s : Sadder} {o : List (Str × Value)} (ho : s.ked = .obj o) :
    (∀ v t, o.lookup (lit "kt") = some v → (Serder.tholder E F s = .ok (some t) ↔ Tholder.new E F none none (some v) = .ok t)) ∧
    (∀ v t, o.lookup (lit "nt") = some v → (Serder.ntholder E F s = .ok (some t) ↔ Tholder.new E F none none (some v) = .ok t)) ∧
    (Serder.tholder E F s = .ok none ↔ o.lookup (lit "kt") = none) ∧ (Serder.ntholder E F s = .ok none ↔ o.lookup (lit "nt") = none) := by
  have key : ∀ label, (∀ v t, o.lookup label = some v → (Serder.tholderAt label E F s = .ok (some t) ↔ Tholder.new E F none none (some v) = .ok t)) ∧
      (Serder.tholderAt label E F s = .ok none ↔ o.lookup label = none) := by
    intro label
    unfold Serder.tholderAt
    rw [ho]
    simp only [Value.toMap, Res.ok_bind]
    refine ⟨?_, ?_⟩
    · intro v t h
      simp only [hasKey_some h, if_true, Sadder.index_ok.mpr ⟨o, rfl, h⟩, Res.ok_bind]
      cases Tholder.new E F none none (some v) <;> simp
    · cases h : o.lookup label with
      | none => simp [hasKey_none h]
      | some v =>
        simp only [hasKey_some h, if_true, Sadder.index_ok.mpr ⟨o, rfl, h⟩, Res.ok_bind]
        cases Tholder.new E F none none (some v) <;> simp
  exact ⟨(key _).1, (key _).1, (key _).2, (key _).2⟩

/-- Every code of the table has a character that is not a lower-case hexadecimal digit. -/
theorem code_not_hex {code : Str} {z : Sizage} (h : Matter.sizage code = .ok z) : ∃ c ∈ code, c ∉ lowerHex := by
  have key : ∀ e ∈ Matter.sizes, ∃ c ∈ e.1, c ∉ lowerHex := by decide +kernel
  unfold Matter.sizage at h
  split at h
  · rename_i e he
    exact key (code, e) (Matter.lookup_mem he)
  · cases h

/-- C60: `fner` and `_fn` read the text of `f` with the constructor of numbers from qb64; without `f` there is none, and `_fn` is an error. -/
theorem C60_fn {E : Env} {s : Sadder} {o : List (Str × Value)} (ho : s.ked = .obj o) :
    (∀ m, Serder.fner E s = .ok (some m) ↔ ∃ t, o.lookup (lit "f") = some (.str t) ∧ Number.new E none none none none none (some t) none = .ok m) ∧
    (Serder.fner E s = .ok none ↔ lit "f" ∉ o.map Prod.fst) ∧
    (∀ n, Serder.fn E s = .ok n ↔ ∃ m, Serder.fner E s = .ok (some m) ∧ Number.num m = .ok n) ∧
    (lit "f" ∉ o.map Prod.fst → ∃ e, Serder.fn E s = .err e) := by
  have hfner : Serder.fner E s = match o.lookup (lit "f") with
      | some v => (do let t ← v.toStr; let m ← Number.new E none none none none none (some t) none; .ok (some m))
      | none => .ok none := by
    unfold Serder.fner
    rw [ho]
    cases hl : o.lookup (lit "f") with
    | none => simp [Value.toMap, Value.hasKey, hl]
    | some v => simp [Value.toMap, Value.hasKey, Value.index, hl]
  have hmem : lit "f" ∉ o.map Prod.fst ↔ o.lookup (lit "f") = none := by
    rw [List.lookup_eq_none_iff]
    simp only [List.mem_map, not_exists, not_and]
    constructor
    · intro h p hp; simp only [bne_iff_ne, ne_eq]; exact fun e => h p hp e.symm
    · intro h p hp e; have := h p hp; simp [e] at this
  have h2 : Serder.fner E s = .ok none ↔ lit "f" ∉ o.map Prod.fst := by
    rw [hfner, hmem]
    cases o.lookup (lit "f") with
    | none => simp
    | some v => simp [Res.bind_eq_ok]
  refine ⟨?_, h2, ?_, ?_⟩
  · intro m
    rw [hfner]
    cases o.lookup (lit "f") with
    | none => simp
    | some v =>
      cases v <;> simp [Value.toStr, Res.bind_eq_ok]
  · intro n
    unfold Serder.fn
    rw [Res.bind_eq_ok]
    constructor
    · rintro ⟨m, hm, h⟩
      cases m with
      | none => cases h
      | some m => exact ⟨m, hm, h⟩
    · rintro ⟨m, hm, h⟩; exact ⟨some m, hm, h⟩
  · intro h
    unfold Serder.fn
    rw [h2.mpr h]
    exact ⟨_, rfl⟩

/-- C60, the defect: `_fn` reads the `f` field as a primitive text, not as the hexadecimal number the sequence number is written
as: it never returns a number for a lower-case hexadecimal `f`. -/
theorem C60_fn_defect {E : Env} {s : Sadder} {o : List (Str × Value)} (ho : s.ked = .obj o) {t : Str} (ht : o.lookup (lit "f") = some (.str t))
    (hx : ∀ c ∈ t, c ∈ lowerHex) (n : Nat) : Serder.fn E s ≠ .ok n := by
  intro h
  unfold Serder.fn Serder.fner at h
  rw [ho] at h
  simp only [Value.toMap, Res.ok_bind, hasKey_some ht, if_true, Sadder.index_ok.mpr ⟨o, rfl, ht⟩, Sadder.toStr_ok.mpr rfl] at h
  obtain ⟨m, hm, h⟩ := Res.bind_eq_ok.mp h
  obtain ⟨x, hx', _⟩ := Res.bind_eq_ok.mp hm
  have hx' : Number.ofText E t = .ok x := hx'
  rw [Number.parse_text] at hx'
  obtain ⟨z, _, hz, hcode, _⟩ := Matter.exfil_ok hx'
  obtain ⟨c, hc, hn⟩ := code_not_hex hz
  rw [hcode] at hc
  exact hn (hx c (List.mem_of_mem_take hc))

/-! ## C61: credentials -/

/-- C61: issuer, schema, subject, status and edges of a credential are its `i`, `s`, `a`, `ri` and `e` fields. Missing `i`, `s` or
`a` panics, a missing `ri` is reported as absent, missing edges as an empty map. -/
theorem C61_fields {s : Sadder} {o : List (Str × Value)} (ho : s.ked = .obj o) :
    (∀ t, Creder.issuer s = .ok t ↔ o.lookup (lit "i") = some (.str t)) ∧ (Creder.issuer s = .panic ↔ lit "i" ∉ o.map Prod.fst) ∧
    (∀ t, Creder.schema s = .ok t ↔ o.lookup (lit "s") = some (.str t)) ∧ (Creder.schema s = .panic ↔ lit "s" ∉ o.map Prod.fst) ∧
    (∀ v, Creder.subject s = .ok v ↔ o.lookup (lit "a") = some v) ∧ (Creder.subject s = .panic ↔ lit "a" ∉ o.map Prod.fst) ∧
    (∀ t, Creder.status s = .ok (some t) ↔ o.lookup (lit "ri") = some (.str t)) ∧ (Creder.status s = .ok none ↔ lit "ri" ∉ o.map Prod.fst) ∧
    (Creder.chains s = .ok ((o.lookup (lit "e")).getD (.obj []))) ∧ Creder.crd s = .obj o := by
  have text : ∀ k t, ((do let v ← (Value.obj o).index k; v.toStr) = .ok t ↔ o.lookup k = some (.str t)) := by
    intro k t
    constructor
    · intro h
      obtain ⟨v, hv, h⟩ := Res.bind_eq_ok.mp h
      obtain ⟨o', e, hv⟩ := Sadder.index_ok.mp hv
      injection e with e
      subst e
      rw [hv, Sadder.toStr_ok.mp h]
    · intro h
      rw [Sadder.index_ok.mpr ⟨o, rfl, h⟩]
      rfl
  have pan : ∀ k, ((do let v ← (Value.obj o).index k; v.toStr) = .panic ↔ k ∉ o.map Prod.fst) := by
    intro k
    constructor
    · intro h
      rcases Res.bind_eq_panic.mp h with h | ⟨v, _, h⟩
      · exact Saider.index_panic.mp h
      · exact absurd h (Saider.toStr_ne_panic v)
    · intro h
      rw [Saider.index_panic.mpr h]
      rfl
  unfold Creder.issuer Creder.schema Creder.subject Creder.status Creder.chains Creder.crd
  rw [ho]
  refine ⟨text _, pan _, text _, pan _, ?_, Saider.index_panic, ?_, ?_, ?_, rfl⟩
  · intro v
    rw [Sadder.index_ok]
    constructor
    · rintro ⟨o', e, h⟩
      injection e with e
      subst e
      exact h
    · intro h; exact ⟨o, rfl, h⟩
  · intro t
    simp only [Value.toMap, Res.ok_bind]
    cases h : o.lookup (lit "ri") with
    | none => simp [hasKey_none h]
    | some v =>
      simp only [hasKey_some h, if_true, Sadder.index_ok.mpr ⟨o, rfl, h⟩, Res.ok_bind]
      cases v <;> simp [Value.toStr]
  · simp only [Value.toMap, Res.ok_bind]
    rw [← lookup_none_iff]
    cases h : o.lookup (lit "ri") with
    | none => simp [hasKey_none h]
    | some v =>
      simp only [hasKey_some h, if_true, Sadder.index_ok.mpr ⟨o, rfl, h⟩, Res.ok_bind]
      cases v <;> simp [Value.toStr]
  · simp only [Value.toMap, Res.ok_bind]
    cases h : o.lookup (lit "e") with
    | none => simp [hasKey_none h]
    | some v =>
      simp only [hasKey_some h, if_true, Sadder.index_ok.mpr ⟨o, rfl, h⟩]
      rfl

/-! ## C62: updating a message object -/

/-- The update methods of a message object. -/
inductive Update
  | raw (bytes : List UInt8)
  | ked (ked : Value) (kind : Option Str)
  | setKind (k : Str)

/-- The object after an update, and its outcome. -/
def Update.apply (E : Env) (F : Str → Option Str) (H : Hash) (s : Sadder) : Update → Sadder × Res Unit
  | .raw b => Sadder.populateFromRaw E F H s b
  | .ked k kind => Sadder.populateFromKed E H s k kind
  | .setKind kd => Sadder.populateFromKindAndSelf E H s kd

/-- The object after a history of updates, whatever their outcomes. -/
def runUpdates (E : Env) (F : Str → Option Str) (H : Hash) (s : Sadder) (us : List Update) : Sadder :=
  us.foldl (fun s u => (u.apply E F H s).1) s

theorem setSaider_code {E : Env} {H : Hash} {s : Sadder} {k : Value} : (Sadder.setSaider E H s k).1.code = s.code := by
  unfold Sadder.setSaider
  split <;> rfl

theorem apply_code {E : Env} {F : Str → Option Str} {H : Hash} {s : Sadder} {u : Update} : (u.apply E F H s).1.code = s.code := by
  have ked : ∀ k kd, (Sadder.populateFromKed E H s k kd).1.code = s.code := by
    intro k kd
    unfold Sadder.populateFromKed
    split
    · rfl
    · rfl
    · rw [setSaider_code]
  cases u with
  | raw b =>
    show (Sadder.populateFromRaw E F H s b).1.code = s.code
    unfold Sadder.populateFromRaw
    split
    · rfl
    · rfl
    · split
      · rfl
      · rfl
      · rw [setSaider_code]
  | ked k kd => exact ked k kd
  | setKind kd => exact ked _ _

/-- C62: the digest code of a message object is fixed by its construction, whatever updates follow. -/
theorem C62_code (E : Env) (F : Str → Option Str) (H : Hash) (s : Sadder) (us : List Update) : (runUpdates E F H s us).code = s.code := by
  unfold runUpdates
  induction us generalizing s with
  | nil => rfl
  | cons u us ih => rw [List.foldl_cons, ih, apply_code]

/-- C62: after any history of updates, successful or not, an update from bytes has the outcome that constructing a new object from
these bytes has, and when it succeeds the object is that new object: nothing of the history remains. -/
theorem C62_raw_fresh (E : Env) (F : Str → Option Str) (H : Hash) (s : Sadder) (us : List Update) (b : List UInt8) (dflt : Sadder) :
    (match (Update.raw b).apply E F H (runUpdates E F H s us) with
      | (s', .ok _) => Res.ok s'
      | (_, .err e) => .err e
      | (_, .panic) => .panic) = Sadder.new E F H dflt (some s.code) (some b) none none none := by
  have hcode := C62_code E F H s us
  generalize runUpdates E F H s us = x at *
  show (match Sadder.populateFromRaw E F H x b with | (s', .ok _) => Res.ok s' | (_, .err e) => .err e | (_, .panic) => .panic) = _
  unfold Sadder.new Sadder.populateFromRaw Sadder.setSaider
  dsimp only [Option.getD_some]
  cases Sadder.inhale F b with
  | panic => rfl
  | err e => rfl
  | ok r =>
    dsimp only
    cases slice b 0 r.2.size with
    | panic => rfl
    | err e => rfl
    | ok raw =>
      dsimp only
      cases Sadder.saiderOf E H r.1 with
      | panic => rfl
      | err e => rfl
      | ok m =>
        dsimp only
        rw [hcode]
        by_cases hm : s.code = m.code <;> simp [hm]

/-- C62: the same for an update from a map. -/
theorem C62_ked_fresh (E : Env) (F : Str → Option Str) (H : Hash) (s : Sadder) (us : List Update) (k : Value) (kind : Option Str) (dflt : Sadder) :
    (match (Update.ked k kind).apply E F H (runUpdates E F H s us) with
      | (s', .ok _) => Res.ok s'
      | (_, .err e) => .err e
      | (_, .panic) => .panic) = Sadder.new E F H dflt (some s.code) none kind (some k) none := by
  have hcode := C62_code E F H s us
  generalize runUpdates E F H s us = x at *
  show (match Sadder.populateFromKed E H x k kind with | (s', .ok _) => Res.ok s' | (_, .err e) => .err e | (_, .panic) => .panic) = _
  unfold Sadder.new Sadder.populateFromKed Sadder.setSaider
  dsimp only [Option.getD_some]
  cases sizeify k kind with
  | panic => rfl
  | err e => rfl
  | ok r =>
    dsimp only
    cases Sadder.saiderOf E H r.ked with
    | panic => rfl
    | err e => rfl
    | ok m =>
      dsimp only
      rw [hcode]
      by_cases hm : s.code = m.code <;> simp [hm]

/-- C62: setting the kind of an object built from a map with the version field first to JSON changes nothing. -/
theorem C62_kind_idempotent {E : Env} {F : Str → Option Str} {H : Hash} {dflt : Sadder} {code kind : Option Str} {rest : List (Str × Value)} {x : Value} {s : Sadder}
    (h : Sadder.new E F H dflt code none kind (some (.obj ((lit "v", x) :: rest))) none = .ok s) :
    (Update.setKind (lit "JSON")).apply E F H s = (s, .ok ()) := by
  obtain ⟨r, m, hr, hm, hc, rfl⟩ := Sadder.new_ked_ok.mp h
  obtain ⟨vs, i, sz, rfl, ht, hi, hk, hlt, rfl⟩ := sizeify_first.mp hr
  have htn := mkVs_text hi hlt
  have hlen := toJson_first_length (rest := rest) htn ht
  have hr2 := (sizeify_first (kind := some (lit "JSON")) (rest := rest)).mpr ⟨_, i, _, rfl, htn, hi, rfl, by rw [hlen]; exact hlt, rfl⟩
  rw [hlen] at hr2
  show Sadder.populateFromKed E H _ _ (some (lit "JSON")) = _
  unfold Sadder.populateFromKed Sadder.setSaider
  dsimp only
  dsimp only at hm
  rw [hr2]
  dsimp only
  rw [hm]
  dsimp only
  rw [if_neg (by simp [hc])]

/-- C62, the defect: a failed update is not undone. Whatever the object was, an update from a map whose `d` text has another digest
code fails and leaves the new map in the object; with a `d` text that is no digest at all the object also keeps the old SAID. -/
theorem C62_failed_update_remains (E : Env) (F : Str → Option Str) (H : Hash) (s : Sadder) {k : Value} {kind : Option Str} {r : Sized} (hr : sizeify k kind = .ok r)
    {e : Err} (he : Sadder.saiderOf E H r.ked = .err e) :
    (Update.ked k kind).apply E F H s = ({ s with raw := r.raw, ked := r.ked, ident := r.ident, kind := r.kind, size := r.raw.length % 2 ^ 32, version := r.version }, .err e) := by
  show Sadder.populateFromKed E H s k kind = _
  unfold Sadder.populateFromKed Sadder.setSaider
  rw [hr]
  dsimp only
  rw [he]

/-- Such an update: the map of the object is replaced, the SAID it reports stays. -/
example : ∃ (k : Value) (s' : Sadder) (e : Err), (Update.ked k none).apply Env.release (fun _ => none) zeroHash Serder.default = (s', .err e) ∧
    s'.saider = Serder.default.saider ∧ s'.raw ≠ Serder.default.raw := by
  have ht : VersionText (lit "KERI10JSON000000_") (lit "KERI") 1 0 (lit "JSON") 0 := sample_text (by decide +kernel)
  have hr := (sizeify_first (kind := none) (rest := [(lit "d", .str [])])).mpr ⟨_, _, _, rfl, ht, by decide +kernel, rfl, by decide +kernel, rfl⟩
  refine ⟨_, _, .emptyMaterial, C62_failed_update_remains _ _ _ _ hr ?_, rfl, ?_⟩
  · rfl
  · dsimp only
    rw [toJson_first (mkVs_text (by decide +kernel) (by decide +kernel))]
    simp [vHead, lit]
    decide

/-- An event on which every accessor succeeds. -/
def sampleEvent : Sadder :=
  { Serder.default with
    ked := .obj [(lit "v", .str (lit "KERI10JSON000000_")), (lit "t", .str (lit "dip")), (lit "i", .str (lit "x")), (lit "s", .str (lit "0a")),
      (lit "k", .arr [.str (ch 'D' :: List.replicate 43 (ch 'A')), .str (ch 'B' :: List.replicate 43 (ch 'A'))]), (lit "n", .arr [.str zeroSaid]), (lit "f", .str (lit "0"))] }

example : Serder.verfers Env.release sampleEvent = .ok [⟨lit "D", 0, List.replicate 32 0⟩, ⟨lit "B", 0, List.replicate 32 0⟩] ∧
    Serder.digers Env.release zeroHash sampleEvent = .ok [⟨lit "E", 0, List.replicate 32 0⟩] ∧ Serder.sn Env.release sampleEvent = .ok 10 ∧
    Serder.est sampleEvent = .ok true ∧ Serder.pre sampleEvent = .ok (lit "x") ∧ Serder.werfers Env.release sampleEvent = .ok [] := by
  refine ⟨by decide +kernel, by decide +kernel, by decide +kernel, by decide +kernel, by decide +kernel, by decide +kernel⟩

end Cesride
