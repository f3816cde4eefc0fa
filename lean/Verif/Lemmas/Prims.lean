import Verif.Model.Prims
import Verif.Spec.Prims
import Verif.Lemmas.Matter6

/-! # Lemmas for numbers, sequence numbers, Base64 texts and date-times -/

namespace Cesride
open Matter

/-! ## Building and transporting fixed-size primitives -/

theorem fixed_wf {code : Str} {n : Nat} (h : (code, n) ∈ Spec.fixedCodes) {raw : List UInt8} (hl : raw.length = n) :
    ∃ z, Wf { code := code, size := 0, raw := raw } z := by
  obtain ⟨z, hz, hf, hn⟩ := fixed_sizage h
  exact ⟨z, hz, fun h => absurd h hf, fun _ => ⟨rfl, by simpa [hn] using hl⟩⟩

theorem fixed_new {code : Str} {n : Nat} (h : (code, n) ∈ Spec.fixedCodes) {raw : List UInt8} (hl : raw.length = n) :
    newWithCodeAndRaw code raw = .ok { code := code, size := 0, raw := raw } := by
  obtain ⟨z, hz, hf, hn⟩ := fixed_sizage h
  rw [new_fixed hz hf raw, if_neg (by omega), List.take_of_length_le (by omega)]

/-- The three parsers on the canonical encodings. -/
theorem Matter.Wf.transport {m : Matter} {z : Sizage} (w : Wf m z) (E : Env) :
    ∃ t b, m.qb64 E = .ok t ∧ m.qb2 E = .ok b ∧ newWithQb64 t = .ok m ∧ newWithQb64b t = .ok m ∧ newWithQb2 E b = .ok m := by
  have h1 : Matter.exfil (text m z) = .ok m := by
    have := w.exfil (rest := []) rfl
    simpa using this
  refine ⟨text m z, Matter.binary m z, w.infil E, w.binfil E, h1, ?_, ?_⟩
  · show (do let q ← fromUtf8 (text m z); Matter.exfil q) = _
    rw [fromUtf8, if_pos (utf8Valid_ascii w.text_ascii)]
    exact h1
  · have := w.bexfil E []
    rw [List.append_nil] at this
    exact this

/-! ## Hexadecimal -/

theorem hexChar_lower : ∀ d : Nat, d < 16 → hexChar d ∈ Spec.lowerHex ∧ Spec.lowerHex.idxOf (hexChar d) = d ∧
    (hexChar d, d) ∈ Spec.hexValues ∧ hexDigit (hexChar d) = some d ∧ hexChar d ≠ ch '+' ∧ (hexChar d = ch '0' → d = 0) := by
  intro d hd
  have : ∀ i : Fin 16, hexChar i.val ∈ Spec.lowerHex ∧ Spec.lowerHex.idxOf (hexChar i.val) = i.val ∧
    (hexChar i.val, i.val) ∈ Spec.hexValues ∧ hexDigit (hexChar i.val) = some i.val ∧ hexChar i.val ≠ ch '+' ∧
      (hexChar i.val = ch '0' → i.val = 0) := by decide +kernel
  exact this ⟨d, hd⟩

theorem hexStr_lt {n : Nat} (h : n < 16) : hexStr n = [hexChar n] := by rw [hexStr]; simp [h]
theorem hexStr_ge {n : Nat} (h : 16 ≤ n) : hexStr n = hexStr (n / 16) ++ [hexChar (n % 16)] := by
  rw [hexStr]; simp [show ¬ n < 16 by omega]

theorem hexStr_ne_nil (n : Nat) : hexStr n ≠ [] := by
  rw [hexStr]; split <;> simp

theorem hexStr_canonical (n : Nat) : Spec.CanonicalHex (hexStr n) n := by
  refine ⟨hexStr_ne_nil n, ?_, ?_, ?_⟩
  · induction n using Nat.strongRecOn with
    | _ n ih =>
      by_cases h : n < 16
      · rw [hexStr_lt h]; simp [(hexChar_lower n h).1]
      · rw [hexStr_ge (by omega)]
        intro c hc
        rcases List.mem_append.mp hc with hc | hc
        · exact ih _ (by omega) c hc
        · simp at hc; subst hc; exact (hexChar_lower (n % 16) (by omega)).1
  · induction n using Nat.strongRecOn with
    | _ n ih =>
      by_cases h : n < 16
      · rw [hexStr_lt h]; simp [(hexChar_lower n h).2.1]
      · rw [hexStr_ge (by omega), List.foldl_append, ih _ (by omega)]
        simp [(hexChar_lower (n % 16) (by omega)).2.1]
        omega
  · have key : ∀ n, 0 < n → (hexStr n).head? ≠ some (ch '0') := by
      intro n
      induction n using Nat.strongRecOn with
      | _ n ih =>
        intro hp
        by_cases h : n < 16
        · rw [hexStr_lt h]
          simp only [List.head?_cons, ne_eq, Option.some.injEq]
          intro hc; have := (hexChar_lower n h).2.2.2.2.2 hc; omega
        · rw [hexStr_ge (by omega)]
          have := ih (n / 16) (by omega) (by omega)
          cases hs : hexStr (n / 16) with
          | nil => exact absurd hs (hexStr_ne_nil _)
          | cons a t => rw [hs] at this; simpa using this
    intro hh
    by_cases h : n = 0
    · subst h; rw [hexStr_lt (by omega)]; rfl
    · exact absurd hh (key n (by omega))

/-- A canonical numeral determines its text. -/
theorem canonicalHex_unique {a b : Str} {n : Nat} (ha : Spec.CanonicalHex a n) (hb : Spec.CanonicalHex b n) : a = b := by
  have key : ∀ {s : Str} {n : Nat}, Spec.CanonicalHex s n → s = hexStr n := by
    intro s
    generalize hk : s.length = k
    induction k generalizing s with
    | zero => intro n h; exact absurd (List.length_eq_zero_iff.mp hk) h.1
    | succ k ih =>
      intro n ⟨h1, h2, h3, h4⟩
      rcases List.eq_nil_or_concat s with hs | ⟨t, c, hs⟩
      · exact absurd hs h1
      · have hs : s = t ++ [c] := by simpa using hs
        subst hs
        have hc := h2 c (by simp)
        obtain ⟨i, hi, hic⟩ : ∃ i, i < 16 ∧ hexChar i = c := by
          have hb : ∀ c ∈ Spec.lowerHex, ∃ i ∈ List.range 16, hexChar i = c := by decide +kernel
          obtain ⟨i, hi, h⟩ := hb c hc
          exact ⟨i, by simpa using hi, h⟩
        have hl := hexChar_lower i hi
        subst hic
        rw [List.foldl_append] at h3
        simp only [List.foldl_cons, List.foldl_nil, hl.2.1] at h3
        cases ht : t with
        | nil =>
          subst ht
          simp at h3
          subst h3
          rw [hexStr_lt hi]; rfl
        | cons a r =>
          have hk' : t.length = k := by simpa using hk
          have hcan : Spec.CanonicalHex t (t.foldl (fun a c => a * 16 + Spec.lowerHex.idxOf c) 0) := by
            refine ⟨by simp [ht], fun c hc => h2 c (by simp [hc]), rfl, ?_⟩
            intro hh
            rw [ht] at hh ⊢
            simp only [List.head?_cons, Option.some.injEq] at hh
            have := h4 (by rw [ht, hh]; rfl)
            have := congrArg List.length this
            rw [ht] at this
            simp [show (lit "0").length = 1 from rfl] at this
          have hti := ih hk' hcan
          have hpos : 0 < t.foldl (fun a c => a * 16 + Spec.lowerHex.idxOf c) 0 := by
            rcases Nat.eq_zero_or_pos (t.foldl (fun a c => a * 16 + Spec.lowerHex.idxOf c) 0) with h0 | h0
            · rw [h0, hexStr_lt (by omega)] at hti
              have := h4 (by rw [hti]; rfl)
              rw [hti] at this
              have := congrArg List.length this
              simp [show (lit "0").length = 1 from rfl] at this
            · exact h0
          rw [← ht, hexStr_ge (by omega)]
          have h5 : n / 16 = t.foldl (fun a c => a * 16 + Spec.lowerHex.idxOf c) 0 := by omega
          have h6 : n % 16 = i := by omega
          rw [h5, h6, ← hti]
  rw [key ha, key hb]

theorem hexDigit_iff (c : UInt8) (d : Nat) : hexDigit c = some d ↔ (c, d) ∈ Spec.hexValues := by
  have h1 : ∀ c : UInt8, ∀ d ∈ (hexDigit c).toList, (c, d) ∈ Spec.hexValues :=
    byte_forall (P := fun c => ∀ d ∈ (hexDigit c).toList, (c, d) ∈ Spec.hexValues) (by decide +kernel)
  have h2 : ∀ p ∈ Spec.hexValues, hexDigit p.1 = some p.2 := by decide +kernel
  constructor
  · intro h
    exact h1 c d (by simp [h])
  · intro h; exact h2 _ h

theorem foldl_hex_mono (ds : List Nat) (a : Nat) : a ≤ ds.foldl (fun a d => a * 16 + d) a := by
  induction ds generalizing a with
  | nil => simp
  | cons d ds ih => simp only [List.foldl_cons]; have := ih (a * 16 + d); omega

/-- The digit loop computes the value when it fits. -/
theorem hexLoop_spec {max : Nat} : ∀ {s : Str} {ds : List Nat} (acc : Nat), Spec.HexDigits s ds → acc ≤ max →
    hexLoop max acc s = if ds.foldl (fun a d => a * 16 + d) acc ≤ max then some (ds.foldl (fun a d => a * 16 + d) acc) else none
  | [], [], acc, _, ha => by simp [hexLoop, ha]
  | c :: s, d :: ds, acc, h, ha => by
    obtain ⟨h1, h2⟩ := h
    rw [hexLoop, (hexDigit_iff c d).mpr h1]
    have e : (d :: ds).foldl (fun a d => a * 16 + d) acc = ds.foldl (fun a d => a * 16 + d) (acc * 16 + d) := rfl
    rw [e]
    by_cases hm : max < acc * 16 + d
    · have := foldl_hex_mono ds (acc * 16 + d)
      rw [if_neg (by omega)]
      simp [hm]
    · simp only [if_neg hm]
      exact hexLoop_spec _ h2 (by omega)
  | [], _ :: _, _, h, _ => by simp [Spec.HexDigits] at h
  | _ :: _, [], _, h, _ => by simp [Spec.HexDigits] at h

theorem hexLoop_some {max : Nat} : ∀ {s : Str} {acc n : Nat}, hexLoop max acc s = some n → acc ≤ max →
    n ≤ max ∧ ∃ ds, Spec.HexDigits s ds ∧ ds.foldl (fun a d => a * 16 + d) acc = n
  | [], acc, n, h, ha => by
    simp only [hexLoop, Option.some.injEq] at h
    subst h
    exact ⟨ha, [], trivial, rfl⟩
  | c :: s, acc, n, h, ha => by
    simp only [hexLoop] at h
    split at h
    · rename_i d hd
      split at h
      · cases h
      · obtain ⟨h1, ds, h2, h3⟩ := hexLoop_some h (by omega)
        exact ⟨h1, d :: ds, ⟨(hexDigit_iff c d).mp hd, h2⟩, h3⟩
    · cases h

theorem hexDigits_no_plus {s : Str} {ds : List Nat} (h : Spec.HexDigits s ds) : s.head? ≠ some (ch '+') := by
  cases s with
  | nil => simp
  | cons c s =>
    cases ds with
    | nil => simp [Spec.HexDigits] at h
    | cons d ds =>
      have := h.1
      simp only [List.head?_cons, ne_eq, Option.some.injEq]
      intro hc; subst hc
      have hn : ∀ p ∈ Spec.hexValues, p.1 ≠ ch '+' := by decide +kernel
      exact hn _ this rfl

theorem u128FromHex_eq (s : Str) : ∃ digits, (if s.head? = some (ch '+') then s.tail else s) = digits ∧
    u128FromHex s = if digits = [] then .err .parseInt else
      match hexLoop (2 ^ 128 - 1) 0 digits with
      | some n => .ok n
      | none => .err .parseInt := ⟨_, rfl, rfl⟩

/-- `u128::from_str_radix(_, 16)` accepts exactly the hexadecimal numerals of 128-bit numbers. -/
theorem u128FromHex_ok {s : Str} {n : Nat} : u128FromHex s = .ok n ↔ Spec.HexNumeral s n ∧ n < 2 ^ 128 := by
  obtain ⟨digits, hdig, heq⟩ := u128FromHex_eq s
  rw [heq]
  constructor
  · intro h
    by_cases hd : digits = []
    · simp [hd] at h
    · rw [if_neg hd] at h
      cases hm : hexLoop (2 ^ 128 - 1) 0 digits with
      | none => rw [hm] at h; cases h
      | some k =>
        rw [hm] at h
        injection h with h
        subst h
        obtain ⟨h1, ds, h2, h3⟩ := hexLoop_some hm (Nat.zero_le _)
        refine ⟨?_, by omega⟩
        by_cases hp : s.head? = some (ch '+')
        · rw [if_pos hp] at hdig
          cases s with
          | nil => simp at hp
          | cons c t =>
            simp only [List.head?_cons, Option.some.injEq] at hp
            simp only [List.tail_cons] at hdig
            subst hdig
            exact ⟨lit "+", t, ds, by rw [hp]; rfl, .inr rfl, hd, h2, h3⟩
        · rw [if_neg hp] at hdig
          subst hdig
          exact ⟨[], s, ds, rfl, .inl rfl, hd, h2, h3⟩
  · rintro ⟨⟨sign, digits', ds, hs, hsign, hne, hds, hv⟩, hn⟩
    have hnp := hexDigits_no_plus hds
    have hd : digits = digits' := by
      rw [← hdig]
      rcases hsign with h | h <;> subst h
      · rw [hs]; simp only [List.nil_append]; rw [if_neg hnp]
      · rw [hs]; rfl
    subst hd
    rw [if_neg hne, hexLoop_spec 0 hds (Nat.zero_le _), hv, if_pos (by omega)]

theorem u128FromHex_err {s : Str} (h : ¬ ∃ n, Spec.HexNumeral s n ∧ n < 2 ^ 128) : u128FromHex s = .err .parseInt := by
  obtain ⟨digits, hdig, heq⟩ := u128FromHex_eq s
  have hno : ∀ n, u128FromHex s ≠ .ok n := fun n hn => h ⟨n, u128FromHex_ok.mp hn⟩
  rw [heq] at hno ⊢
  by_cases hd : digits = []
  · rw [if_pos hd]
  · rw [if_neg hd] at hno ⊢
    cases hm : hexLoop (2 ^ 128 - 1) 0 digits with
    | none => rfl
    | some k => rw [hm] at hno; exact absurd rfl (hno k)

theorem hexNumeral_of_canonical {s : Str} {n : Nat} (h : Spec.CanonicalHex s n) : Spec.HexNumeral s n := by
  obtain ⟨h1, h2, h3, h4⟩ := h
  refine ⟨[], s, s.map (fun c => Spec.lowerHex.idxOf c), rfl, .inl rfl, h1, ?_, ?_⟩
  · have hb : ∀ c ∈ Spec.lowerHex, (c, Spec.lowerHex.idxOf c) ∈ Spec.hexValues := by decide +kernel
    clear h3 h1 h4
    induction s with
    | nil => trivial
    | cons c s ih => exact ⟨hb c (h2 c (by simp)), ih (fun c hc => h2 c (by simp [hc]))⟩
  · rw [List.foldl_map]; exact h3

/-! ## Big-endian order -/

theorem beNat_cons (a : UInt8) (l : List UInt8) : beNat (a :: l) = a.toNat * 256 ^ l.length + beNat l := by
  have := beNat_append [a] l
  simpa [beNat] using this

/-- Comparing equally long byte strings lexicographically is comparing the numbers they write. -/
theorem lt_iff_beNat : ∀ {a b : List UInt8}, a.length = b.length → (a < b ↔ beNat a < beNat b)
  | [], [], _ => by simp [beNat]
  | x :: a, y :: b, h => by
    have hl : a.length = b.length := by simpa using h
    rw [List.cons_lt_cons_iff, beNat_cons, beNat_cons, lt_iff_beNat hl, ← hl]
    have ha := beNat_lt a
    have hb := beNat_lt b
    rw [← hl] at hb
    constructor
    · rintro (hxy | ⟨hxy, hab⟩)
      · have hxy : x.toNat < y.toNat := UInt8.lt_iff_toNat_lt.mp hxy
        have : (x.toNat + 1) * 256 ^ a.length ≤ y.toNat * 256 ^ a.length := Nat.mul_le_mul_right _ hxy
        rw [Nat.add_mul] at this
        omega
      · subst hxy; omega
    · intro hlt
      rcases Nat.lt_trichotomy x.toNat y.toNat with hc | hc | hc
      · exact .inl (UInt8.lt_iff_toNat_lt.mpr hc)
      · refine .inr ⟨UInt8.toNat_inj.mp hc, ?_⟩
        rw [hc] at hlt; omega
      · have : (y.toNat + 1) * 256 ^ a.length ≤ x.toNat * 256 ^ a.length := Nat.mul_le_mul_right _ hc
        rw [Nat.add_mul] at this
        omega
  | [], _ :: _, h => by simp at h
  | _ :: _, [], h => by simp at h

theorem append_lt_append (p : List UInt8) (a b : List UInt8) : p ++ a < p ++ b ↔ a < b := by
  induction p with
  | nil => simp
  | cons c p ih =>
    rw [List.cons_append, List.cons_append, List.cons_lt_cons_iff, ih]
    simp

/-! ## Padded text has short raw -/

theorem exfil_pad_short {s : Str} {m : Matter} {z : Sizage} (h : Matter.exfil s = .ok m) (hz : sizage m.code = .ok z)
    (hf : z.fs ≠ u32Max) (hp : ch '=' ∈ s.take (total m z)) : m.raw.length < (z.fs - (z.hs + z.ss)) * 3 / 4 - z.ls := by
  obtain ⟨z', paw, hz', hcode, _, _, hT, hdec, _, _, hlen, hraw⟩ := exfil_ok h
  have : z' = z := by rw [hz] at hz'; injection hz' with hz'; exact hz'.symm
  subst this
  have r := row_of_sizage hz
  obtain ⟨f1, f2, f3, f4, f5, f6⟩ := r.fix hf
  have hb := r.b64
  have htot : total m z' = z'.fs := by unfold total; rw [if_neg hf]
  rw [htot] at hp hT hdec
  -- the pad character is in the material
  have hmat : ch '=' ∈ (s.take z'.fs).drop (z'.hs + z'.ss) := by
    rw [← List.take_append_drop (z'.hs + z'.ss) (s.take z'.fs)] at hp
    rcases List.mem_append.mp hp with hp | hp
    · exfalso
      rw [List.take_take, f1, Nat.add_zero, Nat.min_eq_left (by omega), ← hcode] at hp
      exact isB64_ne_pad _ (hb _ hp) rfl
    · exact hp
  have henc := decode_canonical hdec
  have hel := congrArg List.length henc
  rw [b64Encode_length] at hel
  simp only [List.length_append, List.length_replicate, List.length_drop, List.length_take] at hel
  rw [Nat.min_eq_left hT] at hel
  have h3 : paw.length % 3 ≠ 0 := by
    intro h3
    rw [b64Encode_eq h3] at henc
    have hin : ch '=' ∈ encD (sextets paw) := by
      rw [henc]; exact List.mem_append_right _ hmat
    exact isB64_ne_pad _ (encD_isB64 (sextets_lt _) _ hin) rfl
  rw [hraw, List.length_drop]
  rw [f1] at hel ⊢
  simp only [Nat.add_zero] at hel ⊢
  omega

/-! ## Base64 texts as Base64 digits of bytes -/

theorem exists_sextets {d : List Nat} (hd : ∀ x ∈ d, x < 64) (h4 : d.length % 4 = 0) :
    ∃ v : List UInt8, v.length = d.length / 4 * 3 ∧ sextets v = d := by
  refine ⟨toBe (d.length / 4 * 3) (valB 64 d), toBe_length .., ?_⟩
  have hl : (toBe (d.length / 4 * 3) (valB 64 d)).length = d.length / 4 * 3 := toBe_length ..
  apply sextets_eq_of_val (by omega) hd (by omega)
  rw [beNat_toBe, Nat.mod_eq_of_lt]
  have := valB_lt hd
  have e : d.length = 4 * (d.length / 4) := by omega
  rw [e, pow_64_256] at this
  rw [Nat.mul_comm]
  rw [show valB 64 d = valB 64 d from rfl]
  exact this

theorem reB64_iff (s : Str) : Bexter.reB64 s = true ↔ Spec.IsB64Text s := by
  have hb : ∀ c : UInt8, ((ch 'A' ≤ c && c ≤ ch 'Z') || (ch 'a' ≤ c && c ≤ ch 'z') || (ch '0' ≤ c && c ≤ ch '9') || c == ch '-' || c == ch '_') = isB64 c :=
    byte_forall (P := fun c => ((ch 'A' ≤ c && c ≤ ch 'Z') || (ch 'a' ≤ c && c ≤ ch 'z') || (ch '0' ≤ c && c ≤ ch '9') || c == ch '-' || c == ch '_') = isB64 c)
      (by decide +kernel)
  rw [isB64Text_iff]
  simp only [Bexter.reB64, List.all_eq_true, hb]

end Cesride
