import Verif.Lemmas.Signer
import Verif.Props.Indexer
import Verif.Props.Matter

/-!
# Properties C52, C53, C65: signing

Statements use the public constructors and methods of the model together with `Verif/Spec/Sign.lean`. The cryptographic library is an arbitrary
`Crypto`, so they hold for every library with its laws; `toy` at the end shows that the laws can be met.
-/

namespace Cesride
open Matter

/-- The indexed code of a scheme. -/
def idxOf (c : Curve) (only big : Bool) : Spec.IdxCode :=
  let k : Nat := (if c = .ed25519 then 0 else if c = .k1 then 2 else 4) + if only then 1 else 0
  if big then ⟨ch '2' :: [UInt8.ofNat (65 + k)], only, 2, true, 64⟩ else ⟨[UInt8.ofNat (65 + k)], only, 1, false, 64⟩

theorem idxOf_rows (c : Curve) (only big : Bool) : idxOf c only big ∈ Spec.idxCodes ∧ (idxOf c only big).code ∈ (schemeOf c).indexed ∧
    Siger.validateCode (idxOf c only big).code = .ok () ∧ (idxOf c only big).raw = 64 := by
  cases c <;> cases only <;> cases big <;> decide +kernel

theorem indexed_cases (c : Curve) : ∀ k ∈ Spec.idxCodes, k.code ∈ (schemeOf c).indexed → ∃ only ∈ [true, false], ∃ big ∈ [true, false], k = idxOf c only big := by
  cases c <;> decide +kernel

theorem idxChars_small (c : Curve) (only : Bool) : Spec.idxChars (idxOf c only false) = 88 ∧ Spec.idxChars (idxOf c only true) = 92 := by
  cases c <;> cases only <;> decide +kernel

/-- `Siger::new` with a signature, a key, indices and one of the signing codes. -/
theorem Siger.new_built (E : Env) {k : Spec.IdxCode} (hk : k ∈ Spec.idxCodes) (hv : Siger.validateCode k.code = .ok ()) (v : Matter) (i : Nat) (o : Option Nat)
    {raw : List UInt8} (hr : raw.length = k.raw) : Siger.new E (some v) (some i) o (some k.code) (some raw) none none none =
      if 64 ^ k.digits ≤ i ∨ (∃ x, o = some x ∧ (k.current = true ∨ k.separate = true ∧ 64 ^ k.digits ≤ x)) then .err .invalidVarIndex
      else .ok { indexer := { code := k.code, raw := raw, index := i, ondex := Spec.otherIndex k i o }, verfer := v } := by
  show (do
    let x ← Indexer.ofRaw E k.code raw i o
    Siger.validateCode x.code
    Res.ok (Siger.mk x v)) = _
  rw [C20_limits E hk]
  split
  · rfl
  · rw [if_neg (by omega), List.take_of_length_le (by omega), Res.ok_bind]
    simp only [hv, Res.ok_bind]

theorem carries_idxOf {c : Curve} {only big only' : Bool} {i o : Nat} : Spec.Carries (idxOf c only big) only' i o ↔
    only = only' ∧ i < (if big then 4096 else 64) ∧ (only' = false → if big then o < 4096 else o = i) := by
  unfold Spec.Carries idxOf
  cases big <;> simp

/-- The choice of the code. -/
def bigChoice (only : Bool) (index o : Nat) : Bool := if only then decide (64 ≤ index) else !decide (o = index ∧ index < 64)

theorem Signer.Ok.indexed_eq {C : Crypto} {c : Curve} {t : Bool} {s : Signer} (h : Signer.Ok C c t s) (E : Env) (ser : List UInt8) (only : Bool)
    (index : Nat) (ondex : Option Nat) (r : Nat) : Signer.signIndexed E C s ser only index ondex r =
      Siger.new E (some s.verfer) (some index) (if only then none else some (ondex.getD index)) (some (idxOf c only (bigChoice only index (ondex.getD index))).code)
        (some (C.sign c s.matter.raw ser r)) none none none := by
  unfold Signer.signIndexed
  rw [h.sign, h.code]
  cases only
  · by_cases hi : ondex.getD index = index ∧ index < 64
    · have : bigChoice false index (ondex.getD index) = false := by simp [bigChoice, hi]
      rw [this]
      simp only [Bool.false_eq_true, if_false]
      rw [if_pos ⟨hi.1.symm, hi.2⟩]
      cases c <;> rfl
    · have : bigChoice false index (ondex.getD index) = true := by
        simp only [bigChoice, Bool.false_eq_true, if_false, hi, decide_false, Bool.not_false]
      rw [this]
      simp only [Bool.false_eq_true, if_false]
      rw [if_neg (fun e => hi ⟨e.1.symm, e.2⟩)]
      cases c <;> rfl
  · by_cases hi : index < 64
    · have : bigChoice true index (ondex.getD index) = false := by simp [bigChoice, hi]
      rw [this]
      simp only [if_true]
      rw [if_pos hi]
      cases c <;> rfl
    · have : bigChoice true index (ondex.getD index) = true := by simp [bigChoice]; omega
      rw [this]
      simp only [if_true]
      rw [if_neg hi]
      cases c <;> rfl

/-- The signer's scheme. -/
theorem Signer.Ok.scheme {C : Crypto} {c : Curve} {t : Bool} {s : Signer} (h : Signer.Ok C c t s) {S : Spec.Scheme} (hS : S ∈ Spec.schemes)
    (hc : s.matter.code = S.seed) : S = schemeOf c := by
  obtain ⟨d, rfl⟩ := mem_schemes hS
  rw [h.code] at hc
  rw [curve_ne hc]

/-! ## C52: the code of an indexed signature -/

/-- C52. A signer, however it was obtained, that is asked for an indexed signature for the current key list only, or with an index and another
index (by default the same), uses the shortest code of its scheme that can carry them, and the signature reports the index asked for, and the
other index asked for (0 when it is for the current list only). When no code of the scheme can carry them, it refuses. -/
theorem C52_signing_code (E : Env) (C : Crypto) {r₀ : Nat} {t : Option Bool} {code : Option Str} {raw qb64b : Option (List UInt8)} {qb64 : Option Str}
    {qb2 : Option (List UInt8)} {s : Signer} (h : Signer.new E C r₀ t code raw qb64b qb64 qb2 = .ok s) {S : Spec.Scheme} (hS : S ∈ Spec.schemes)
    (hseed : s.matter.code = S.seed) (ser : List UInt8) (only : Bool) (index : Nat) (ondex : Option Nat) (r : Nat) :
    ((∃ k ∈ Spec.idxCodes, k.code ∈ S.indexed ∧ Spec.Carries k only index (ondex.getD index)) →
      ∃ k x, k ∈ Spec.idxCodes ∧ k.code ∈ S.indexed ∧ Spec.Carries k only index (ondex.getD index) ∧
        (∀ k' ∈ Spec.idxCodes, k'.code ∈ S.indexed → Spec.Carries k' only index (ondex.getD index) → k' = k ∨ Spec.idxChars k < Spec.idxChars k') ∧
        Signer.signIndexed E C s ser only index ondex r = .ok x ∧ x.indexer.code = k.code ∧ x.indexer.index = index ∧
        x.indexer.ondex = (if only then 0 else ondex.getD index) ∧ x.verfer = s.verfer) ∧
    ((¬ ∃ k ∈ Spec.idxCodes, k.code ∈ S.indexed ∧ Spec.Carries k only index (ondex.getD index)) →
      Signer.signIndexed E C s ser only index ondex r = .err .invalidVarIndex) := by
  obtain ⟨c, ok, _⟩ := Signer.new_ok h
  have := ok.scheme hS hseed
  subst this
  rw [ok.indexed_eq]
  obtain ⟨h1, h2, h3, h4⟩ := idxOf_rows c only (bigChoice only index (ondex.getD index))
  rw [Siger.new_built E h1 h3 _ _ _ (by rw [C.sign_length c _ ser r ok.valid, h4])]
  generalize ho : ondex.getD index = o at *
  have hbad : (64 ^ (idxOf c only (bigChoice only index o)).digits ≤ index ∨ (∃ x, (if only then none else some o) = some x ∧
      ((idxOf c only (bigChoice only index o)).current = true ∨ (idxOf c only (bigChoice only index o)).separate = true ∧
        64 ^ (idxOf c only (bigChoice only index o)).digits ≤ x))) ↔
      ¬ Spec.Carries (idxOf c only (bigChoice only index o)) only index o := by
    unfold Spec.Carries bigChoice idxOf
    cases only
    · by_cases hi : o = index ∧ index < 64
      · simp [hi]
      · simp [hi]
        omega
    · by_cases hi : 64 ≤ index
      · simp [hi]
      · simp [hi]
  have hall : (∃ k ∈ Spec.idxCodes, k.code ∈ (schemeOf c).indexed ∧ Spec.Carries k only index o) → Spec.Carries (idxOf c only (bigChoice only index o)) only index o := by
    rintro ⟨k, hk, hkc, hcar⟩
    obtain ⟨only', _, big', _, rfl⟩ := indexed_cases c k hk hkc
    rw [carries_idxOf] at hcar ⊢
    obtain ⟨_, hi, ho⟩ := hcar
    refine ⟨rfl, ?_⟩
    unfold bigChoice
    cases only
    · simp only [forall_const, Bool.false_eq_true, if_false] at ho ⊢
      by_cases hj : o = index ∧ index < 64
      · simp only [hj, decide_true, Bool.not_true, Bool.false_eq_true, if_false, and_self]
      · simp only [hj, decide_false, Bool.not_false, if_true]
        cases big' <;> simp at hi ho <;> omega
    · by_cases hj : 64 ≤ index
      · cases big' <;> simp [hj] at hi ⊢ <;> omega
      · simp [hj]; omega
  have hmin : ∀ k' ∈ Spec.idxCodes, k'.code ∈ (schemeOf c).indexed →
      Spec.Carries k' only index o → k' = idxOf c only (bigChoice only index o) ∨ Spec.idxChars (idxOf c only (bigChoice only index o)) < Spec.idxChars k' := by
    intro k' hk hkc hcar
    obtain ⟨only', _, big', _, rfl⟩ := indexed_cases c k' hk hkc
    rw [carries_idxOf] at hcar
    obtain ⟨rfl, hi, ho⟩ := hcar
    have hch := idxChars_small c only'
    cases hb : bigChoice only' index o
    · cases big'
      · exact .inl rfl
      · right; omega
    · cases big'
      · exfalso
        unfold bigChoice at hb
        cases only' <;> simp at hi ho hb <;> omega
      · exact .inl rfl
  constructor
  · intro hex
    have hcar := hall hex
    rw [if_neg (by rw [hbad]; exact fun e => e hcar)]
    refine ⟨_, _, h1, h2, hcar, hmin, rfl, rfl, rfl, ?_, rfl⟩
    unfold Spec.otherIndex
    rw [hcar.1]
    cases only <;> simp
  · intro hno
    rw [if_pos (hbad.mpr fun hcar => hno ⟨_, h1, h2, hcar⟩)]

/-! ## C53: signatures verify -/

theorem Verfer.transport {C : Crypto} {c : Curve} {t : Bool} {s : Signer} (h : Signer.Ok C c t s) (E : Env) :
    ∃ x b, s.verfer.qb64 E = .ok x ∧ s.verfer.qb2 E = .ok b ∧ Verfer.new E none none none (some x) none = .ok s.verfer ∧
      Verfer.new E none none (some x) none none = .ok s.verfer ∧ Verfer.new E none none none none (some b) = .ok s.verfer := by
  obtain ⟨_, hf, hv⟩ := keyCode_rows c t
  have hl := C.publicKey_length c _ h.valid
  obtain ⟨z, hz, _, _⟩ := fixed_sizage hf
  have w : Wf s.verfer z := by
    rw [h.verfer]
    exact built_wf (fixed_new hf hl) hz
  obtain ⟨x, b, h1, h2, h3, h4, h5⟩ := w.transport E
  have hc : Verfer.validateCode s.verfer.code = .ok () := by rw [h.verfer]; exact hv
  refine ⟨x, b, h1, h2, ?_, ?_, ?_⟩
  · show (do let m ← newWithQb64 x; Verfer.validateCode m.code; Res.ok m) = _
    simp only [h3, hc, Res.ok_bind]
  · show (do let m ← newWithQb64b x; Verfer.validateCode m.code; Res.ok m) = _
    simp only [h4, hc, Res.ok_bind]
  · show (do let m ← newWithQb2 E b; Verfer.validateCode m.code; Res.ok m) = _
    simp only [h5, hc, Res.ok_bind]

/-- C53 (key). The verification key of a signer has text and binary forms, and comes back from each. -/
theorem C53_key_transport (E : Env) (C : Crypto) {r₀ : Nat} {t : Option Bool} {code : Option Str} {raw qb64b : Option (List UInt8)} {qb64 : Option Str}
    {qb2 : Option (List UInt8)} {s : Signer} (h : Signer.new E C r₀ t code raw qb64b qb64 qb2 = .ok s) :
    ∃ x b, s.verfer.qb64 E = .ok x ∧ s.verfer.qb2 E = .ok b ∧ Verfer.new E none none none (some x) none = .ok s.verfer ∧
      Verfer.new E none none (some x) none none = .ok s.verfer ∧ Verfer.new E none none none none (some b) = .ok s.verfer := by
  obtain ⟨c, ok, _⟩ := Signer.new_ok h
  exact Verfer.transport ok E

/-- C53 (unindexed). A signer, however it was obtained, signs every message; the signature carries the signer's key, verifies under it over
the message, and comes back unchanged from its text, bytes and binary forms. -/
theorem C53_unindexed_verifies (E : Env) (C : Crypto) {r₀ : Nat} {t : Option Bool} {code : Option Str} {raw qb64b : Option (List UInt8)} {qb64 : Option Str}
    {qb2 : Option (List UInt8)} {s : Signer} (h : Signer.new E C r₀ t code raw qb64b qb64 qb2 = .ok s) (ser : List UInt8) (r : Nat) :
    ∃ cig x b, Signer.signUnindexed E C s ser r = .ok cig ∧ cig.verfer = s.verfer ∧ Verfer.verify C s.verfer cig.matter.raw ser = .ok true ∧
      cig.matter.qb64 E = .ok x ∧ cig.matter.qb2 E = .ok b ∧
      Cigar.new E (some s.verfer) none none none (some x) none = .ok cig ∧ Cigar.new E (some s.verfer) none none (some x) none none = .ok cig ∧
      Cigar.new E (some s.verfer) none none none none (some b) = .ok cig := by
  obtain ⟨c, ok, _⟩ := Signer.new_ok h
  obtain ⟨_, _, _, _, _, _, h64, _, _, hv, _⟩ := scheme_rows c
  obtain ⟨z, hz, _, _⟩ := fixed_sizage h64
  have w : Wf { code := (schemeOf c).sig, size := 0, raw := C.sign c s.matter.raw ser r } z :=
    built_wf (fixed_new h64 (C.sign_length c _ ser r ok.valid)) hz
  obtain ⟨x, b, h1, h2, h3, h4, h5⟩ := w.transport E
  refine ⟨_, x, b, ok.unindexed E ser r, rfl, ok.verify ser r, h1, h2, ?_, ?_, ?_⟩
  · show (do let m ← newWithQb64 x; Cigar.validateCode m.code; Res.ok (Cigar.mk m s.verfer)) = _
    simp only [h3, hv, Res.ok_bind]
  · show (do let m ← newWithQb64b x; Cigar.validateCode m.code; Res.ok (Cigar.mk m s.verfer)) = _
    simp only [h4, hv, Res.ok_bind]
  · show (do let m ← newWithQb2 E b; Cigar.validateCode m.code; Res.ok (Cigar.mk m s.verfer)) = _
    simp only [h5, hv, Res.ok_bind]

/-- C53 (indexed). The same for indexed signatures, whenever the indices can be carried (see C52). -/
theorem C53_indexed_verifies (E : Env) (C : Crypto) {r₀ : Nat} {t : Option Bool} {code : Option Str} {raw qb64b : Option (List UInt8)} {qb64 : Option Str}
    {qb2 : Option (List UInt8)} {s : Signer} (h : Signer.new E C r₀ t code raw qb64b qb64 qb2 = .ok s) (ser : List UInt8) (r : Nat) {only : Bool} {index : Nat}
    {ondex : Option Nat} {sig : Siger} (hsig : Signer.signIndexed E C s ser only index ondex r = .ok sig) :
    sig.verfer = s.verfer ∧ Verfer.verify C s.verfer sig.indexer.raw ser = .ok true ∧ ∃ x b, sig.indexer.qb64 E = .ok x ∧ sig.indexer.qb2 E = .ok b ∧
      Siger.new E (some s.verfer) none none none none none (some x) none = .ok sig ∧ Siger.new E (some s.verfer) none none none none (some x) none none = .ok sig ∧
      Siger.new E (some s.verfer) none none none none none none (some b) = .ok sig := by
  obtain ⟨c, ok, _⟩ := Signer.new_ok h
  rw [ok.indexed_eq] at hsig
  generalize hbig : bigChoice only index (ondex.getD index) = big at hsig
  obtain ⟨h1, h2, h3, h4⟩ := idxOf_rows c only big
  have hl := C.sign_length c s.matter.raw ser r ok.valid
  obtain ⟨o, hoe⟩ : ∃ o : Option Nat, o = if only then none else some (ondex.getD index) := ⟨_, rfl⟩
  rw [← hoe] at hsig
  have hsig' := hsig
  rw [Siger.new_built E h1 h3 _ _ _ (by rw [hl, h4])] at hsig'
  split at hsig'
  · cases hsig'
  · rename_i hno
    injection hsig' with hs
    have hx : Indexer.ofRaw E (idxOf c only big).code (C.sign c s.matter.raw ser r) index o = .ok sig.indexer := by
      rw [C20_limits E h1, if_neg hno, if_neg (by omega), List.take_of_length_le (by omega), ← hs]
    have hp : Spec.Permitted (idxOf c only big) index o := by
      simp only [not_or, not_exists, not_and] at hno
      refine ⟨Nat.lt_of_not_le hno.1, ?_⟩
      subst hoe
      cases only
      · simp only [Bool.false_eq_true, if_false]
        refine ⟨by cases big <;> rfl, ?_⟩
        have h5 := hno.2 _ rfl
        cases big
        · unfold bigChoice at hbig
          simp only [Bool.false_eq_true, if_false, Bool.not_eq_false', decide_eq_true_eq] at hbig
          exact hbig.1
        · exact Nat.lt_of_not_le (h5.2 rfl)
      · trivial
    have ho := IdxObtained.built hp hx
    obtain ⟨x, t1, _, t3, t4⟩ := C17_text_roundtrip E h1 ho
    obtain ⟨⟨b, t5, t6⟩, _⟩ := C18_binary_roundtrip E h1 ho
    have hcode : sig.indexer.code = (idxOf c only big).code := by rw [← hs]
    have hv : sig.verfer = s.verfer := by rw [← hs]
    refine ⟨hv, ?_, x, b, t1, t6 ?_, ?_, ?_, ?_⟩
    · rw [← hs]; exact ok.verify ser r
    · rintro ⟨h, _⟩
      revert h
      cases c <;> cases only <;> cases big <;> decide +kernel
    · show (do let m ← Indexer.ofText E x; Siger.validateCode m.code; Res.ok (Siger.mk m s.verfer)) = _
      simp only [t3, hcode, h3, Res.ok_bind, ← hv]
    · show (do let m ← Indexer.ofTextBytes E x; Siger.validateCode m.code; Res.ok (Siger.mk m s.verfer)) = _
      simp only [t4, hcode, h3, Res.ok_bind, ← hv]
    · show (do let m ← Indexer.ofBinary E b; Siger.validateCode m.code; Res.ok (Siger.mk m s.verfer)) = _
      simp only [t5, hcode, h3, Res.ok_bind, ← hv]

/-- C53. Verification never panics, whatever the key, the signature bytes and the message. -/
theorem C53_verify_no_panic (C : Crypto) (v : Matter) (sig ser : List UInt8) : Verfer.verify C v sig ser ≠ .panic := by
  unfold Verfer.verify Verfer.validateCode Sign.verify
  split
  · simp only [Res.ok_bind]
    split
    · split
      · simp
      · split
        · simp
        · split <;> simp
    · split <;> simp
    · simp
  · simp

/-! ## C65: building signers -/

/-- The signer of curve `c` with the private key `key`; `transferable` chooses the code of the public key. -/
def signerOf (C : Crypto) (c : Curve) (transferable : Bool) (key : List UInt8) : Signer :=
  { matter := { code := (schemeOf c).seed, size := 0, raw := key },
    verfer := { code := if transferable then (schemeOf c).key else (schemeOf c).fixedKey, size := 0, raw := C.publicKey c key } }

theorem Signer.deriveVerfer_full (E : Env) (C : Crypto) (c : Curve) {key : List UInt8} (t : Bool) (hl : key.length = 32) :
    Signer.deriveVerfer E C (schemeOf c).seed key t =
      if C.valid c key then .ok { code := keyCode c t, size := 0, raw := C.publicKey c key } else .err .crypto := by
  split
  · rename_i hv
    exact (deriveVerfer_ok (by omega)).mpr ⟨hv, rfl⟩
  · rename_i hv
    rw [deriveVerfer_eq]
    unfold Sign.publicKey
    rw [(scheme_rows c).1]
    cases c
    · exact absurd ((C.valid_ed key).mpr hl) hv
    all_goals simp only [hv]; rfl

/-- C65 (raw). A signer built from raw bytes of a scheme has the first 32 of them as its private key, and the public key of the library under the
code that the `transferable` flag (true by default) asks for; too few bytes and bytes that the library refuses are errors. -/
theorem C65_from_raw (E : Env) (C : Crypto) (r : Nat) (t : Option Bool) (c : Curve) (raw : List UInt8) :
    Signer.new E C r t (some (schemeOf c).seed) (some raw) none none none =
      if raw.length < 32 then .err .shortage
      else if C.valid c (raw.take 32) then .ok (signerOf C c (t.getD true) (raw.take 32)) else .err .crypto := by
  rw [Signer.new_eq]
  have hs : Signer.seed E C r (some (schemeOf c).seed) (some raw) none none none = newWithCodeAndRaw (schemeOf c).seed raw := by
    show (do Signer.validateCode (schemeOf c).seed; newWithCodeAndRaw (schemeOf c).seed raw) = _
    simp only [(scheme_rows c).2.2.2.2.2.2.2.2.2.2.1, Res.ok_bind]
  obtain ⟨z, hz, hf, hn⟩ := fixed_sizage (scheme_rows c).2.2.2.1
  rw [hs, new_fixed hz hf, ← hn]
  split
  · rfl
  · simp only [Res.ok_bind]
    rw [Signer.deriveVerfer_full E C c _ (by rw [List.length_take]; omega)]
    split <;> rfl

/-- C65 (generated). A signer without material gets a private key from the library's generator. -/
theorem C65_generated (E : Env) (C : Crypto) (r : Nat) (t : Option Bool) (c : Curve) :
    Signer.new E C r t (some (schemeOf c).seed) none none none none = .ok (signerOf C c (t.getD true) (C.generate c r)) := by
  have := C65_from_raw E C r t c (C.generate c r)
  obtain ⟨hl, hv⟩ := C.generate_valid c r
  rw [if_neg (by omega), List.take_of_length_le (by omega), if_pos hv] at this
  rw [← this, Signer.new_eq, Signer.new_eq]
  have hs : Signer.seed E C r (some (schemeOf c).seed) none none none none = Signer.seed E C r (some (schemeOf c).seed) (some (C.generate c r)) none none none := by
    show (do Signer.validateCode (schemeOf c).seed; let raw ← Sign.generate C (schemeOf c).seed r; newWithCodeAndRaw (schemeOf c).seed raw) =
      (do Signer.validateCode (schemeOf c).seed; newWithCodeAndRaw (schemeOf c).seed (C.generate c r))
    unfold Sign.generate
    simp only [(scheme_rows c).1, Res.ok_bind]
  rw [hs]

/-- C65 (codes). Without a code Ed25519 is used, and codes that are no private keys are refused. -/
theorem C65_codes (E : Env) (C : Crypto) (r : Nat) (t : Option Bool) (raw : Option (List UInt8)) :
    Signer.new E C r t none raw none none none = Signer.new E C r t (some (schemeOf .ed25519).seed) raw none none none ∧
    ∀ code, (∀ S ∈ Spec.schemes, code ≠ S.seed) → Signer.new E C r t (some code) raw none none none = .err .unexpectedCode := by
  refine ⟨rfl, ?_⟩
  intro code hc
  have : Signer.validateCode code = .err .unexpectedCode := by
    unfold Signer.validateCode
    rw [if_neg]
    intro h
    simp only [List.contains_iff_mem, List.mem_cons, List.not_mem_nil, or_false] at h
    rcases h with h | h | h
    · exact hc _ (schemeOf_mem .ed25519) h
    · exact hc _ (schemeOf_mem .k1) h
    · exact hc _ (schemeOf_mem .r1) h
  show (do let m ← (do Signer.validateCode code; _); _) = _
  rw [this]
  rfl

/-- C65 (transport). A signer whose private key has a text, comes back with the same keys from its text, bytes and binary forms; every signer has a
text unless it was itself read from a text. -/
theorem C65_transport (E : Env) (C : Crypto) {r : Nat} {t : Option Bool} {code : Option Str} {raw qb64b : Option (List UInt8)} {qb64 : Option Str}
    {qb2 : Option (List UInt8)} {s : Signer} (h : Signer.new E C r t code raw qb64b qb64 qb2 = .ok s) :
    (qb64b = none ∧ qb64 = none → ∃ x, s.matter.qb64 E = .ok x) ∧
    ∀ x, s.matter.qb64 E = .ok x → s.matter.raw.length = 32 ∧ ∃ b, s.matter.qb2 E = .ok b ∧ ∀ r', Signer.new E C r' t none none none (some x) none = .ok s ∧
      Signer.new E C r' t none none (some x) none none = .ok s ∧ Signer.new E C r' t none none none none (some b) = .ok s := by
  obtain ⟨c, ok, hs⟩ := Signer.new_ok h
  obtain ⟨_, code', raw', _, hn⟩ := Signer.seed_ok hs
  obtain ⟨z, hz, hf, hl⟩ := fixed_sizage (scheme_rows c).2.2.2.1
  rw [← ok.code] at hz
  constructor
  · rintro ⟨rfl, rfl⟩
    have := (Matter.new_length hn (by rw [ok.code]; exact (scheme_rows c).2.2.2.1)).2.2 (.inr ⟨rfl, rfl⟩)
    have w : Wf s.matter z := ⟨hz, fun e => absurd e hf, fun _ => ⟨ok.size, by omega⟩⟩
    exact ⟨_, w.infil E⟩
  · intro x hx
    obtain ⟨z', w⟩ := new_text_wf hn hx
    have hz' := w.szg
    rw [hz] at hz'
    injection hz' with hz'
    subst hz'
    obtain ⟨x', b, h1, h2, h3, h4, h5⟩ := w.transport E
    rw [hx] at h1
    injection h1 with h1
    subst h1
    refine ⟨by rw [(w.fix hf).2, ← hl], b, h2, fun r' => ?_⟩
    have hd : Signer.deriveVerfer E C s.matter.code s.matter.raw (t.getD true) = .ok s.verfer := by
      rw [ok.code]
      exact (Signer.deriveVerfer_ok ok.length).mpr ⟨ok.valid, ok.verfer⟩
    have hv : Signer.validateCode s.matter.code = .ok () := by rw [ok.code]; exact (scheme_rows c).2.2.2.2.2.2.2.2.2.2.1
    have main : ∀ {f : Res Matter}, f = .ok s.matter → (do
        let m ← (do let m ← f; Signer.validateCode m.code; Res.ok m)
        let v ← Signer.deriveVerfer E C m.code m.raw (t.getD true)
        Res.ok (Signer.mk m v)) = .ok s := by
      rintro f rfl
      simp only [Res.ok_bind, hv, hd]
    exact ⟨main h3, main h4, main h5⟩

/-- C65 (defect). Reading a signer from a text panics exactly when reading the primitive panics, or it is an Ed25519 private key with less than 32
bytes; this needs a `=` among its 44 characters. -/
theorem C65_text_panics_exactly (E : Env) (C : Crypto) (r : Nat) (t : Option Bool) (x : Str) :
    (Signer.new E C r t none none none (some x) none = .panic ↔
      Matter.ofText E x = .panic ∨ ∃ m, Matter.ofText E x = .ok m ∧ m.code = (schemeOf .ed25519).seed ∧ m.raw.length < 32) ∧
    (∀ m, Matter.ofText E x = .ok m → m.code = (schemeOf .ed25519).seed → m.raw.length < 32 → ch '=' ∈ x.take 44) := by
  constructor
  · show (do
        let m ← (do let m ← Matter.ofText E x; Signer.validateCode m.code; Res.ok m)
        let v ← Signer.deriveVerfer E C m.code m.raw (t.getD true)
        Res.ok (Signer.mk m v)) = .panic ↔ _
    cases hm : Matter.ofText E x with
    | panic => simp
    | err e => simp
    | ok m =>
      simp only [Res.ok_bind, reduceCtorEq, false_or, Res.ok.injEq, exists_eq_left']
      by_cases hc : ∃ c, m.code = (schemeOf c).seed
      · obtain ⟨c, hc⟩ := hc
        have hl := (Matter.new_length hm (by rw [hc]; exact (scheme_rows c).2.2.2.1)).2.1
        have hv : Signer.validateCode m.code = .ok () := by rw [hc]; exact (scheme_rows c).2.2.2.2.2.2.2.2.2.2.1
        simp only [hv, Res.ok_bind]
        by_cases h32 : m.raw.length = 32
        · rw [hc, Signer.deriveVerfer_full E C c _ h32]
          constructor
          · intro h
            split at h <;> simp at h
          · omega
        · rw [hc, Signer.deriveVerfer_eq]
          unfold Sign.publicKey
          rw [(scheme_rows c).1]
          cases c
          · have : slice m.raw 0 32 = .panic := by unfold slice; rw [if_neg (by omega)]
            simp only [this]
            constructor
            · intro _; exact ⟨trivial, by omega⟩
            · intro _; rfl
          all_goals
            simp only
            constructor
            · intro h
              split at h
              · rename_i hval
                rw [Res.ok_bind, Verfer.new_built E _ _ (C.publicKey_length _ _ hval)] at h
                simp at h
              · simp at h
            · rintro ⟨h, _⟩
              exact absurd h (by decide +kernel)
      · have hv : Signer.validateCode m.code ≠ .ok () := fun e => hc (Signer.validateCode_ok.mp e)
        have hv2 : Signer.validateCode m.code = .err .unexpectedCode := by
          unfold Signer.validateCode at hv ⊢
          split
          · rename_i h; rw [if_pos h] at hv; exact absurd rfl hv
          · rfl
        constructor
        · intro h
          rw [hv2] at h
          simp at h
        · rintro ⟨h, _⟩
          exact absurd ⟨_, h⟩ hc
  · intro m hm hc hl
    obtain ⟨z, hz, hT, hcan⟩ := exfil_canonical (show Matter.exfil x = .ok m from hm)
    obtain ⟨z', hz', hf, hn⟩ := fixed_sizage (scheme_rows .ed25519).2.2.2.1
    have hzz : z = z' := by rw [hc, hz'] at hz; injection hz with hz; exact hz.symm
    subst hzz
    have h44 : z.fs = 44 := by
      have : Matter.sizage (schemeOf .ed25519).seed = .ok { hs := 1, ss := 0, ls := 0, fs := 44 } := by decide +kernel
      rw [this] at hz'
      injection hz' with hz'
      rw [← hz']
    have htot : total m z = 44 := by unfold total; rw [if_neg hf, h44]
    by_cases he : ch '=' ∈ x.take 44
    · exact he
    · exfalso
      have := (hcan (by rw [htot]; intro a ha e; subst e; exact he ha)).1.fix hf
      omega

/-- A library with the laws (of no cryptographic value). -/
def toy : Crypto where
  valid _ k := decide (k.length = 32)
  publicKey c k := if c = .ed25519 then k else 2 :: k
  sign _ _ _ r := List.replicate 64 (UInt8.ofNat r)
  verify _ _ _ _ := some true
  generate _ r := List.replicate 32 (UInt8.ofNat r)
  argon _ _ _ _ len := some (List.replicate len 7)
  valid_ed k := by simp
  publicKey_length c k h := by
    simp only [decide_eq_true_eq] at h
    cases c <;> simp [h]
  sign_length := by simp
  verify_sign := by simp
  generate_valid := by simp
  argon_length := by intro m t p s len out h; injection h with h; rw [← h]; simp

/-- The premises are met: a text with padding that makes `Signer::new_with_qb64` panic, a signer, and an indexed signature of it. -/
example : Signer.new Env.debug toy 0 none none none none (some (List.replicate 43 (ch 'A') ++ [ch '='])) none = .panic := by decide +kernel
example : ∃ s, Signer.new Env.debug toy 5 none none none none none none = .ok s := ⟨_, C65_generated Env.debug toy 5 none .ed25519⟩
example : ∃ s sig, Signer.new Env.debug toy 5 none (some (lit "J")) none none none none = .ok s ∧
    Signer.signIndexed Env.debug toy s (lit "message") false 70 (some 3) 9 = .ok sig ∧ sig.indexer.code = lit "2C" :=
  ⟨_, { indexer := { code := lit "2C", raw := List.replicate 64 9, index := 70, ondex := 3 },
        verfer := { code := lit "1AAB", size := 0, raw := 2 :: List.replicate 32 5 } },
    C65_generated Env.debug toy 5 none .k1, by decide +kernel, rfl⟩
example : ∃ k ∈ Spec.idxCodes, k.code ∈ (schemeOf .k1).indexed ∧ Spec.Carries k false 70 3 :=
  ⟨⟨lit "2C", false, 2, true, 64⟩, by decide +kernel, by decide +kernel, rfl, by decide, fun _ => by decide⟩
example : ¬ ∃ k ∈ Spec.idxCodes, k.code ∈ (schemeOf .k1).indexed ∧ Spec.Carries k true 4096 4096 := by
  rintro ⟨k, hk, hc, hcar⟩
  obtain ⟨o, _, b, _, rfl⟩ := indexed_cases .k1 k hk hc
  rw [carries_idxOf] at hcar
  cases b <;> simp at hcar

end Cesride
