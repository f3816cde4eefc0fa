import Verif.Model.Signer
import Verif.Lemmas.Prefixer
import Verif.Spec.Sign

/-! # Lemmas about signers -/

namespace Cesride
open Matter

/-- Reading a fixed code gives no more raw bytes than the code carries. -/
theorem Matter.exfil_length {s : Str} {m : Matter} {z : Sizage} (h : Matter.exfil s = .ok m) (hz : Matter.sizage m.code = .ok z) (hf : z.fs ≠ u32Max) :
    m.size = 0 ∧ m.raw.length ≤ (z.fs - (z.hs + z.ss)) * 3 / 4 - z.ls := by
  obtain ⟨z', paw, hz', hcode, hvar, hfix, hT, hdec, hpz, hlz, hpl, hraw⟩ := exfil_ok h
  rw [hz] at hz'
  injection hz' with hz'
  subst hz'
  have hd := decode_length_le hdec
  have htot : Matter.total m z = z.fs := by simp [Matter.total, hf]
  rw [htot] at hd hT
  have hl : m.raw.length = paw.length - ((z.hs + z.ss) % 4 + z.ls) := by rw [hraw, List.length_drop]
  refine ⟨hfix hf, ?_⟩
  simp only [List.length_append, List.length_replicate, List.length_drop, List.length_take, Nat.min_eq_left hT] at hd
  omega

/-- Every constructor gives a fixed code no more raw bytes than it carries; exactly that many unless it read a padded text. -/
theorem Matter.new_length {E : Env} {code : Option Str} {raw qb64b : Option (List UInt8)} {qb64 : Option Str} {qb2 : Option (List UInt8)} {m : Matter}
    {n : Nat} (h : Matter.new E code raw qb64b qb64 qb2 = .ok m) (hn : (m.code, n) ∈ Spec.fixedCodes) :
    m.size = 0 ∧ m.raw.length ≤ n ∧ (raw.isSome ∨ (qb64b.isNone ∧ qb64.isNone) → m.raw.length = n) := by
  obtain ⟨z, hz, hf, hzn⟩ := fixed_sizage hn
  have hw : ∀ {m' : Matter} {z' : Sizage}, Matter.Wf m' z' → m' = m → m.size = 0 ∧ m.raw.length ≤ n ∧
      (raw.isSome ∨ (qb64b.isNone ∧ qb64.isNone) → m.raw.length = n) := by
    rintro m' z' w rfl
    have := w.szg
    rw [hz] at this
    injection this with this
    subst this
    have hr := w.fix hf
    refine ⟨hr.1, by omega, fun _ => by omega⟩
  unfold Matter.new at h
  split at h
  · split at h
    · exact hw (built_wf h hz) rfl
    · cases h
  · split at h
    · unfold newWithQb64b at h
      rw [Res.bind_eq_ok] at h
      obtain ⟨q, _, h⟩ := h
      have := exfil_length h hz hf
      exact ⟨this.1, by omega, by simp⟩
    · split at h
      · have := exfil_length h hz hf
        exact ⟨this.1, by omega, by simp⟩
      · split at h
        · obtain ⟨z, w, _⟩ := bexfil_canonical h
          exact hw w rfl
        · cases h

/-- The scheme of a curve. -/
def schemeOf : Curve → Spec.Scheme
  | .ed25519 => ⟨lit "A", lit "D", lit "B", lit "0B", [lit "A", lit "B", lit "2A", lit "2B"]⟩
  | .k1 => ⟨lit "J", lit "1AAB", lit "1AAA", lit "0C", [lit "C", lit "D", lit "2C", lit "2D"]⟩
  | .r1 => ⟨lit "Q", lit "1AAJ", lit "1AAI", lit "0I", [lit "E", lit "F", lit "2E", lit "2F"]⟩

theorem schemes_eq : Spec.schemes = [schemeOf .ed25519, schemeOf .k1, schemeOf .r1] := rfl

theorem mem_schemes {s : Spec.Scheme} (h : s ∈ Spec.schemes) : ∃ c, s = schemeOf c := by
  rw [schemes_eq] at h
  simp only [List.mem_cons, List.not_mem_nil, or_false] at h
  rcases h with h | h | h
  · exact ⟨.ed25519, h⟩
  · exact ⟨.k1, h⟩
  · exact ⟨.r1, h⟩

theorem schemeOf_mem (c : Curve) : schemeOf c ∈ Spec.schemes := by
  rw [schemes_eq]
  cases c <;> simp

theorem curve_ne {c d : Curve} (h : (schemeOf c).seed = (schemeOf d).seed) : c = d := by
  revert h
  cases c <;> cases d <;> decide +kernel

/-- The codes of a scheme in the tables. -/
theorem scheme_rows (c : Curve) : Sign.curveOf (schemeOf c).seed = some c ∧ Sign.curveOf (schemeOf c).key = some c ∧
    Sign.curveOf (schemeOf c).fixedKey = some c ∧ ((schemeOf c).seed, 32) ∈ Spec.fixedCodes ∧
    ((schemeOf c).key, if c = .ed25519 then 32 else 33) ∈ Spec.fixedCodes ∧
    ((schemeOf c).fixedKey, if c = .ed25519 then 32 else 33) ∈ Spec.fixedCodes ∧ ((schemeOf c).sig, 64) ∈ Spec.fixedCodes ∧
    Verfer.validateCode (schemeOf c).key = .ok () ∧ Verfer.validateCode (schemeOf c).fixedKey = .ok () ∧
    Cigar.validateCode (schemeOf c).sig = .ok () ∧ Signer.validateCode (schemeOf c).seed = .ok () ∧
    ∀ x ∈ (schemeOf c).indexed, Siger.validateCode x = .ok () := by
  cases c <;> decide +kernel

theorem Signer.validateCode_ok {code : Str} {u : Unit} : Signer.validateCode code = .ok u ↔ ∃ c, code = (schemeOf c).seed := by
  unfold Signer.validateCode
  constructor
  · intro h
    split at h
    · rename_i hc
      simp only [List.contains_iff_mem, List.mem_cons, List.not_mem_nil, or_false] at hc
      rcases hc with h | h | h
      · exact ⟨.ed25519, h⟩
      · exact ⟨.k1, h⟩
      · exact ⟨.r1, h⟩
    · cases h
  · rintro ⟨c, rfl⟩
    rw [if_pos (by cases c <;> decide +kernel)]

/-- The public key code. -/
def keyCode (c : Curve) (transferable : Bool) : Str := if transferable then (schemeOf c).key else (schemeOf c).fixedKey

theorem keyCode_rows (c : Curve) (t : Bool) : Sign.curveOf (keyCode c t) = some c ∧ (keyCode c t, if c = .ed25519 then 32 else 33) ∈ Spec.fixedCodes ∧
    Verfer.validateCode (keyCode c t) = .ok () := by
  cases c <;> cases t <;> decide +kernel

theorem Verfer.new_built (E : Env) (c : Curve) (t : Bool) {raw : List UInt8} (h : raw.length = if c = .ed25519 then 32 else 33) :
    Verfer.new E (some (keyCode c t)) (some raw) none none none = .ok { code := keyCode c t, size := 0, raw := raw } := by
  obtain ⟨_, hf, hv⟩ := keyCode_rows c t
  show (do let verfer ← newWithCodeAndRaw (keyCode c t) raw; Verfer.validateCode verfer.code; Res.ok verfer) = _
  rw [fixed_new hf h, Res.ok_bind]
  simp only [hv, Res.ok_bind]

theorem Signer.deriveVerfer_eq (E : Env) (C : Crypto) (c : Curve) (key : List UInt8) (t : Bool) :
    Signer.deriveVerfer E C (schemeOf c).seed key t =
      (do let raw ← Sign.publicKey C (schemeOf c).seed key; Verfer.new E (some (keyCode c t)) (some raw) none none none) := by
  unfold Signer.deriveVerfer
  cases c <;> cases t <;> rfl

/-- The verification key of a signer. -/
theorem Signer.deriveVerfer_ok {E : Env} {C : Crypto} {c : Curve} {key : List UInt8} {t : Bool} {v : Matter} (hl : key.length ≤ 32) :
    Signer.deriveVerfer E C (schemeOf c).seed key t = .ok v ↔ C.valid c key = true ∧ v = { code := keyCode c t, size := 0, raw := C.publicKey c key } := by
  rw [deriveVerfer_eq]
  unfold Sign.publicKey
  rw [(scheme_rows c).1]
  have main : ∀ {v : Matter}, C.valid c key = true → (Verfer.new E (some (keyCode c t)) (some (C.publicKey c key)) none none none = .ok v ↔
      v = { code := keyCode c t, size := 0, raw := C.publicKey c key }) := by
    intro v hv
    rw [Verfer.new_built E c t (C.publicKey_length c key hv)]
    constructor
    · intro h; injection h with h; exact h.symm
    · rintro rfl; rfl
  cases c
  · simp only [Res.bind_eq_ok]
    constructor
    · rintro ⟨raw, ⟨k, hk, hr⟩, h⟩
      unfold slice at hk
      split at hk
      · rename_i hle
        injection hk with hk
        injection hr with hr
        have h32 : key.length = 32 := by omega
        have hke : k = key := by rw [← hk]; simp [← h32]
        subst hke
        have hv := (C.valid_ed k).mpr h32
        subst hr
        exact ⟨hv, (main hv).mp h⟩
      · cases hk
    · rintro ⟨hv, h⟩
      have h32 := (C.valid_ed key).mp hv
      refine ⟨C.publicKey .ed25519 key, ⟨key, ?_, rfl⟩, (main hv).mpr h⟩
      unfold slice
      rw [if_pos (by omega)]
      simp [← h32]
  all_goals
    simp only [Res.bind_eq_ok]
    constructor
    · rintro ⟨raw, hr, h⟩
      split at hr
      · rename_i hv
        injection hr with hr
        subst hr
        exact ⟨hv, (main hv).mp h⟩
      · cases hr
    · rintro ⟨hv, h⟩
      exact ⟨_, by rw [if_pos hv], (main hv).mpr h⟩

/-- What a signer is. -/
structure Signer.Ok (C : Crypto) (c : Curve) (t : Bool) (s : Signer) : Prop where
  code : s.matter.code = (schemeOf c).seed
  size : s.matter.size = 0
  length : s.matter.raw.length ≤ 32
  valid : C.valid c s.matter.raw = true
  verfer : s.verfer = { code := keyCode c t, size := 0, raw := C.publicKey c s.matter.raw }

/-- The seed a signer is built from. -/
def Signer.seed (E : Env) (C : Crypto) (r : Nat) (code : Option Str) (raw : Option (List UInt8)) (qb64b : Option (List UInt8))
    (qb64 : Option Str) (qb2 : Option (List UInt8)) : Res Matter :=
  (if qb64b.isNone ∧ qb64.isNone ∧ qb2.isNone then do
      let code := code.getD (lit "A")
      Signer.validateCode code
      let raw ←
        (match raw with
        | some raw => .ok raw
        | none => Sign.generate C code r : Res (List UInt8))
      Matter.new E (some code) (some raw) none none none
    else do
      let m ← Matter.new E code raw qb64b qb64 qb2
      Signer.validateCode m.code
      .ok m : Res Matter)

theorem Signer.new_eq (E : Env) (C : Crypto) (r : Nat) (transferable : Option Bool) (code : Option Str) (raw : Option (List UInt8)) (qb64b : Option (List UInt8))
    (qb64 : Option Str) (qb2 : Option (List UInt8)) : Signer.new E C r transferable code raw qb64b qb64 qb2 =
      (do
        let m ← Signer.seed E C r code raw qb64b qb64 qb2
        let v ← Signer.deriveVerfer E C m.code m.raw (transferable.getD true)
        .ok { matter := m, verfer := v }) := rfl

theorem Signer.seed_ok {E : Env} {C : Crypto} {r : Nat} {code : Option Str} {raw qb64b : Option (List UInt8)} {qb64 : Option Str} {qb2 : Option (List UInt8)}
    {m : Matter} (h : Signer.seed E C r code raw qb64b qb64 qb2 = .ok m) : ∃ c code' raw', m.code = (schemeOf c).seed ∧
      Matter.new E code' raw' qb64b qb64 qb2 = .ok m := by
  unfold Signer.seed at h
  split at h
  · rename_i hq
    obtain ⟨h1, h2, h3⟩ := hq
    simp only [Option.isNone_iff_eq_none] at h1 h2 h3
    subst h1 h2 h3
    simp only [Res.bind_eq_ok] at h
    obtain ⟨_, hv, raw', _, h⟩ := h
    obtain ⟨c, hc⟩ := validateCode_ok.mp hv
    rw [hc] at h
    refine ⟨c, _, _, ?_, h⟩
    obtain ⟨z, hz, hf, _⟩ := fixed_sizage (scheme_rows c).2.2.2.1
    have h' := h
    rw [show Matter.new E (some (schemeOf c).seed) (some raw') none none none = newWithCodeAndRaw (schemeOf c).seed raw' from rfl, new_fixed hz hf] at h'
    split at h'
    · cases h'
    · injection h' with h'
      rw [← h']
  · simp only [Res.bind_eq_ok] at h
    obtain ⟨m', hm, _, hv, h⟩ := h
    injection h with h
    subst h
    obtain ⟨c, hc⟩ := validateCode_ok.mp hv
    exact ⟨c, _, _, hc, hm⟩

theorem Signer.new_ok {E : Env} {C : Crypto} {r : Nat} {t : Option Bool} {code : Option Str} {raw qb64b : Option (List UInt8)} {qb64 : Option Str}
    {qb2 : Option (List UInt8)} {s : Signer} (h : Signer.new E C r t code raw qb64b qb64 qb2 = .ok s) :
    ∃ c, Signer.Ok C c (t.getD true) s ∧ Signer.seed E C r code raw qb64b qb64 qb2 = .ok s.matter := by
  rw [new_eq] at h
  simp only [Res.bind_eq_ok] at h
  obtain ⟨m, hm, v, hv, h⟩ := h
  injection h with h
  subst h
  obtain ⟨c, code', raw', hc, hn⟩ := seed_ok hm
  have hl := Matter.new_length hn (by rw [hc]; exact (scheme_rows c).2.2.2.1)
  rw [hc, deriveVerfer_ok hl.2.1] at hv
  exact ⟨c, ⟨hc, hl.1, hl.2.1, hv.1, hv.2⟩, hm⟩

namespace Signer.Ok
variable {C : Crypto} {c : Curve} {t : Bool} {s : Signer}

theorem sign (h : Signer.Ok C c t s) (ser : List UInt8) (r : Nat) : Sign.sign C s.matter.code s.matter.raw ser r = .ok (C.sign c s.matter.raw ser r) := by
  unfold Sign.sign
  rw [h.code, (scheme_rows c).1]
  cases c
  · simp only
    rw [if_pos ((C.valid_ed _).mp h.valid)]
  all_goals simp only [h.valid, if_true]

theorem verify (h : Signer.Ok C c t s) (ser : List UInt8) (r : Nat) : Verfer.verify C s.verfer (C.sign c s.matter.raw ser r) ser = .ok true := by
  have hs := C.verify_sign c s.matter.raw ser r h.valid
  have hl := C.sign_length c s.matter.raw ser r h.valid
  have hk := C.publicKey_length c s.matter.raw h.valid
  obtain ⟨h1, _, h3⟩ := keyCode_rows c t
  unfold Verfer.verify
  rw [h.verfer]
  simp only [h3, Res.ok_bind]
  unfold Sign.verify
  rw [h1]
  cases c
  · simp only [if_true] at hk
    simp only [hk, hl, hs]
    simp
  all_goals simp only [hs]

theorem unindexed (h : Signer.Ok C c t s) (E : Env) (ser : List UInt8) (r : Nat) : Signer.signUnindexed E C s ser r =
    .ok { matter := { code := (schemeOf c).sig, size := 0, raw := C.sign c s.matter.raw ser r }, verfer := s.verfer } := by
  unfold Signer.signUnindexed
  rw [h.sign]
  obtain ⟨_, _, _, _, _, _, h64, _, _, hv, _⟩ := scheme_rows c
  have hn : Cigar.new E (some s.verfer) (some (schemeOf c).sig) (some (C.sign c s.matter.raw ser r)) none none none =
      .ok { matter := { code := (schemeOf c).sig, size := 0, raw := C.sign c s.matter.raw ser r }, verfer := s.verfer } := by
    show (do
      let m ← newWithCodeAndRaw (schemeOf c).sig (C.sign c s.matter.raw ser r)
      Cigar.validateCode m.code
      Res.ok (Cigar.mk m s.verfer)) = _
    rw [fixed_new h64 (C.sign_length c _ ser r h.valid)]
    simp only [hv, Res.ok_bind]
  rw [h.code, ← hn]
  cases c <;> rfl

end Signer.Ok

end Cesride
