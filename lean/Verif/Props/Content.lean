import Verif.Model.Short
import Verif.Props.Prims
import Verif.Props.Texts
import Verif.Props.Diger
import Verif.Props.Signer
import Verif.Props.Short

/-! # C78: objects made from content by the short constructors, and from nothing -/

namespace Cesride
open Common Spec

/-- C78 (numbers). Number and Seqner made from a number, or from any hexadecimal numeral of it, give the number back; the empty text is zero for Number
and an error for Seqner, and every other text is an error for both. -/
theorem C78_numbers (E : Env) :
    (∀ n, n < 2 ^ 128 → ∃ x y h, Number.newWithNum E n = .ok x ∧ Number.num x = .ok n ∧ Number.numh x = .ok h ∧
      Seqner.newWithSn E n = .ok y ∧ Seqner.sn y = .ok n ∧ Seqner.snh y = .ok h ∧ Spec.CanonicalHex h n) ∧
    (∀ s n, Spec.HexNumeral s n → n < 2 ^ 128 → Number.newWithNumh E s = Number.newWithNum E n ∧ Seqner.newWithSnh E s = Seqner.newWithSn E n) ∧
    (∀ s, (¬ ∃ n, Spec.HexNumeral s n ∧ n < 2 ^ 128) →
      Number.newWithNumh E s = (if s = [] then Number.newWithNum E 0 else .err .parseInt) ∧ Seqner.newWithSnh E s = .err .parseInt) := by
  refine ⟨?_, ?_, ?_⟩
  · intro n hn
    obtain ⟨x, h, _, _, h1, h2, h3, h4, _⟩ := C28_number_roundtrip E hn
    obtain ⟨y, h', _, _, g1, g2, g3, g4, _⟩ := C29_seqner_roundtrip E hn
    have e : Number.numh x = .ok h' := by
      rw [Number.numh, h2]
      rw [Seqner.snh, g2] at g3
      exact g3
    exact ⟨x, y, h', h1, h2, e, g1, g2, g3, g4⟩
  · intro s n hs hn
    refine ⟨(C28_number_hex E s).2.1 n hs hn, ?_⟩
    have : u128FromHex s = .ok n := u128FromHex_ok.mpr ⟨hs, hn⟩
    show Seqner.new E none (some s) none none none none none = Seqner.new E (some n) none none none none none none
    unfold Seqner.new
    simp only [this]
  · intro s hs
    refine ⟨?_, ?_⟩
    · split
      · rename_i h
        exact (C28_number_hex E s).1 h
      · rename_i h
        exact (C28_number_hex E s).2.2 h hs
    · show Seqner.new E none (some s) none none none none none = _
      unfold Seqner.new
      simp only [u128FromHex_err hs]
      rfl

/-- C78 (text). A Bexter made from a text over the URL-safe alphabet has the variable-length code of strings and gives the text back (up to the exception of C31: the first
of a text whose length is a multiple of four is lost when it is `A`); other texts are refused. -/
theorem C78_text (E : Env) (t : Str) :
    (Spec.IsB64Text t → t.length ≤ 4 * (64 ^ 4 - 1) → ∃ x, Bexter.newWithBext E t = .ok x ∧ x.code ∈ Spec.bextCodes ∧
      Bexter.bext x = .ok (if t.length % 4 = 0 ∧ t.head? = some (ch 'A') then t.tail else t)) ∧
    (¬ Spec.IsB64Text t → Bexter.newWithBext E t = .err .value) := by
  constructor
  · intro ht hl
    obtain ⟨x, _, _, h1, h2, h3, _⟩ := C31_bext_roundtrip E (code := lit "4A") (by decide +kernel) ht hl
    exact ⟨x, h1, h2, h3⟩
  · intro ht
    have : Bexter.reB64 t = false := by
      cases h : Bexter.reB64 t with
      | false => rfl
      | true => exact absurd (by simpa [reB64_iff] using h) ht
    show Bexter.new E (some t) none none none none none = _
    unfold Bexter.new
    simp [this]

/-- C78 (dates). A Dater made from a text of 32 characters of a date-time gives it back, whatever code is named; shorter texts are refused; with neither text nor
material it is the clock's time. -/
theorem C78_date (E : Env) (now : Str) (code : Option Str) (t : Str) :
    (Spec.IsDateTimeText t → t.length = 32 → ∃ x, Dater.newWithDts E now t code = .ok x ∧ x.code = lit "1AAG" ∧ Dater.dts E x = .ok t) ∧
    (utf8Valid t = true → t.length < 32 → Dater.newWithDts E now t code = .err .shortage) ∧
    Dater.new E t none code none none none none = Dater.newWithDts E now t code := by
  have e : Dater.newWithDts E now t code = Dater.ofDts E now t := rfl
  rw [e]
  refine ⟨?_, fun h1 h2 => C33_date_short E now h1 h2, rfl⟩
  intro ht hl
  obtain ⟨x, _, _, h1, h2, _, h3, _⟩ := C33_date_roundtrip E now ht hl
  exact ⟨x, h1, h2, h3⟩

/-- C78 (digests). A Diger made from data holds the digest of the data under the named code, Blake3-256 when none is named; a code that is no digest code is refused. -/
theorem C78_digest (E : Env) (H : Hash) (ser : List UInt8) (code : Option Str) :
    (∀ n, (code.getD (lit "E"), n) ∈ digestSizes → ∃ d, Diger.newWithSer E H ser code = .ok d ∧ d.code = code.getD (lit "E") ∧
      d.raw = H.digest d.code ser ∧ d.raw.length = n ∧ Diger.verify H d ser = .ok true) ∧
    ((∀ n, (code.getD (lit "E"), n) ∉ digestSizes) → Diger.newWithSer E H ser code = .err .unexpectedCode) := by
  constructor
  · intro n hc
    obtain ⟨d, _, h1, h2, h3, _, h5⟩ := C55_hash E H ser hc
    exact ⟨d, h1, h2, h3, by rw [h3, h2]; exact H.length _ n hc ser, h5⟩
  · intro hc
    have hv : validateDigestCode (code.getD (lit "E")) = .err .unexpectedCode := by
      cases h : validateDigestCode (code.getD (lit "E")) with
      | ok u => obtain ⟨n, hn⟩ := validateDigestCode_ok.mp h; exact absurd hn (hc n)
      | err e => unfold validateDigestCode at h; split at h <;> simp_all
      | panic => unfold validateDigestCode at h; split at h <;> simp_all
    show Diger.new E H (some ser) code none none none none = _
    unfold Diger.new
    have : Matter.new E code none none none none = .err .validation := rfl
    rw [this]
    simp only [hv]
    rfl

/-- C78 (generated). A Salter without material holds the 16 random bytes and the given tier, `low` when none is given; a Signer without material is the one of the generated key. -/
theorem C78_generated (E : Env) (C : Crypto) (r : Nat) (rnd : List UInt8) (hr : rnd.length = 16) (tier : Option Str) (tr : Option Bool) :
    Salter.newWithDefaults E rnd tier = .ok { matter := { code := lit "0A", size := 0, raw := rnd }, tier := tier.getD (lit "low") } ∧
    (∀ c, Signer.newWithDefaults E C r tr (some (schemeOf c).seed) = .ok (signerOf C c (tr.getD true) (C.generate c r))) ∧
    Signer.newWithDefaults E C r tr none = .ok (signerOf C .ed25519 (tr.getD true) (C.generate .ed25519 r)) ∧
    ∀ code, (∀ S ∈ Spec.schemes, code ≠ S.seed) → Signer.newWithDefaults E C r tr (some code) = .err .unexpectedCode := by
  refine ⟨?_, fun c => C65_generated E C r tr c, ?_, fun code hc => (C65_codes E C r tr none).2 code hc⟩
  · obtain ⟨z, hz, hf, hn⟩ := Matter.fixed_sizage (code := lit "0A") (n := 16) (by decide +kernel)
    have hm : Matter.new E (some (lit "0A")) (some rnd) none none none = _ := Matter.new_fixed hz hf rnd
    rw [← hn, if_neg (by omega), ← hr, List.take_length] at hm
    show Salter.new E rnd tier none none none none none = _
    unfold Salter.new
    simp [hm]
  · rw [← C65_generated]
    exact (C65_codes E C r tr none).1

/-- C78 (nothing). Without any argument Number and Seqner are zero; every other primitive is an error. -/
theorem C78_nothing (E : Env) (H : Hash) (F : Str → Option Str) :
    Number.new E none none none none none none none = Number.newWithNum E 0 ∧
    Seqner.new E none none none none none none none = Seqner.newWithSn E 0 ∧
    (∀ code, ∃ e, Matter.new E code none none none none = .err e) ∧
    (∀ code, ∃ e, Bexter.new E none code none none none none = .err e) ∧
    (∀ code, ∃ e, Pather.new E none none code none none none none = .err e) ∧
    (∀ code, ∃ e, Diger.new E H none code none none none none = .err e) ∧
    (∀ code, ∃ e, Verfer.new E code none none none none = .err e) ∧
    (∀ label kind ignore code, ∃ e, Saider.new E H none label kind ignore code none none none none = .err e) ∧
    (∀ allows code, ∃ e, Prefixer.new E H none allows code none none none none = .err e) ∧
    (∀ v code, ∃ e, Cigar.new E v code none none none none = .err e) ∧
    (∀ v index ondex code, ∃ e, Siger.new E v index ondex code none none none none = .err e) ∧
    (∀ count countB64, ∃ e, Counter.new E count countB64 none none none none = .err e) ∧
    (∃ e, Tholder.new E F none none none = .err e) := by
  refine ⟨rfl, rfl, fun _ => ⟨_, rfl⟩, fun _ => ⟨_, rfl⟩, fun _ => ⟨_, rfl⟩, fun _ => ⟨_, rfl⟩, fun _ => ⟨_, rfl⟩, fun _ _ _ _ => ⟨_, rfl⟩, fun _ _ => ⟨_, rfl⟩,
    fun _ _ => ⟨_, rfl⟩, fun _ _ _ _ => ⟨_, rfl⟩, fun _ _ => ⟨_, rfl⟩, ⟨_, rfl⟩⟩

/-- C78: concrete content. -/
example (E : Env) : (∃ x, Number.newWithNum E 70000 = .ok x ∧ Number.num x = .ok 70000 ∧ Number.newWithNumh E (lit "+0011170") = .ok x) ∧
    (∃ x, Bexter.newWithBext E (lit "Hello-World_") = .ok x ∧ Bexter.bext x = .ok (lit "Hello-World_")) ∧
    Bexter.newWithBext E (lit "Hello World") = .err .value ∧ Seqner.newWithSnh E [] = .err .parseInt := by
  obtain ⟨h1, h2, h3⟩ := C78_numbers E
  refine ⟨?_, ?_, ?_, ?_⟩
  · obtain ⟨x, _, _, h, g, _⟩ := h1 70000 (by omega)
    refine ⟨x, h, g, ?_⟩
    rw [(h2 (lit "+0011170") 70000 ((u128FromHex_ok.mp (by decide +kernel)).1) (by omega)).1, h]
  · obtain ⟨x, h, _, g⟩ := (C78_text E (lit "Hello-World_")).1 (by unfold Spec.IsB64Text; decide +kernel) (by decide +kernel)
    exact ⟨x, h, by rw [g]; decide +kernel⟩
  · exact (C78_text E (lit "Hello World")).2 (by unfold Spec.IsB64Text; decide +kernel)
  · exact (h3 [] (by rintro ⟨n, h⟩; exact absurd (u128FromHex_ok.mpr h) (by intro h; cases h))).2

example (E : Env) (now : Str) : ∃ x, Dater.newWithDts E now (lit "2020-08-22T17:50:09.988921+00:00") (some (lit "E")) = .ok x ∧
    Dater.dts E x = .ok (lit "2020-08-22T17:50:09.988921+00:00") := by
  obtain ⟨x, h, _, g⟩ := (C78_date E now (some (lit "E")) (lit "2020-08-22T17:50:09.988921+00:00")).1 (by unfold Spec.IsDateTimeText; decide +kernel) (by decide +kernel)
  exact ⟨x, h, g⟩

end Cesride
