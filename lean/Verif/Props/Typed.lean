import Verif.Props.Salter
import Verif.Lemmas.Prefixer
import Verif.Model.Pather

/-!
# Property C54: typed primitives carry the codes of their type

The arguments of the constructors are arbitrary; `Spec.Typed` lists the codes of each type.
-/

namespace Cesride
open Matter

section
variable (E : Env) (H : Hash) (C : Crypto)

theorem contains_mem {l : List Str} {c : Str} {e : Err} {u : Unit} (h : (if l.contains c then (.ok () : Res Unit) else .err e) = .ok u) : c ∈ l := by
  split at h
  · rename_i hc; simpa using hc
  · cases h

theorem new_code {E : Env} {code : Str} {raw : List UInt8} {n : Nat} {m : Matter} (hc : (code, n) ∈ Spec.fixedCodes)
    (h : Matter.new E (some code) (some raw) none none none = .ok m) : m.code = code := by
  obtain ⟨z, hz, hf, _⟩ := fixed_sizage hc
  rw [show Matter.new E (some code) (some raw) none none none = newWithCodeAndRaw code raw from rfl, new_fixed hz hf] at h
  split at h
  · cases h
  · injection h with h
    rw [← h]

/-- C54. Keys, digests, SAIDs, signatures, indexed signatures, private keys, date-times, sequence numbers, texts and paths have codes of their type,
whatever the arguments of their constructors. -/
theorem C54_codes_checked :
    (∀ code raw qb64b qb64 qb2 m, Verfer.new E code raw qb64b qb64 qb2 = .ok m → m.code ∈ Spec.Typed.keyCodes) ∧
    (∀ ser code raw qb64b qb64 qb2 m, Diger.new E H ser code raw qb64b qb64 qb2 = .ok m → m.code ∈ Spec.Typed.digestCodes) ∧
    (∀ sad label kind ignore code raw qb64b qb64 qb2 m, Saider.new E H sad label kind ignore code raw qb64b qb64 qb2 = .ok m →
      m.code ∈ Spec.Typed.digestCodes) ∧
    (∀ v code raw qb64b qb64 qb2 c, Cigar.new E v code raw qb64b qb64 qb2 = .ok c → c.matter.code ∈ Spec.Typed.sigCodes) ∧
    (∀ v i o code raw qb64b qb64 qb2 x, Siger.new E v i o code raw qb64b qb64 qb2 = .ok x → x.indexer.code ∈ Spec.Typed.indexedSigCodes) ∧
    (∀ r t code raw qb64b qb64 qb2 s, Signer.new E C r t code raw qb64b qb64 qb2 = .ok s →
      s.matter.code ∈ Spec.Typed.seedCodes ∧ s.verfer.code ∈ Spec.Typed.keyCodes) ∧
    (∀ now dts code raw qb64b qb64 qb2 m, Dater.new E now dts code raw qb64b qb64 qb2 = .ok m → m.code ∈ Spec.Typed.dateCodes) ∧
    (∀ sn snh code raw qb64b qb64 qb2 m, Seqner.new E sn snh code raw qb64b qb64 qb2 = .ok m → m.code ∈ Spec.Typed.seqnerCodes) ∧
    (∀ bext code raw qb64b qb64 qb2 m, Bexter.new E bext code raw qb64b qb64 qb2 = .ok m → m.code ∈ Spec.Typed.textCodes) ∧
    (∀ path bext code raw qb64b qb64 qb2 m, Pather.new E path bext code raw qb64b qb64 qb2 = .ok m → m.code ∈ Spec.Typed.textCodes) := by
  refine ⟨?_, ?_, ?_, ?_, ?_, ?_, ?_, ?_, ?_, ?_⟩
  · intro code raw qb64b qb64 qb2 m h
    unfold Verfer.new at h
    simp only [Res.bind_eq_ok] at h
    obtain ⟨m', _, _, hv, h⟩ := h
    injection h with h
    subst h
    exact contains_mem hv
  · intro ser code raw qb64b qb64 qb2 m h
    unfold Diger.new at h
    split at h
    · cases h
    · simp only [Res.bind_eq_ok] at h
      obtain ⟨_, hv, h⟩ := h
      injection h with h
      subst h
      exact contains_mem hv
    · split at h
      · simp only [Res.bind_eq_ok] at h
        obtain ⟨_, hv, d, hd, h⟩ := h
        obtain ⟨n, hn⟩ := validateDigestCode_ok.mp hv
        have hc := contains_mem hv
        have : ∀ e ∈ digestSizes, e ∈ Spec.fixedCodes := by decide +kernel
        rw [new_code (this _ hn) h]
        exact hc
      · cases h
  · intro sad label kind ignore code raw qb64b qb64 qb2 m h
    unfold Saider.new at h
    split at h
    · simp only [Res.bind_eq_ok] at h
      obtain ⟨⟨code', raw'⟩, hcr, h⟩ := h
      have hv : ∃ u, validateDigestCode code' = .ok u := by
        split at hcr
        · simp only [Res.bind_eq_ok] at hcr
          obtain ⟨u, hv, h⟩ := hcr
          simp only [Res.ok.injEq, Prod.mk.injEq] at h
          exact ⟨u, by rw [← h.1]; exact hv⟩
        · split at hcr
          · cases hcr
          · simp only [Res.bind_eq_ok] at hcr
            obtain ⟨map, _, hcr⟩ := hcr
            split at hcr
            · cases hcr
            · simp only [Res.bind_eq_ok] at hcr
              obtain ⟨code'', _, u, hv, ⟨r', s'⟩, _, h⟩ := hcr
              simp only [Res.ok.injEq, Prod.mk.injEq] at h
              exact ⟨u, by rw [← h.1]; exact hv⟩
      obtain ⟨u, hv⟩ := hv
      obtain ⟨n, hn⟩ := validateDigestCode_ok.mp hv
      have : ∀ e ∈ digestSizes, e ∈ Spec.fixedCodes := by decide +kernel
      rw [new_code (this _ hn) h]
      exact contains_mem hv
    · simp only [Res.bind_eq_ok] at h
      obtain ⟨m', _, _, hv, h⟩ := h
      injection h with h
      subst h
      exact contains_mem hv
  · intro v code raw qb64b qb64 qb2 c h
    unfold Cigar.new at h
    simp only [Res.bind_eq_ok] at h
    obtain ⟨m', _, _, hv, h⟩ := h
    injection h with h
    subst h
    exact contains_mem hv
  · intro v i o code raw qb64b qb64 qb2 x h
    unfold Siger.new at h
    simp only [Res.bind_eq_ok] at h
    obtain ⟨m', _, _, hv, h⟩ := h
    injection h with h
    subst h
    exact contains_mem hv
  · intro r t code raw qb64b qb64 qb2 s h
    obtain ⟨c, ok, _⟩ := Signer.new_ok h
    have : ∀ t', (schemeOf c).seed ∈ Spec.Typed.seedCodes ∧ keyCode c t' ∈ Spec.Typed.keyCodes := by
      intro t'; cases c <;> cases t' <;> decide +kernel
    rw [ok.code, ok.verfer]
    exact this _
  · intro now dts code raw qb64b qb64 qb2 m h
    unfold Dater.new at h
    simp only [Res.bind_eq_ok] at h
    obtain ⟨m', _, h⟩ := h
    split at h
    · rename_i hc
      injection h with h
      subst h
      rw [hc]
      decide +kernel
    · cases h
  · intro sn snh code raw qb64b qb64 qb2 m h
    unfold Seqner.new at h
    simp only [Res.bind_eq_ok] at h
    obtain ⟨_, _, m', _, h⟩ := h
    split at h
    · rename_i hc
      injection h with h
      subst h
      rw [hc]
      decide +kernel
    · cases h
  · intro bext code raw qb64b qb64 qb2 m h
    unfold Bexter.new at h
    split at h
    · cases h
    · simp only [Res.bind_eq_ok] at h
      obtain ⟨m', _, h⟩ := h
      split at h
      · rename_i hc
        injection h with h
        subst h
        simpa [Bexter.hasCode, Spec.Typed.textCodes] using hc
      · cases h
  · intro path bext code raw qb64b qb64 qb2 m h
    unfold Pather.new at h
    simp only [Res.bind_eq_ok] at h
    obtain ⟨m', _, h⟩ := h
    split at h
    · rename_i hc
      injection h with h
      subst h
      simpa [Bexter.hasCode, Spec.Typed.textCodes] using hc
    · cases h

/-- C54. Numbers, salts and prefixes have codes of their type unless they are read from text or binary. -/
theorem C54_codes_built :
    (∀ num numh code raw m, Number.new E num numh code raw none none none = .ok m → m.code ∈ Spec.Typed.numberCodes) ∧
    (∀ rnd tier code raw s, Salter.new E rnd tier code raw none none none = .ok s → s.matter.code ∈ Spec.Typed.saltCodes) ∧
    (∀ ked allows code raw m, Prefixer.new E H ked allows code raw none none none = .ok m → m.code ∈ Spec.Typed.prefixCodes) := by
  refine ⟨?_, ?_, ?_⟩
  · intro num numh code raw m h
    have hall : ∀ c ∈ Spec.Typed.numberCodes, ∃ n ∈ [2, 4, 8, 16], (c, n) ∈ Spec.fixedCodes := by decide +kernel
    unfold Number.new at h
    split at h
    · simp only [Res.bind_eq_ok] at h
      obtain ⟨n, _, h⟩ := h
      have hc : Number.codeFor n ∈ Spec.Typed.numberCodes := by
        unfold Number.codeFor
        split
        · decide +kernel
        · split
          · decide +kernel
          · split <;> decide +kernel
      obtain ⟨k, _, hk⟩ := hall _ hc
      rw [new_code hk h]
      exact hc
    · simp only at h
      split at h
      · rename_i hh
        have hc : code.getD (lit "M") ∈ Spec.Typed.numberCodes := by simpa [Number.hasCode, Spec.Typed.numberCodes] using hh
        obtain ⟨k, _, hk⟩ := hall _ hc
        cases raw with
        | none => cases h
        | some raw =>
          rw [new_code hk h]
          exact hc
      · cases h
  · intro rnd tier code raw s h
    unfold Salter.new at h
    simp only at h
    split at h
    · cases h
    · rename_i hc
      have hc := Decidable.not_not.mp hc
      have h16 : (lit "0A", 16) ∈ Spec.fixedCodes := by decide +kernel
      rw [hc] at h
      simp only [Res.bind_eq_ok] at h
      obtain ⟨m, hm, h⟩ := h
      injection h with h
      have : m.code = lit "0A" := by
        split at hm
        · exact new_code h16 hm
        · cases raw with
          | none => cases hm
          | some raw => exact new_code h16 hm
      rw [← h]
      show m.code ∈ _
      rw [this]
      decide +kernel
  · intro ked allows code raw m h
    have hcodes : ∀ c ∈ Prefixer.nontransferableCodes ++ Prefixer.transferableCodes ++ Prefixer.digestCodes,
        c ∈ Spec.Typed.prefixCodes ∧ ∃ n ∈ [32, 33, 64], (c, n) ∈ Spec.fixedCodes := by decide +kernel
    unfold Prefixer.new at h
    split at h
    · simp only [Res.bind_eq_ok] at h
      obtain ⟨u, hv, h⟩ := h
      cases raw with
      | none => cases h
      | some raw =>
        cases code with
        | none => cases h
        | some code =>
          obtain ⟨h1, n, _, hn⟩ := hcodes _ (Prefixer.validateCode_ok.mp hv)
          rw [new_code hn h]
          exact h1
    · cases ked with
      | none => cases h
      | some ked =>
        simp only [Res.bind_eq_ok] at h
        obtain ⟨b, _, h⟩ := h
        split at h
        · cases h
        · simp only [Res.bind_eq_ok] at h
          obtain ⟨code', _, u, hv, h⟩ := h
          split at h
          · cases h
          · simp only [Res.bind_eq_ok] at h
            obtain ⟨⟨raw', c'⟩, hd, h⟩ := h
            obtain ⟨h1, n, _, hn⟩ := hcodes _ (Prefixer.validateCode_ok.mp hv)
            have hc : c' = code' := by
              obtain ⟨o, ilk, _, _, _, hd⟩ := Prefixer.derive_eq.mp hd
              rcases hd with ⟨_, hd⟩ | ⟨_, hd⟩ | ⟨_, hd⟩
              · unfold Prefixer.deriveNontransferable at hd
                simp only [Res.bind_eq_ok] at hd
                obtain ⟨v, _, hd⟩ := hd
                split at hd
                · cases hd
                · rename_i hne
                  simp only [Res.bind_eq_ok] at hd
                  obtain ⟨_, _, _, _, _, _, hd⟩ := hd
                  simp only [Res.ok.injEq, Prod.mk.injEq] at hd
                  rw [← hd.2]
                  exact Decidable.not_not.mp hne
              · unfold Prefixer.deriveTransferable at hd
                simp only [Res.bind_eq_ok] at hd
                obtain ⟨v, _, hd⟩ := hd
                split at hd
                · cases hd
                · rename_i hne
                  simp only [Res.ok.injEq, Prod.mk.injEq] at hd
                  rw [← hd.2]
                  exact Decidable.not_not.mp hne
              · unfold Prefixer.deriveDigest at hd
                simp only [Res.bind_eq_ok] at hd
                obtain ⟨_, _, _, _, _, _, _, _, _, _, hd⟩ := hd
                simp only [Res.ok.injEq, Prod.mk.injEq] at hd
                exact hd.2.symm
            subst hc
            rw [new_code hn h]
            exact h1

/-- C54 (defect). Numbers, salts and prefixes that are read from text, bytes or binary are accepted with every code that a primitive can have. -/
theorem C54_parsed_unchecked (m : Matter) :
    (∀ x, (Number.new E none none none none none (some x) none = .ok m ↔ Matter.ofText E x = .ok m) ∧
      (Prefixer.new E H none none none none none (some x) none = .ok m ↔ Matter.ofText E x = .ok m) ∧
      ∀ rnd tier, (Salter.new E rnd tier none none none (some x) none = .ok ⟨m, tier.getD (lit "low")⟩ ↔ Matter.ofText E x = .ok m)) ∧
    (∀ x, (Number.new E none none none none (some x) none none = .ok m ↔ Matter.ofTextBytes E x = .ok m) ∧
      (Prefixer.new E H none none none none (some x) none none = .ok m ↔ Matter.ofTextBytes E x = .ok m) ∧
      ∀ rnd tier, (Salter.new E rnd tier none none (some x) none none = .ok ⟨m, tier.getD (lit "low")⟩ ↔ Matter.ofTextBytes E x = .ok m)) ∧
    (∀ b, (Number.new E none none none none none none (some b) = .ok m ↔ Matter.ofBinary E b = .ok m) ∧
      (Prefixer.new E H none none none none none none (some b) = .ok m ↔ Matter.ofBinary E b = .ok m) ∧
      ∀ rnd tier, (Salter.new E rnd tier none none none none (some b) = .ok ⟨m, tier.getD (lit "low")⟩ ↔ Matter.ofBinary E b = .ok m)) := by
  have salt : ∀ {f : Res Matter} {t : Str}, (do let m ← f; Res.ok (Salter.mk m t)) = .ok ⟨m, t⟩ ↔ f = .ok m := by
    intro f t
    rw [Res.bind_eq_ok]
    constructor
    · rintro ⟨a, ha, h⟩
      simp only [Res.ok.injEq, Salter.mk.injEq, and_true] at h
      rw [ha, h]
    · intro h
      exact ⟨m, h, rfl⟩
  exact ⟨fun x => ⟨Iff.rfl, Iff.rfl, fun _ _ => salt⟩, fun x => ⟨Iff.rfl, Iff.rfl, fun _ _ => salt⟩, fun x => ⟨Iff.rfl, Iff.rfl, fun _ _ => salt⟩⟩

/-- Non-vacuity, and the defect on a concrete text: an Ed25519 private key read as a number, as a salt and as a prefix. -/
example : ∃ m, Matter.ofText Env.debug (List.replicate 44 (ch 'A')) = .ok m ∧ m.code = lit "A" ∧ m.code ∉ Spec.Typed.numberCodes ∧
    m.code ∉ Spec.Typed.saltCodes ∧ m.code ∉ Spec.Typed.prefixCodes :=
  ⟨{ code := lit "A", size := 0, raw := List.replicate 32 0 }, by decide +kernel, rfl, by decide +kernel, by decide +kernel, by decide +kernel⟩
example : Verfer.new Env.debug none none none (some (lit "D" ++ List.replicate 43 (ch 'A'))) none = .ok { code := lit "D", size := 0, raw := List.replicate 32 0 } := by
  decide +kernel
example : Verfer.new Env.debug none none none (some (List.replicate 44 (ch 'A'))) none = .err .unexpectedCode := by decide +kernel

end
end Cesride
