import Verif.Props.Typed
import Verif.Spec.Args

/-! # Property C66: which primitives are digests and which keys can be rotated -/

namespace Cesride

/-- C66. `digestive` tells exactly the primitives that a digest object can be and that can check data. -/
theorem C66_digestive (E : Env) (H : Hash) (m : Matter) :
    (m.digestive = true ↔ m.code ∈ Spec.Typed.digestCodes) ∧
    (∀ ser, (m.digestive = true ↔ ∃ b, Diger.verify H m ser = .ok b) ∧ Diger.verify H m ser ≠ .panic) ∧
    (∀ t, Matter.ofText E t = .ok m → (m.digestive = true ↔ Diger.new E H none none none none (some t) none = .ok m)) := by
  have h1 : m.digestive = true ↔ m.code ∈ Spec.Typed.digestCodes := by
    simp only [Matter.digestive, Spec.Typed.digestCodes, List.contains_iff_mem, List.mem_cons, List.not_mem_nil, or_false]
    grind
  refine ⟨h1, ?_, ?_⟩
  · intro ser
    rw [h1]
    have hk : (digestSizes.map Prod.fst).contains m.code = true ↔ m.code ∈ Spec.Typed.digestCodes := by
      rw [List.contains_iff_mem]
      rfl
    unfold Diger.verify hashDigest
    by_cases hc : m.code ∈ Spec.Typed.digestCodes
    · rw [if_pos (hk.mpr hc)]
      exact ⟨⟨fun _ => ⟨_, rfl⟩, fun _ => hc⟩, by simp⟩
    · rw [if_neg (fun h => hc (hk.mp h))]
      exact ⟨⟨fun h => absurd h hc, by rintro ⟨b, hb⟩; cases hb⟩, by simp⟩
  · intro t ht
    rw [h1]
    have e : Diger.new E H none none none none (some t) none = (match Matter.ofText E t with
      | .panic => .panic
      | .ok diger => do validateDigestCode diger.code; .ok diger
      | .err _ => .err .validation) := rfl
    rw [e, ht]
    show _ ↔ (do validateDigestCode m.code; Res.ok m) = _
    constructor
    · intro hc
      unfold validateDigestCode
      rw [if_pos (by rw [List.contains_iff_mem]; exact hc)]
      rfl
    · intro h
      obtain ⟨u, hu, _⟩ := Res.bind_eq_ok.mp h
      exact contains_mem hu

/-- C66. `transferable` is false exactly for the codes of public keys that cannot be rotated. -/
theorem C66_transferable (m : Matter) : m.transferable = false ↔ m.code ∈ Spec.fixedKeyCodes := by
  have : Spec.fixedKeyCodes = [lit "B", lit "1AAA", lit "1AAI", lit "1AAC"] := rfl
  rw [this]
  simp only [Matter.transferable, Bool.not_eq_false', List.contains_iff_mem, List.mem_cons, List.not_mem_nil, or_false]
  grind

/-- C66. Every key object is the transferable or the non-transferable key of one scheme, and `transferable` tells which; the key of a signer is
as it was asked for. -/
theorem C66_keys (E : Env) (C : Crypto) :
    (∀ code raw qb64b qb64 qb2 v, Verfer.new E code raw qb64b qb64 qb2 = .ok v →
      ∃ s ∈ Spec.schemes, if v.transferable then v.code = s.key else v.code = s.fixedKey) ∧
    (∀ r t code raw qb64b qb64 qb2 s, Signer.new E C r (some t) code raw qb64b qb64 qb2 = .ok s → s.verfer.transferable = t) := by
  refine ⟨?_, ?_⟩
  · intro code raw qb64b qb64 qb2 v h
    have hm : v.code ∈ Spec.Typed.keyCodes := by
      unfold Verfer.new at h
      simp only [Res.bind_eq_ok] at h
      obtain ⟨m', _, _, hv, h⟩ := h
      injection h with h
      subst h
      exact contains_mem hv
    have : ∀ c ∈ Spec.Typed.keyCodes, ∃ s ∈ Spec.schemes, if ({ code := c, size := 0, raw := [] } : Matter).transferable then c = s.key else c = s.fixedKey := by
      decide +kernel
    exact this _ hm
  · intro r t code raw qb64b qb64 qb2 s h
    obtain ⟨c, ok, _⟩ := Signer.new_ok h
    have : ∀ t', ({ code := keyCode c t', size := 0, raw := [] } : Matter).transferable = t' := by
      intro t'; cases c <;> cases t' <;> decide +kernel
    rw [ok.verfer]
    exact this t

/-! Non-trivial cases. -/

example : ({ code := lit "0G", size := 0, raw := [] } : Matter).digestive = true ∧ ({ code := lit "0I", size := 0, raw := [] } : Matter).digestive = false := by
  decide +kernel
example : ({ code := lit "1AAI", size := 0, raw := [] } : Matter).transferable = false ∧ ({ code := lit "1AAJ", size := 0, raw := [] } : Matter).transferable = true := by
  decide +kernel

/-- C66_keys: the same raw key under a transferable and a fixed code. -/
example : ∃ a b, Verfer.new Env.release (some (lit "D")) (some (List.replicate 32 7)) none none none = .ok a ∧ a.transferable = true ∧
    Verfer.new Env.release (some (lit "B")) (some (List.replicate 32 7)) none none none = .ok b ∧ b.transferable = false :=
  ⟨⟨lit "D", 0, List.replicate 32 7⟩, ⟨lit "B", 0, List.replicate 32 7⟩, by decide +kernel⟩

end Cesride
