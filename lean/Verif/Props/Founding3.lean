import Verif.Props.Founding2

/-! # Property C111, examples -/

namespace Cesride
namespace Builder
open Common Spec Tholder R32

variable {E : Env} {C : Crypto}

/-- C111. When all signers and all witnesses sign, the event is signed and witnessed. -/
theorem C111_everyone {signers next ws : List Signer} {delegator : Option Str} (h : Founders E C signers next ws delegator) (hl : signers.length ≤ 4095) (hwl : ws.length ≤ 4095)
    (F : Str → Option Str) (H : Hash) (rnd rnd' : Nat → Nat) :
    ∃ s im rm, found E F H signers next ws delegator = .ok s ∧ announce E C rnd signers s (List.range signers.length) = .ok im ∧
      witnessed E F H C rnd' ws s (List.range ws.length) = .ok rm ∧
      ∃ a c, acceptInception E F H C (im ++ rm) = .ok a ∧ a.event = s ∧ a.identified = true ∧ a.signed = true ∧ confirm E F H C a.event a.left = .ok c ∧ c.witnessed = true ∧ c.left = [] := by
  obtain ⟨s, im, rm, h1, h2, h3, h4⟩ := C111_accepted h F H rnd rnd' (positions := List.range signers.length) (wpositions := List.range ws.length) (by simp) (by simp) (by simpa using hl) (by simpa using hwl)
  obtain ⟨a, c, e1, e2, e3, _, e5, e6, _, e8, e9⟩ := h4 [] rfl (by simp)
  rw [List.append_nil] at e1
  have hc : ∀ n, (List.range n).toFinset.card = n := fun n => by rw [List.card_toFinset, List.Nodup.dedup List.nodup_range, List.length_range]
  refine ⟨s, im, rm, h1, h2, h3, a, c, e1, e2, e3, e5.mpr (by rw [hc]; omega), e6, e8.mpr ?_, e9⟩
  rw [hc]
  unfold witnessesNeeded
  split <;> omega

theorem example_made (g : Signer) (hg : g ∈ [signerA, signerB]) : MadeSigner Env.debug toy g := by
  simp only [List.mem_cons, List.not_mem_nil, or_false] at hg
  rcases hg with rfl | rfl
  · exact ⟨1, none, _, none, none, none, none, C65_generated Env.debug toy 1 none .ed25519⟩
  · exact ⟨2, none, _, none, none, none, none, C65_generated Env.debug toy 2 none .k1⟩

/-- The hypotheses are met: two signers, one next signer, two witnesses and a delegator. -/
theorem C111_example : Founders Env.debug toy [signerA, signerB] [signerB] [signerB, signerA] (some (lit "EAAA")) where
  made := by
    intro g hg
    refine example_made g ?_
    simp only [List.mem_append, List.mem_cons, List.not_mem_nil, or_false] at hg ⊢
    rcases hg with (hg | rfl) | rfl | rfl <;> simp_all
  nonempty := by simp
  fewSigners := by simp
  fewNext := by simp
  fewWitnesses := by simp
  distinct := by
    refine .cons (fun b hb => ?_) (.cons (fun b hb => by cases hb) .nil)
    simp only [List.mem_cons, List.not_mem_nil, or_false] at hb
    subst hb
    decide +kernel
  named := by
    rintro x ⟨⟩
    exact ⟨by decide +kernel, by decide⟩

/-- One of the two signers is enough, one of the two witnesses is not. -/
theorem C111_example_half : ∃ s im rm, found Env.debug (fun _ => none) zeroHash [signerA, signerB] [signerB] [signerB, signerA] (some (lit "EAAA")) = .ok s ∧
    announce Env.debug toy (fun _ => 5) [signerA, signerB] s [1, 1] = .ok im ∧ witnessed Env.debug (fun _ => none) zeroHash toy (fun _ => 6) [signerB, signerA] s [0] = .ok rm ∧
    ∃ a c, acceptInception Env.debug (fun _ => none) zeroHash toy (im ++ (rm ++ lit "{")) = .ok a ∧ a.event = s ∧ a.signers = [1] ∧ a.signed = true ∧
      confirm Env.debug (fun _ => none) zeroHash toy a.event a.left = .ok c ∧ c.witnesses = [0] ∧ c.witnessed = false ∧ c.left = lit "{" := by
  obtain ⟨s, im, rm, h1, h2, h3, h4⟩ := C111_accepted C111_example (fun _ => none) zeroHash (fun _ => 5) (fun _ => 6) (positions := [1, 1]) (wpositions := [0]) (by simp) (by simp) (by simp) (by simp)
  obtain ⟨a, c, e1, e2, e3, e4, e5, e6, e7, e8, e9⟩ := h4 (lit "{") (by decide +kernel) (by decide +kernel)
  refine ⟨s, im, rm, h1, h2, h3, a, c, e1, e2, e4, e5.mpr (by decide), e6, e7, ?_, e9⟩
  rw [Bool.eq_false_iff]
  intro hc
  exact absurd (e8.mp hc) (by decide)

end Builder
end Cesride
