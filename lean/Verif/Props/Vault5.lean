import Verif.Props.Vault4

/-! # Property C110: a concrete exchange

Two keys of different kinds, threshold 2, two next keys, one witness; everything is computed by the model. -/

namespace Cesride
namespace Builder
open Common Spec Tholder

/-- The value of a call that succeeds. -/
def got {α : Type} (dflt : α) : Res α → α
  | .ok x => x
  | _ => dflt

theorem got_ok {α : Type} {dflt : α} {r : Res α} (h : r.isOk = true) : r = .ok (got dflt r) := by
  cases r with
  | ok x => rfl
  | err e => cases h
  | panic => cases h

def exampleIncept : Res Sadder :=
  incept Env.debug (fun _ => none) zeroHash keyTexts (some (.int 2)) (some [zeroSaid, zeroSaid]) none (some 1) (some (keyTexts.take 1)) none none none none (some (lit "E")) none none

def exampleEvent : Sadder := got sampleSigned exampleIncept

def exampleReceipt : Sadder := got sampleSigned (receipt Env.debug (fun _ => none) zeroHash (got [] (Serder.pre exampleEvent)) 0 (got [] (exampleEvent.said Env.debug)) none none)

def exampleMessage : Str := got [] (messagize Env.debug exampleEvent (some [sigB, sigA, sigB]) none none none)

def exampleConfirmation : Str := got [] (messagize Env.debug exampleReceipt none none (some [sigA]) none)

/-- The hypotheses of the theorems about exchanges are met: both keys sign (one of them twice), the witness signs, and the receiver finds all of it. -/
theorem C110_example : ∃ th, Serder.tholder Env.debug (fun _ => none) exampleEvent = .ok (some th) ∧
    ∃ a c, acceptInception Env.debug (fun _ => none) zeroHash toy (exampleMessage ++ (exampleConfirmation ++ lit "{\"v\"")) = .ok a ∧ a.event = exampleEvent ∧ a.identified = true ∧
      a.signers = [0, 1] ∧ a.signed = true ∧ confirm Env.debug (fun _ => none) zeroHash toy a.event a.left = .ok c ∧ c.receipt = exampleReceipt ∧ c.witnesses = [0] ∧ c.witnessed = true ∧
      c.left = lit "{\"v\"" := by
  have h : incept Env.debug (fun _ => none) zeroHash keyTexts (some (.int 2)) (some [zeroSaid, zeroSaid]) none (some 1) (some (keyTexts.take 1)) none none none none (some (lit "E")) none none =
      .ok exampleEvent := got_ok (by decide +kernel)
  have hpre : Serder.pre exampleEvent = .ok (got [] (Serder.pre exampleEvent)) := got_ok (by decide +kernel)
  have hsaid : exampleEvent.said Env.debug = .ok (got [] (exampleEvent.said Env.debug)) := got_ok (by decide +kernel)
  have hr : receipt Env.debug (fun _ => none) zeroHash (got [] (Serder.pre exampleEvent)) 0 (got [] (exampleEvent.said Env.debug)) none none = .ok exampleReceipt := got_ok (by decide +kernel)
  have hm : messagize Env.debug exampleEvent (some [sigB, sigA, sigB]) none none none = .ok exampleMessage := got_ok (by decide +kernel)
  have hrm : messagize Env.debug exampleReceipt none none (some [sigA]) none = .ok exampleConfirmation := got_ok (by decide +kernel)
  have made : ∀ g ∈ [signerA, signerB], MadeSigner Env.debug toy g := by
    intro g hg
    simp only [List.mem_cons, List.not_mem_nil, or_false] at hg
    rcases hg with rfl | rfl
    · exact ⟨1, none, _, none, none, none, none, C65_generated Env.debug toy 1 none .ed25519⟩
    · exact ⟨2, none, _, none, none, none, none, C65_generated Env.debug toy 2 none .k1⟩
  have signed : ∀ ser, SignedBy Env.debug toy [signerA, signerB] ser [sigB, sigA, sigB] := by
    intro ser y hy
    simp only [List.mem_cons, List.not_mem_nil, or_false] at hy
    rcases hy with rfl | rfl | rfl
    · exact ⟨signerB, false, none, 4, rfl, (by decide +kernel : Signer.signIndexed Env.debug toy signerB [] false 1 none 4 = .ok sigB)⟩
    · exact ⟨signerA, false, none, 3, rfl, (by decide +kernel : Signer.signIndexed Env.debug toy signerA [] false 0 none 3 = .ok sigA)⟩
    · exact ⟨signerB, false, none, 4, rfl, (by decide +kernel : Signer.signIndexed Env.debug toy signerB [] false 1 none 4 = .ok sigB)⟩
  have wsigned : ∀ ser, SignedBy Env.debug toy [signerA] ser [sigA] := by
    intro ser y hy
    simp only [List.mem_cons, List.not_mem_nil, or_false] at hy
    subst hy
    exact ⟨signerA, false, none, 3, rfl, (by decide +kernel : Signer.signIndexed Env.debug toy signerA [] false 0 none 3 = .ok sigA)⟩
  have hk : KeysOf Env.debug toy [signerA, signerB] keyTexts := ⟨made, .cons (by decide +kernel) (.cons (by decide +kernel) .nil)⟩
  have hw : KeysOf Env.debug toy [signerA] ((some (keyTexts.take 1)).getD []) := ⟨fun g hg => made g (by simp at hg; simp [hg]), .cons (by decide +kernel) .nil⟩
  obtain ⟨th, n, h1, h2, hask, h3⟩ := C110_exchange h (by decide +kernel) (by intro v hv; cases hv) (by decide +kernel) (by rintro m ⟨⟩; decide) hk hw (.inr (.inl ⟨_, by decide +kernel, rfl⟩))
    (signed _) (wsigned _) (by decide) (by decide) (by decide) hm hpre hsaid hr (by decide +kernel) hrm
  obtain ⟨th', t1, t2, t3⟩ := C110_enough h
  obtain rfl : th' = th := by rw [h1] at t1; cases t1; rfl
  have hnum : th'.num = .ok (some 2) := by
    obtain ⟨t, _, u1, _, u3, _⟩ := C108_thresholds h
    obtain rfl : th' = t := by rw [h1] at u1; cases u1; rfl
    obtain ⟨z, hz, hz', _⟩ := number_thold Env.debug (fun _ => none) (n := 2) (by omega)
    have := u3 _ rfl
    rw [show (Value.int 2) = .int ((2 : Nat) : Int) from rfl, hz] at this
    cases this
    exact hz'
  have hsat := (t2 2 hnum).2.2 ([sigB, sigA, sigB].map (·.indexer.index)).dedup (List.nodup_dedup _)
  obtain ⟨a, c, e1, e2, e3, e4, e5, e6, e7, e8, e9, e10⟩ := h3 _ hsat (lit "{\"v\"") (by decide +kernel) (by decide +kernel)
  have hd : ([sigB, sigA, sigB].map (·.indexer.index)).dedup = [0, 1] := by decide +kernel
  have hn : n = 1 := hask.1 1 rfl
  subst hn
  exact ⟨th', h1, a, c, e1, e2, e3, by rw [e4, hd], by rw [e5, hd]; rfl, e6, e7, by rw [e8]; decide +kernel, e9.mpr (by decide +kernel), e10⟩

end Builder
end Cesride
