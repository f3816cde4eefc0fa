import Verif.Props.JsonRead
namespace Cesride
open Spec

/-- C59: the shorthand constructors of events and credentials. From a map: the digest code asked for is that of the SAID in the map (Blake3-256 when
none is asked for), the kind is JSON, the protocol that of the class. From bytes: as if no code had been asked for. -/
theorem C59_shorthand (E : Env) (F : Str → Option Str) (H : Hash) (ked : Value) (code kind : Option Str) (raw : List UInt8) (s : Sadder) :
    (Serder.newWithKed E F H ked code kind = .ok s → s.code = code.getD (lit "E") ∧ s.saider.code = code.getD (lit "E") ∧ (kind = none ∨ kind = some (lit "JSON")) ∧
      s.kind = lit "JSON" ∧ s.ident = lit "KERI") ∧
    (Creder.newWithKed E F H ked code kind = .ok s → s.code = code.getD (lit "E") ∧ s.saider.code = code.getD (lit "E") ∧ (kind = none ∨ kind = some (lit "JSON")) ∧
      s.kind = lit "JSON" ∧ s.ident = lit "ACDC") ∧
    (Serder.newWithRaw E F H raw = .ok s ↔ ∃ size o m, IsMessage E F H (lit "KERI") (lit "E") raw size o m ∧
      s = { code := lit "E", raw := raw.take size, ked := .obj o, ident := lit "KERI", kind := lit "JSON", size := size, version := ⟨1, 0⟩, saider := m }) ∧
    (Creder.newWithRaw E F H raw = .ok s ↔ ∃ size o m, IsMessage E F H (lit "ACDC") (lit "E") raw size o m ∧
      s = { code := lit "E", raw := raw.take size, ked := .obj o, ident := lit "ACDC", kind := lit "JSON", size := size, version := ⟨1, 0⟩, saider := m }) := by
  have aux : ∀ {dflt : Sadder} {k : Option Str}, Sadder.new E F H dflt code none k (some ked) none = .ok s →
      s.code = code.getD (lit "E") ∧ s.saider.code = code.getD (lit "E") ∧ (k = none ∨ k = some (lit "JSON")) ∧ s.kind = lit "JSON" := by
    intro dflt k h
    obtain ⟨r, m, hr, _, hc, rfl⟩ := Sadder.new_ked_ok.mp h
    obtain ⟨o1, o2, vs, i, sz, rfl, hv, ht, hi, hk⟩ := Common.sizeify_ok hr
    have hr' := Common.sizeify_eq hv ht hi hk (o2 := o2)
    dsimp only at hr'
    rw [hr] at hr'
    refine ⟨rfl, hc, ?_, ?_⟩
    · cases k with
      | none => exact .inl rfl
      | some k => right; simpa using hk
    · split at hr'
      · rw [Res.ok.inj hr']
      · cases hr'
  refine ⟨fun h => ?_, fun h => ?_, C82_serder E F H none none raw none none s, C82_creder E F H none none raw none none s⟩
  · obtain ⟨h1, h2⟩ := Serder.new_ok.mp h
    obtain ⟨a, b, c, d⟩ := aux h1
    exact ⟨a, b, c, d, h2⟩
  · obtain ⟨h1, h2⟩ := Creder.new_ok.mp h
    obtain ⟨a, b, c, d⟩ := aux h1
    exact ⟨a, b, c, d, h2⟩

end Cesride
