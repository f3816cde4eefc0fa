import Verif.Model.Wasm
import Verif.Lemmas.KernelRfl
import Verif.Props.Prims
import Verif.Props.Tholder2
import Verif.Props.Sadder
import Verif.Props.Serder

/-! # Properties C68 and C69: numbers and documents through the JavaScript bindings -/

namespace Cesride
open Wasm

theorem fromU128_toU128 {n : Nat} (hn : n < 2 ^ 128) :
    fromU128 (toU128 n) = (n / 2 ^ 64 ||| n % 2 ^ 64) ∧ fromU128 (toU128 n) < 2 ^ 64 ∧ (n < 2 ^ 64 → fromU128 (toU128 n) = n) := by
  have h1 : n / 2 ^ 64 < 2 ^ 64 := by omega
  have h2 : n % 2 ^ 64 < 2 ^ 64 := by omega
  have e : fromU128 (toU128 n) = (n / 2 ^ 64 ||| n % 2 ^ 64) := by
    unfold fromU128 toU128
    rw [Nat.mod_eq_of_lt h1]
  refine ⟨e, by rw [e]; exact Nat.or_lt_two_pow h1 h2, ?_⟩
  intro h
  rw [e, Nat.div_eq_of_lt h, Nat.mod_eq_of_lt h, Nat.zero_or]

/-- C68. A number object read by `num` in JavaScript and built again from the result is the same exactly when the number is below 2^64; from there
on the high half is folded onto the low half. -/
theorem C68_number (E : Env) {n : Nat} (hn : n < 2 ^ 128) :
    ∃ x w y, Number.ofNum E n = .ok x ∧ numberNum x = .ok w ∧ numberOfNum E w = .ok y ∧ Number.num y = .ok (n / 2 ^ 64 ||| n % 2 ^ 64) ∧
      (y = x ↔ n < 2 ^ 64) := by
  obtain ⟨h1, h2, h3⟩ := fromU128_toU128 hn
  obtain ⟨x, _, _, _, x1, x2, _⟩ := C28_number_roundtrip E hn
  obtain ⟨y, _, _, _, y1, y2, _⟩ := C28_number_roundtrip E (n := fromU128 (toU128 n)) (by omega)
  refine ⟨x, toU128 n, y, x1, by rw [numberNum, x2]; rfl, y1, by rw [y2, h1], ?_, ?_⟩
  · rintro rfl
    rw [x2] at y2
    have y2 := Res.ok.inj y2
    omega
  · intro h
    rw [h3 h, x1] at y1
    exact (Res.ok.inj y1).symm

/-- C68. The same for sequence numbers. -/
theorem C68_seqner (E : Env) {n : Nat} (hn : n < 2 ^ 128) :
    ∃ x w y, Seqner.ofSn E n = .ok x ∧ seqnerSn x = .ok w ∧ seqnerOfSn E w = .ok y ∧ Seqner.sn y = .ok (n / 2 ^ 64 ||| n % 2 ^ 64) ∧
      (y = x ↔ n < 2 ^ 64) := by
  obtain ⟨h1, h2, h3⟩ := fromU128_toU128 hn
  obtain ⟨x, _, _, _, x1, x2, _⟩ := C29_seqner_roundtrip E hn
  obtain ⟨y, _, _, _, y1, y2, _⟩ := C29_seqner_roundtrip E (n := fromU128 (toU128 n)) (by omega)
  refine ⟨x, toU128 n, y, x1, by rw [seqnerSn, x2]; rfl, y1, by rw [y2, h1], ?_, ?_⟩
  · rintro rfl
    rw [x2] at y2
    have y2 := Res.ok.inj y2
    omega
  · intro h
    rw [h3 h, x1] at y1
    exact (Res.ok.inj y1).symm

/-- C68. The sequence number of an event, handed to JavaScript and back into a sequence number object. -/
theorem C68_event (E : Env) {s : Sadder} {n : Nat} (h : Serder.sn E s = .ok n) (hn : n < 2 ^ 128) :
    ∃ w y, serderSn E s = .ok w ∧ seqnerOfSn E w = .ok y ∧ (Seqner.sn y = .ok n ↔ n < 2 ^ 64) := by
  obtain ⟨x, w, y, x1, x2, y1, y2, _⟩ := C68_seqner E hn
  obtain ⟨_, h2, h3⟩ := fromU128_toU128 hn
  obtain ⟨x', _, _, _, z1, z2, _⟩ := C29_seqner_roundtrip E hn
  rw [x1] at z1
  have z1 := Res.ok.inj z1
  subst z1
  have hw : w = toU128 n := by
    rw [seqnerSn, z2] at x2
    exact (Res.ok.inj x2).symm
  refine ⟨w, y, by rw [serderSn, h, hw]; rfl, y1, ?_⟩
  rw [y2, ← (fromU128_toU128 hn).1]
  constructor
  · intro h; have h := Res.ok.inj h; omega
  · intro h; rw [h3 h]

example : Number.num { code := lit "0A", size := 0, raw := toBe 16 (2 ^ 64) } = .ok (2 ^ 64) ∧
    fromU128 (toU128 (2 ^ 64)) = 1 ∧ fromU128 (toU128 (2 ^ 64 + 5)) = 5 := by
  decide +kernel

/-- C69. A document is what its text parses to; a text that does not parse panics, so no call with a document ever reports a malformed one as an
error. A printed document is the document when it is not nested too deeply. -/
theorem C69_document (F : Str → Option Str) :
    (∀ t v, toValue F t = .ok v ↔ Json.fromStr F t = .ok v) ∧
    (∀ t, (∀ v, Json.fromStr F t ≠ .ok v) → toValue F t = .panic) ∧
    (∀ v, Spec.Plain v → Spec.FloatsRead F v → toValue F v.toJson = if Spec.depth v < 128 then .ok v else .panic) := by
  have h : ∀ t, toValue F t = unwrap (Json.fromStr F t) := fun _ => rfl
  refine ⟨?_, ?_, ?_⟩
  · intro t v
    rw [h]
    cases Json.fromStr F t <;> simp [unwrap]
  · intro t ht
    rw [h]
    cases e : Json.fromStr F t with
    | ok v => exact absurd e (ht v)
    | err _ => rfl
    | panic => rfl
  · intro v hv hF
    rw [h, C39_roundtrip F hv hF]
    split <;> rfl

/-- C69. Checking a printed document gives the library's verdict. -/
theorem C69_checks (E : Env) (F : Str → Option Str) (H : Hash) (m : Matter) {v : Value} (hv : Spec.Plain v) (hF : Spec.FloatsRead F v) (hd : Spec.depth v < 128) :
    (∀ prefixed versioned kind label ignore, saiderVerify E F H m v.toJson prefixed versioned kind label ignore =
      Saider.verify E H m v prefixed versioned kind label (names ignore)) ∧
    (∀ prefixed, prefixerVerify E F H m v.toJson prefixed = Prefixer.verify E H m v prefixed) ∧
    (∀ code raw kind sad, serderNew E F H code raw kind (some v.toJson) sad = Serder.new E F H code raw kind (some v) sad) := by
  have h := (C69_document F).2.2 v hv hF
  rw [if_pos hd] at h
  refine ⟨?_, ?_, ?_⟩
  · intros; rw [saiderVerify, h]; rfl
  · intros; rw [prefixerVerify, h]; rfl
  · intros; rw [serderNew, toValueOpt, h]; rfl

theorem saidify_obj {E : Env} {H : Hash} {v : Value} {code kind label : Option Str} {ignore : Option (List Str)} {m : Matter} {sad : Value}
    (h : Saider.saidify E H v code kind label ignore = .ok (m, sad)) : ∃ o, sad = .obj o := by
  unfold Saider.saidify at h
  obtain ⟨_, _, h⟩ := Res.bind_eq_ok.mp h
  split at h
  · cases h
  · obtain ⟨⟨_, d⟩, _, h⟩ := Res.bind_eq_ok.mp h
    obtain ⟨_, _, h⟩ := Res.bind_eq_ok.mp h
    obtain ⟨_, _, h⟩ := Res.bind_eq_ok.mp h
    obtain ⟨x, hx, h⟩ := Res.bind_eq_ok.mp h
    injection h with h
    injection h with _ h
    subst h
    cases d <;> simp [Value.set] at hx
    exact ⟨_, hx.symm⟩

/-- C69, the defect: `saidify` never succeeds in JavaScript, and panics exactly when the library panics or succeeds (or the text does not parse). -/
theorem C69_saidify_defect (E : Env) (F : Str → Option Str) (H : Hash) (t : Str) (code kind label : Option Str) (ignore : Option (List JsVal)) :
    (∀ r, Wasm.saidify E F H t code kind label ignore ≠ .ok r) ∧
    (∀ v r, Json.fromStr F t = .ok v → Saider.saidify E H v code kind label (names ignore) = .ok r → Wasm.saidify E F H t code kind label ignore = .panic) ∧
    (∀ v e, Json.fromStr F t = .ok v → (Wasm.saidify E F H t code kind label ignore = .err e ↔ Saider.saidify E H v code kind label (names ignore) = .err e)) := by
  have key : ∀ v r, toValue F t = .ok v → Saider.saidify E H v code kind label (names ignore) = .ok r → Wasm.saidify E F H t code kind label ignore = .panic := by
    rintro v ⟨m, sad⟩ hv hr
    obtain ⟨o, rfl⟩ := saidify_obj hr
    unfold Wasm.saidify
    rw [hv, Res.ok_bind, hr, Res.ok_bind]
    rfl
  refine ⟨?_, ?_, ?_⟩
  · intro r h
    have h0 := h
    unfold Wasm.saidify at h
    obtain ⟨v, hv, h⟩ := Res.bind_eq_ok.mp h
    obtain ⟨x, hx, _⟩ := Res.bind_eq_ok.mp h
    rw [key v x hv hx] at h0
    cases h0
  · intro v r hv hr
    exact key v r (((C69_document F).1 t v).mpr hv) hr
  · intro v e hv
    have hv := ((C69_document F).1 t v).mpr hv
    cases hs : Saider.saidify E H v code kind label (names ignore) with
    | ok r => rw [key v r hv hs]; simp
    | err e' => unfold Wasm.saidify; rw [hv, Res.ok_bind, hs]; simp
    | panic => unfold Wasm.saidify; rw [hv, Res.ok_bind, hs]; simp

/-- C69, the defect: reading the map of a message in JavaScript panics for every message there is. -/
theorem C69_ked_defect {E : Env} {F : Str → Option Str} {H : Hash} {code kind : Option Str} {raw : Option (List UInt8)} {ked : Option Str} {s : Sadder} :
    (serderNew E F H code raw kind ked none = .ok s → serderKed s = .panic) ∧
    (∀ s0, raw = none → ked = none → serderNew E F H code raw kind ked (some s0) = .ok s → serderKed s0 = .panic → serderKed s = .panic) := by
  constructor
  · intro h
    unfold serderNew at h
    obtain ⟨v, _, h⟩ := Res.bind_eq_ok.mp h
    obtain ⟨o, _, _, ho, _⟩ := C45_said_field (.inl h)
    rw [serderKed, ho]
    rfl
  · rintro s0 rfl rfl h h0
    unfold serderNew toValueOpt at h
    rw [Res.ok_bind] at h
    have := (Serder.new_ok.mp h).1
    have e : s0 = s := by injection this
    rw [← e, h0]

/-- C69. A threshold shown in JavaScript and built again from what was shown is the same threshold. -/
theorem C69_threshold {E : Env} {F : Str → Option Str} {a : Option Value} {b : Option (List UInt8)} {c : Option Value} {t : Tholder}
    (h : Tholder.new E F a b c = .ok t) :
    tholderNew E F (some (tholderThold t)) none none = .ok t ∧
    (t.thold ≠ .arr [] → ∃ s, tholderSith t = .ok s ∧ tholderNew E F none none (some s) = .ok t) := by
  constructor
  · have hp : Spec.Plain t.thold ∧ Spec.depth t.thold < 128 ∧ Spec.FloatsRead F t.thold := by
      rcases Tholder.new_shaped h with ⟨n, hm⟩ | ⟨cs, hw⟩
      · have := hm.fits
        rw [hm.thold]
        refine ⟨?_, by simp [Spec.depth], Spec.floatsRead_of_noFloats F rfl⟩
        simp only [Spec.Plain]
        omega
      · rw [hw.thold]
        refine ⟨plain_stored _ _, ?_, floatsRead_stored _ _⟩
        have := depth_stored (Tholder.weightText (ch '/')) (Tholder.reps cs)
        simp only [Tholder.storedValue, Spec.depth]
        omega
    have hv := (C69_document F).2.2 _ hp.1 hp.2.2
    rw [if_pos hp.2.1] at hv
    unfold tholderNew tholderThold
    rw [show toValueOpt F (some t.thold.toJson) = .ok (some t.thold) by rw [toValueOpt, hv]; rfl]
    exact C37_thold h
  · intro hs
    obtain ⟨s, j, h1, h2, h3, h4, _⟩ := C37_json h hs
    have hj : j = s.toJson := by
      rw [Tholder.toJson, h1] at h2
      injection h2 with h2
      exact h2.symm
    subst hj
    refine ⟨s.toJson, by rw [tholderSith, h1]; rfl, ?_⟩
    unfold tholderNew
    rw [show toValueOpt F (some s.toJson) = .ok (some s) by rw [toValueOpt, ((C69_document F).1 _ _).mpr h3]; rfl]
    exact h4

/-! Non-trivial cases: a document that the library can give a SAID, an existing message. -/

example : ∃ m sad, Json.fromStr (fun _ => none) (lit "{\"d\":\"\",\"x\":[1,2]}") = .ok (.obj [(lit "d", .str []), (lit "x", .arr [.int 1, .int 2])]) ∧
    Saider.saidify Env.release zeroHash (.obj [(lit "d", .str []), (lit "x", .arr [.int 1, .int 2])]) none none none none = .ok (m, sad) ∧
    Wasm.saidify Env.release (fun _ => none) zeroHash (lit "{\"d\":\"\",\"x\":[1,2]}") none none none none = .panic := by
  have h1 : Json.fromStr (fun _ => none) (lit "{\"d\":\"\",\"x\":[1,2]}") = .ok (.obj [(lit "d", .str []), (lit "x", .arr [.int 1, .int 2])]) := by
    kernel_rfl
  have h2 : Saider.saidify Env.release zeroHash (.obj [(lit "d", .str []), (lit "x", .arr [.int 1, .int 2])]) none none none none =
      .ok ({ code := lit "E", size := 0, raw := List.replicate 32 0 },
        .obj [(lit "d", .str (ch 'E' :: List.replicate 43 (ch 'A'))), (lit "x", .arr [.int 1, .int 2])]) := by
    kernel_rfl
  exact ⟨_, _, h1, h2, (C69_saidify_defect ..).2.1 _ _ h1 h2⟩

end Cesride
