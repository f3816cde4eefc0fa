import Verif.Props.Prefixer2
import Verif.Props.Short

/-! # C74: which prefix an event yields -/

namespace Cesride
open Spec

/-- C74. Without a code the code is that of the prefix in the field `i`, whose text may go on after the prefix. -/
theorem C74_code (E : Env) (H : Hash) (allows : Option (List Str)) :
    (∀ o, Prefixer.newWithKed E H (.obj o) allows none = (match o.lookup (lit "i") with
      | none => .err .validation
      | some (.str s) => (do let m ← Matter.ofText E s; Prefixer.newWithKed E H (.obj o) allows (some m.code))
      | some _ => .err .conversion)) ∧
    (∀ ked, (∀ o, ked ≠ .obj o) → Prefixer.newWithKed E H ked allows none = .err .conversion) := by
  refine ⟨?_, ?_⟩
  · intro o
    unfold Prefixer.newWithKed Prefixer.new
    simp only [Option.isSome_none, Bool.false_eq_true, or_self, if_false]
    rw [show (Value.obj o).toMap = .ok o from rfl]
    simp only [Res.ok_bind, Value.hasKey]
    cases hl : o.lookup (lit "i") with
    | none => rfl
    | some x =>
      rw [show (Value.obj o).index (lit "i") = .ok x from Sadder.index_ok.mpr ⟨o, rfl, hl⟩]
      simp only [Option.isSome_some, Bool.not_true, Bool.false_eq_true, if_false, Res.ok_bind]
      cases x with
      | str s =>
        rw [show (Value.str s).toStr = .ok s from rfl, Res.ok_bind]
        rw [show Matter.new E none none none (some s) none = Matter.ofText E s from rfl]
        simp only
        cases Matter.ofText E s <;> rfl
      | _ => rfl
  · intro ked hk
    cases ked with
    | obj o => exact absurd rfl (hk o)
    | _ => rfl

/-- C74. A code that is not one of a prefix, or not one of a non-empty list of allowed codes, is refused; otherwise the list has no influence. -/
theorem C74_allow (E : Env) (H : Hash) (ked : Value) (allows : Option (List Str)) (c : Str) :
    Prefixer.newWithKed E H ked allows (some c) =
      if c ∉ Spec.Typed.prefixCodes ∨ ∃ l, allows = some l ∧ l ≠ [] ∧ c ∉ l then .err .unexpectedCode else Prefixer.newWithKed E H ked none (some c) := by
  have hp : c ∈ Spec.Typed.prefixCodes ↔ c ∈ Prefixer.nontransferableCodes ++ Prefixer.transferableCodes ++ Prefixer.digestCodes := by
    simp only [Spec.Typed.prefixCodes, Spec.Typed.keyCodes, Spec.Typed.digestCodes, Prefixer.nontransferableCodes, Prefixer.transferableCodes,
      Prefixer.digestCodes, List.cons_append, List.nil_append, List.mem_cons, List.not_mem_nil, or_false]
    grind
  have red : ∀ a, Prefixer.newWithKed E H ked a (some c) = (do
      Prefixer.validateCode c
      if a.getD [] ≠ [] ∧ c ∉ a.getD [] then .err .unexpectedCode
      else do
        let (raw, code) ← Prefixer.derive E H ked c
        Matter.new E (some code) (some raw) none none none) := fun a => rfl
  rw [red, red none]
  by_cases hc : c ∈ Spec.Typed.prefixCodes
  · rw [Prefixer.validateCode_ok (u := ()).mpr (hp.mp hc), Res.ok_bind, Res.ok_bind]
    have e : (c ∉ Spec.Typed.prefixCodes ∨ ∃ l, allows = some l ∧ l ≠ [] ∧ c ∉ l) ↔ (allows.getD [] ≠ [] ∧ c ∉ allows.getD []) := by
      cases allows <;> simp [hc]
    by_cases h : allows.getD [] ≠ [] ∧ c ∉ allows.getD []
    · rw [if_pos (e.mpr h), if_pos h]
    · rw [if_neg (fun h' => h (e.mp h')), if_neg h, if_neg (by simp)]
  · have hor : c ∉ Spec.Typed.prefixCodes ∨ ∃ l, allows = some l ∧ l ≠ [] ∧ c ∉ l := .inl hc
    rw [if_pos hor]
    have : Prefixer.validateCode c = .err .unexpectedCode := by
      cases hv : Prefixer.validateCode c with
      | ok u => exact absurd (hp.mpr (Prefixer.validateCode_ok.mp hv)) hc
      | err e => unfold Prefixer.validateCode at hv; split at hv <;> cases hv; rfl
      | panic => unfold Prefixer.validateCode at hv; split at hv <;> cases hv
    rw [this]
    rfl

/-- C74. A basic prefix is the one signing key of the inception event, of the code asked for; a key that cannot be rotated is only taken when the
fields `n`, `b` and `a` are missing or empty texts. -/
theorem C74_basic (E : Env) (H : Hash) (ked : Value) (c : Str) (hc : c ∈ nontransferableKeys ++ transferableKeys) (p : Matter) :
    Prefixer.newWithKed E H ked none (some c) = .ok p ↔
    ∃ o s t, Inception ked o ∧ o.lookup (lit "k") = some (.arr [.str s]) ∧ Matter.ofText E s = .ok p ∧ p.code = c ∧ p.qb64 E = .ok t ∧
      (c ∈ nontransferableKeys → ∀ l ∈ [lit "n", lit "b", lit "a"], o.lookup l = none ∨ o.lookup l = some (.str [])) := by
  have hcc : c ∈ Prefixer.nontransferableCodes ++ Prefixer.transferableCodes ++ Prefixer.digestCodes := List.mem_append_left _ hc
  have hcv : c ∈ verferCodes := by
    have : ∀ c ∈ nontransferableKeys ++ transferableKeys, c ∈ verferCodes := by decide +kernel
    exact this _ hc
  obtain ⟨z, hz, hf⟩ := Prefixer.code_row hcc
  have hnd : c ∉ Prefixer.digestCodes := by
    have : ∀ c ∈ nontransferableKeys ++ transferableKeys, c ∉ Prefixer.digestCodes := by decide +kernel
    exact this _ hc
  have hnt : c ∈ nontransferableKeys → c ∉ Prefixer.transferableCodes := by
    have : ∀ c ∈ nontransferableKeys, c ∉ Prefixer.transferableCodes := by decide +kernel
    exact this _
  unfold Prefixer.newWithKed
  rw [Prefixer.new_ked_ok]
  constructor
  · rintro ⟨c0, raw, c', hch, _, _, hd, hp⟩
    have hch : c = c0 := by
      rcases hch with hch | ⟨hch, _⟩
      · exact Option.some.inj hch
      · cases hch
    subst hch
    obtain ⟨o, ilk, rfl, hil, hilk, hd⟩ := Prefixer.derive_eq.mp hd
    have hI : Inception (.obj o) o := Prefixer.inception_iff.mpr ⟨ilk, rfl, hil, hilk⟩
    have fin : ∀ m, Prefixer.theKey E (.obj o) = .ok m → m.code = c → (m.raw, m.code) = (raw, c') →
        ∃ s t, o.lookup (lit "k") = some (.arr [.str s]) ∧ Matter.ofText E s = .ok p ∧ p.code = c ∧ p.qb64 E = .ok t := by
      intro m hm hmc he
      obtain ⟨o', s, e, hl, ht, _⟩ := Prefixer.theKey_ok.mp hm
      injection e with e
      subst e
      simp only [Prod.mk.injEq] at he
      rw [← he.1, ← he.2] at hp
      obtain ⟨rfl, w⟩ := Matter.rebuild (show Matter.exfil s = .ok m from ht) (by rw [hmc]; exact hz) hf hp
      exact ⟨s, _, hl, ht, hmc, w.infil E⟩
    rcases hd with ⟨hcn, hd⟩ | ⟨hct, hd⟩ | ⟨hcd, _⟩
    · unfold Prefixer.deriveNontransferable at hd
      obtain ⟨m, hm, hd⟩ := Res.bind_eq_ok.mp hd
      split at hd
      · cases hd
      · rename_i hne
        obtain ⟨u1, h1, hd⟩ := Res.bind_eq_ok.mp hd
        obtain ⟨u2, h2, hd⟩ := Res.bind_eq_ok.mp hd
        obtain ⟨u3, h3, hd⟩ := Res.bind_eq_ok.mp hd
        injection hd with hd
        obtain ⟨s, t, h4, h5, h6, h7⟩ := fin m hm (Decidable.not_not.mp hne) hd
        refine ⟨o, s, t, hI, h4, h5, h6, h7, fun _ l hl => ?_⟩
        simp only [List.mem_cons, List.not_mem_nil, or_false] at hl
        rcases hl with rfl | rfl | rfl
        · exact Prefixer.refuseField_ok.mp h1
        · exact Prefixer.refuseField_ok.mp h2
        · exact Prefixer.refuseField_ok.mp h3
    · unfold Prefixer.deriveTransferable at hd
      obtain ⟨m, hm, hd⟩ := Res.bind_eq_ok.mp hd
      split at hd
      · cases hd
      · rename_i hne
        injection hd with hd
        obtain ⟨s, t, h4, h5, h6, h7⟩ := fin m hm (Decidable.not_not.mp hne) hd
        exact ⟨o, s, t, hI, h4, h5, h6, h7, fun h => absurd hct (hnt h)⟩
    · exact absurd hcd hnd
  · rintro ⟨o, s, t, hI, hk, hs, hpc, ht, hf'⟩
    obtain ⟨ilk, rfl, hil, hilk⟩ := Prefixer.inception_iff.mp hI
    have hkey : Prefixer.theKey E (.obj o) = .ok p := Prefixer.theKey_ok.mpr ⟨o, s, rfl, hk, hs, by rw [hpc]; exact hcv⟩
    obtain ⟨z', w⟩ := Matter.exfil_wf (show Matter.exfil s = .ok p from hs) ht
    have hz' : Matter.sizage p.code = .ok z := by rw [hpc]; exact hz
    have hzz : z' = z := by have := w.szg; rw [hz'] at this; injection this with this; exact this.symm
    subst hzz
    have hb := Matter.new_fixed hz hf p.raw
    have hfx := w.fix hf
    refine ⟨c, p.raw, c, .inl rfl, hcc, .inl rfl, Prefixer.derive_eq.mpr ⟨o, ilk, rfl, hil, hilk, ?_⟩, ?_⟩
    · rcases List.mem_append.mp hc with hcn | hct
      · refine .inl ⟨hcn, ?_⟩
        have hr := hf' hcn
        unfold Prefixer.deriveNontransferable
        rw [hkey, Res.ok_bind, if_neg (by simp [hpc]), Prefixer.refuseField_ok (u := ()).mpr (hr _ (by simp)), Res.ok_bind,
          Prefixer.refuseField_ok (u := ()).mpr (hr _ (by simp)), Res.ok_bind, Prefixer.refuseField_ok (u := ()).mpr (hr _ (by simp)), Res.ok_bind, hpc]
      · refine .inr (.inl ⟨hct, ?_⟩)
        unfold Prefixer.deriveTransferable
        rw [hkey, Res.ok_bind, if_neg (by simp [hpc]), hpc]
    · rw [hb, if_neg (by omega), List.take_of_length_le (by omega)]
      cases p
      simp_all

/-- C74. A digest prefix is the digest of the content of the inception event. -/
theorem C74_digest (E : Env) (H : Hash) (ked : Value) (c : Str) (hc : c ∈ digestPrefixes) (p : Matter)
    (h : Prefixer.newWithKed E H ked none (some c) = .ok p) :
    ∃ o x bytes t, Inception ked o ∧ p.qb64 E = .ok t ∧ PrefixContent t.length o x ∧ p = { code := c, size := 0, raw := H.digest c bytes } ∧
      bytes.length = (Value.obj x).toJson.length ∧ (∀ y rest, o = (lit "v", y) :: rest → bytes = (Value.obj x).toJson) := by
  have hpc : p.code = c := Prefixer.code_of_ked h
  obtain ⟨o, t, hI, ht, hv, _⟩ := C47_digest h (by rw [hpc]; exact hc)
  obtain ⟨o', x, bytes, hI', hx, hr, hl, hb, _⟩ := C48_digest ⟨_, _, _, _, _, _, _, h⟩ ht (by rw [hpc]; exact hc) hv
  have : o' = o := by
    have := hI'.1.symm.trans hI.1
    injection this
  subst this
  refine ⟨o', x, bytes, t, hI, ht, hx, ?_, hl, hb⟩
  have hs : p.size = 0 := by
    obtain ⟨_, _, _, _, _, hm⟩ := Prefixer.new_matter h
    obtain ⟨z, w⟩ := Matter.new_text_wf hm ht
    obtain ⟨z', hz', hf⟩ := Prefixer.code_row (code := c) (List.mem_append_right _ (Prefixer.digestPrefixes_iff.mp hc))
    have : z' = z := by have := w.szg; rw [hpc, hz'] at this; injection this
    subst this
    exact (w.fix hf).1
  cases p
  simp_all

/-! Non-trivial cases: the key of an inception event becomes the prefix, also when the code is found in the field `i`; a list without the code refuses. -/

example (H : Hash) : Prefixer.newWithKed Env.debug H (.obj (sampleIcp sampleKeyD [])) none (some (lit "D")) = .ok ⟨lit "D", 0, List.replicate 32 0⟩ :=
  (C74_basic Env.debug H _ _ (by decide +kernel) _).mpr ⟨_, sampleKeyD, sampleKeyD, ⟨rfl, lit "icp", rfl, by decide +kernel⟩, rfl, by decide +kernel, rfl,
    by decide +kernel, fun h => absurd h (by decide +kernel)⟩

example (H : Hash) : Prefixer.newWithKed Env.debug H (.obj (sampleIcp sampleKeyD [])) (some [lit "E"]) (some (lit "D")) = .err .unexpectedCode := by
  rw [C74_allow, if_pos (.inr ⟨_, rfl, by decide +kernel, by decide +kernel⟩)]

example (H : Hash) : Prefixer.newWithKed Env.debug H (.obj [(lit "i", .str sampleKeyD), (lit "t", .str (lit "icp")), (lit "k", .arr [.str sampleKeyD])]) none none =
    .ok ⟨lit "D", 0, List.replicate 32 0⟩ := by
  rw [(C74_code Env.debug H none).1]
  have : Matter.ofText Env.debug sampleKeyD = .ok ⟨lit "D", 0, List.replicate 32 0⟩ := by decide +kernel
  show (do let m ← Matter.ofText Env.debug sampleKeyD; Prefixer.newWithKed Env.debug H _ none (some m.code)) = _
  rw [this]
  exact (C74_basic Env.debug H _ _ (by decide +kernel) _).mpr
    ⟨[(lit "i", .str sampleKeyD), (lit "t", .str (lit "icp")), (lit "k", .arr [.str sampleKeyD])], sampleKeyD, sampleKeyD, ⟨rfl, lit "icp", rfl, by decide +kernel⟩, rfl, this, rfl,
    by decide +kernel, fun h => absurd h (by decide +kernel)⟩

end Cesride
