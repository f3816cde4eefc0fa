import Verif.Model.Short
import Verif.Props.Args
import Verif.Lemmas.Reencode

/-!
# Property C73: typed objects survive transport through the short constructors
-/

namespace Cesride
open Matter

/-- Whatever text the primitive `m` has, the object `o` is read from that text, from its bytes, and from the binary form, which exists. -/
def Carried {α : Type} (E : Env) (m : Matter) (o : α) (byText byBytes byBinary : List UInt8 → Res α) : Prop :=
  ∀ t, m.qb64 E = .ok t → byText t = .ok o ∧ byBytes t = .ok o ∧ ∃ b, m.qb2 E = .ok b ∧ byBinary b = .ok o

/-- The result of some call of the general constructor. -/
def Constructed (E : Env) (m : Matter) : Prop := ∃ code raw qb64b qb64 qb2, Matter.new E code raw qb64b qb64 qb2 = .ok m

theorem Constructed.reads {E : Env} {m : Matter} (h : Constructed E m) {t : Str} (ht : m.qb64 E = .ok t) :
    Matter.read E (.text t) = .ok m ∧ Matter.read E (.bytes t) = .ok m ∧ ∃ b, m.qb2 E = .ok b ∧ Matter.read E (.binary b) = .ok m := by
  obtain ⟨_, _, _, _, _, h⟩ := h
  obtain ⟨z, w⟩ := new_text_wf h ht
  obtain ⟨t', b, h1, h2, h3, h4, h5⟩ := w.transport E
  rw [ht] at h1
  cases h1
  exact ⟨h3, h4, b, h2, h5⟩

theorem Diger.constructed {E : Env} {H : Hash} {ser code raw qb64b qb64 qb2} {m : Matter} (h : Diger.new E H ser code raw qb64b qb64 qb2 = .ok m) :
    Constructed E m := by
  unfold Diger.new at h
  split at h
  · cases h
  · rename_i d hd
    simp only [Res.bind_eq_ok] at h
    obtain ⟨_, _, h⟩ := h
    cases h
    exact ⟨_, _, _, _, _, hd⟩
  · split at h
    · simp only [Res.bind_eq_ok] at h
      obtain ⟨_, _, d, _, h⟩ := h
      exact ⟨_, _, _, _, _, h⟩
    · cases h

theorem Saider.constructed {E : Env} {H : Hash} {sad label kind ignore code raw qb64b qb64 qb2} {m : Matter}
    (h : Saider.new E H sad label kind ignore code raw qb64b qb64 qb2 = .ok m) : Constructed E m := by
  unfold Saider.new at h
  split at h
  · simp only [Res.bind_eq_ok] at h
    obtain ⟨⟨c, r⟩, _, h⟩ := h
    exact ⟨_, _, _, _, _, h⟩
  · simp only [Res.bind_eq_ok] at h
    obtain ⟨d, hd, _, _, h⟩ := h
    cases h
    exact ⟨_, _, _, _, _, hd⟩

theorem Verfer.constructed {E : Env} {code raw qb64b qb64 qb2} {m : Matter} (h : Verfer.new E code raw qb64b qb64 qb2 = .ok m) : Constructed E m := by
  unfold Verfer.new at h
  simp only [Res.bind_eq_ok] at h
  obtain ⟨d, hd, _, _, h⟩ := h
  cases h
  exact ⟨_, _, _, _, _, hd⟩

theorem Number.constructed {E : Env} {num numh code raw qb64b qb64 qb2} {m : Matter} (h : Number.new E num numh code raw qb64b qb64 qb2 = .ok m) :
    Constructed E m := by
  unfold Number.new at h
  split at h
  · simp only [Res.bind_eq_ok] at h
    obtain ⟨n, _, h⟩ := h
    exact ⟨_, _, _, _, _, h⟩
  · simp only [] at h
    split at h
    · exact ⟨_, _, _, _, _, h⟩
    · cases h

theorem Seqner.constructed {E : Env} {sn snh code raw qb64b qb64 qb2} {m : Matter} (h : Seqner.new E sn snh code raw qb64b qb64 qb2 = .ok m) :
    Constructed E m := by
  unfold Seqner.new at h
  simp only [Res.bind_eq_ok] at h
  obtain ⟨r, _, d, hd, h⟩ := h
  split at h
  · cases h; exact ⟨_, _, _, _, _, hd⟩
  · cases h

theorem Dater.constructed {E : Env} {now dts code raw qb64b qb64 qb2} {m : Matter} (h : Dater.new E now dts code raw qb64b qb64 qb2 = .ok m) :
    Constructed E m := by
  unfold Dater.new at h
  simp only [Res.bind_eq_ok] at h
  obtain ⟨d, hd, h⟩ := h
  split at h
  · cases h
    split at hd <;> exact ⟨_, _, _, _, _, hd⟩
  · cases h

theorem Bexter.constructed {E : Env} {bext code raw qb64b qb64 qb2} {m : Matter} (h : Bexter.new E bext code raw qb64b qb64 qb2 = .ok m) :
    Constructed E m := by
  unfold Bexter.new at h
  simp only [] at h
  split at h
  · cases h
  · simp only [Res.bind_eq_ok] at h
    obtain ⟨d, hd, h⟩ := h
    split at h
    · cases h
      split at hd
      · split at hd
        · cases hd
        · simp only [Res.bind_eq_ok] at hd
          obtain ⟨r, _, hd⟩ := hd
          exact ⟨_, _, _, _, _, hd⟩
      · exact ⟨_, _, _, _, _, hd⟩
    · cases h

theorem Pather.ofBext_constructed {E : Env} {bext code : Str} {m : Matter} (h : Pather.ofBext E bext code = .ok m) : Constructed E m := by
  unfold Pather.ofBext at h
  split at h
  · cases h
  · simp only [Res.bind_eq_ok] at h
    obtain ⟨r, _, hd⟩ := h
    exact ⟨_, _, _, _, _, hd⟩

theorem Pather.constructed {E : Env} {path bext code raw qb64b qb64 qb2} {m : Matter} (h : Pather.new E path bext code raw qb64b qb64 qb2 = .ok m) :
    Constructed E m := by
  unfold Pather.new at h
  simp only [Res.bind_eq_ok] at h
  obtain ⟨d, hd, h⟩ := h
  split at h
  · cases h
    split at hd
    · split at hd
      · simp only [Res.bind_eq_ok] at hd
        obtain ⟨r, _, hd⟩ := hd
        exact Pather.ofBext_constructed hd
      · cases hd
    · split at hd
      · exact Pather.ofBext_constructed hd
      · exact ⟨_, _, _, _, _, hd⟩
  · cases h

theorem Prefixer.constructed {E : Env} {H : Hash} {ked allows code raw qb64b qb64 qb2} {m : Matter}
    (h : Prefixer.new E H ked allows code raw qb64b qb64 qb2 = .ok m) : Constructed E m := by
  unfold Prefixer.new at h
  split at h
  · simp only [Res.bind_eq_ok] at h
    obtain ⟨_, _, h⟩ := h
    exact ⟨_, _, _, _, _, h⟩
  · split at h
    · cases h
    · simp only [Res.bind_eq_ok] at h
      obtain ⟨b, _, h⟩ := h
      split at h
      · cases h
      · simp only [Res.bind_eq_ok] at h
        obtain ⟨c, _, _, _, h⟩ := h
        split at h
        · cases h
        · simp only [Res.bind_eq_ok] at h
          obtain ⟨⟨r, c⟩, _, h⟩ := h
          exact ⟨_, _, _, _, _, h⟩

theorem Cigar.constructed {E : Env} {v code raw qb64b qb64 qb2} {c : Cigar} (h : Cigar.new E v code raw qb64b qb64 qb2 = .ok c) :
    Constructed E c.matter ∧ c.verfer = v.getD Verfer.default := by
  unfold Cigar.new at h
  simp only [Res.bind_eq_ok] at h
  obtain ⟨d, hd, _, _, h⟩ := h
  cases h
  exact ⟨⟨_, _, _, _, _, hd⟩, rfl⟩

theorem Salter.constructed {E : Env} {rnd tier code raw qb64b qb64 qb2} {s : Salter} (h : Salter.new E rnd tier code raw qb64b qb64 qb2 = .ok s) :
    Constructed E s.matter ∧ s.tier = tier.getD (lit "low") := by
  unfold Salter.new at h
  simp only [] at h
  split at h
  · cases h
  · simp only [Res.bind_eq_ok] at h
    obtain ⟨d, hd, h⟩ := h
    cases h
    split at hd <;> exact ⟨⟨_, _, _, _, _, hd⟩, rfl⟩

/-- C73. Every key, digest, SAID, number, sequence number, date-time, text, path and prefix, however constructed, is read back unchanged by the
short constructors from its own text, text bytes and binary form. -/
theorem C73_primitives (E : Env) (H : Hash) (now : Str) :
    (∀ code raw qb64b qb64 qb2 m, Verfer.new E code raw qb64b qb64 qb2 = .ok m →
      Carried E m m (Verfer.newWithQb64 E) (Verfer.newWithQb64b E) (Verfer.newWithQb2 E)) ∧
    (∀ ser code raw qb64b qb64 qb2 m, Diger.new E H ser code raw qb64b qb64 qb2 = .ok m →
      Carried E m m (Diger.newWithQb64 E H) (Diger.newWithQb64b E H) (Diger.newWithQb2 E H)) ∧
    (∀ sad label kind ignore code raw qb64b qb64 qb2 m, Saider.new E H sad label kind ignore code raw qb64b qb64 qb2 = .ok m →
      Carried E m m (Saider.newWithQb64 E H) (Saider.newWithQb64b E H) (Saider.newWithQb2 E H)) ∧
    (∀ num numh code raw qb64b qb64 qb2 m, Number.new E num numh code raw qb64b qb64 qb2 = .ok m →
      Carried E m m (Number.newWithQb64 E) (Number.newWithQb64b E) (Number.newWithQb2 E)) ∧
    (∀ sn snh code raw qb64b qb64 qb2 m, Seqner.new E sn snh code raw qb64b qb64 qb2 = .ok m →
      Carried E m m (Seqner.newWithQb64 E) (Seqner.newWithQb64b E) (Seqner.newWithQb2 E)) ∧
    (∀ now' dts code raw qb64b qb64 qb2 m, Dater.new E now' dts code raw qb64b qb64 qb2 = .ok m →
      Carried E m m (Dater.newWithQb64 E now) (Dater.newWithQb64b E now) (Dater.newWithQb2 E now)) ∧
    (∀ bext code raw qb64b qb64 qb2 m, Bexter.new E bext code raw qb64b qb64 qb2 = .ok m →
      Carried E m m (Bexter.newWithQb64 E) (Bexter.newWithQb64b E) (Bexter.newWithQb2 E)) ∧
    (∀ path bext code raw qb64b qb64 qb2 m, Pather.new E path bext code raw qb64b qb64 qb2 = .ok m →
      Carried E m m (Pather.newWithQb64 E) (Pather.newWithQb64b E) (Pather.newWithQb2 E)) ∧
    (∀ ked allows code raw qb64b qb64 qb2 m, Prefixer.new E H ked allows code raw qb64b qb64 qb2 = .ok m →
      Carried E m m (Prefixer.newWithQb64 E H) (Prefixer.newWithQb64b E H) (Prefixer.newWithQb2 E H)) := by
  have hc := C54_codes_checked E H toy
  have hT := fun t : Str => C67_typed E H toy none none (some t) none (.text t) rfl
  have hY := fun t : List UInt8 => C67_typed E H toy none (some t) none none (.bytes t) rfl
  have hB := fun b : List UInt8 => C67_typed E H toy none none none (some b) (.binary b) rfl
  have key : ∀ {m : Matter} {codes : List Str} (_ : Constructed E m) (_ : m.code ∈ codes) (f g k : List UInt8 → Res Matter)
      (_ : ∀ t, f t = (do let m ← Matter.read E (.text t); withCode codes m)) (_ : ∀ t, g t = (do let m ← Matter.read E (.bytes t); withCode codes m))
      (_ : ∀ t, k t = (do let m ← Matter.read E (.binary t); withCode codes m)), Carried E m m f g k := by
    intro m codes hm hcode f g k hf hg hk t ht
    obtain ⟨h1, h2, b, hb, h3⟩ := hm.reads ht
    refine ⟨?_, ?_, b, hb, ?_⟩
    · rw [hf, h1]; exact if_pos hcode
    · rw [hg, h2]; exact if_pos hcode
    · rw [hk, h3]; exact if_pos hcode
  refine ⟨?_, ?_, ?_, ?_, ?_, ?_, ?_, ?_, ?_⟩
  · intro code raw qb64b qb64 qb2 m h
    exact key (Verfer.constructed h) (hc.1 _ _ _ _ _ _ h) _ _ _ (fun t => (hT t).1) (fun t => (hY t).1) (fun t => (hB t).1)
  · intro ser code raw qb64b qb64 qb2 m h t ht
    obtain ⟨h1, h2, b, hb, h3⟩ := (Diger.constructed h).reads ht
    have hcode := hc.2.1 _ _ _ _ _ _ _ h
    refine ⟨?_, ?_, b, hb, ?_⟩
    · rw [Diger.newWithQb64, (hT t).2.2.2.2.2.2.2.1, h1]; exact if_pos hcode
    · rw [Diger.newWithQb64b, (hY t).2.2.2.2.2.2.2.1, h2]; exact if_pos hcode
    · rw [Diger.newWithQb2, (hB b).2.2.2.2.2.2.2.1, h3]; exact if_pos hcode
  · intro sad label kind ignore code raw qb64b qb64 qb2 m h
    exact key (Saider.constructed h) (hc.2.2.1 _ _ _ _ _ _ _ _ _ _ h) _ _ _ (fun t => (hT t).2.2.2.2.2.2.1 _ _ _)
      (fun t => (hY t).2.2.2.2.2.2.1 _ _ _) (fun t => (hB t).2.2.2.2.2.2.1 _ _ _)
  · intro num numh code raw qb64b qb64 qb2 m h t ht
    obtain ⟨h1, h2, b, hb, h3⟩ := (Number.constructed h).reads ht
    refine ⟨?_, ?_, b, hb, ?_⟩
    · rw [Number.newWithQb64, (hT t).2.2.2.2.2.2.2.2.1, if_pos (by decide +kernel), h1]
    · rw [Number.newWithQb64b, (hY t).2.2.2.2.2.2.2.2.1, if_pos (by decide +kernel), h2]
    · rw [Number.newWithQb2, (hB b).2.2.2.2.2.2.2.2.1, if_pos (by decide +kernel), h3]
  · intro sn snh code raw qb64b qb64 qb2 m h
    exact key (Seqner.constructed h) (hc.2.2.2.2.2.2.2.1 _ _ _ _ _ _ _ _ h) _ _ _ (fun t => (hT t).2.2.1 _ _) (fun t => (hY t).2.2.1 _ _)
      (fun t => (hB t).2.2.1 _ _)
  · intro now' dts code raw qb64b qb64 qb2 m h
    exact key (Dater.constructed h) (hc.2.2.2.2.2.2.1 _ _ _ _ _ _ _ _ h) _ _ _ (fun t => (hT t).2.2.2.1 _ _) (fun t => (hY t).2.2.2.1 _ _)
      (fun t => (hB t).2.2.2.1 _ _)
  · intro bext code raw qb64b qb64 qb2 m h
    exact key (Bexter.constructed h) (hc.2.2.2.2.2.2.2.2.1 _ _ _ _ _ _ _ h) _ _ _ (fun t => (hT t).2.2.2.2.1) (fun t => (hY t).2.2.2.2.1)
      (fun t => (hB t).2.2.2.2.1)
  · intro path bext code raw qb64b qb64 qb2 m h
    exact key (Pather.constructed h) (hc.2.2.2.2.2.2.2.2.2 _ _ _ _ _ _ _ _ h) _ _ _ (fun t => (hT t).2.2.2.2.2.1 _) (fun t => (hY t).2.2.2.2.2.1 _)
      (fun t => (hB t).2.2.2.2.2.1 _)
  · intro ked allows code raw qb64b qb64 qb2 m h t ht
    obtain ⟨h1, h2, b, hb, h3⟩ := (Prefixer.constructed h).reads ht
    refine ⟨?_, ?_, b, hb, ?_⟩
    · rw [Prefixer.newWithQb64, (hT t).2.2.2.2.2.2.2.2.2.2.1, if_pos (by decide +kernel), h1]
    · rw [Prefixer.newWithQb64b, (hY t).2.2.2.2.2.2.2.2.2.2.1, if_pos (by decide +kernel), h2]
    · rw [Prefixer.newWithQb2, (hB b).2.2.2.2.2.2.2.2.2.2.1, if_pos (by decide +kernel), h3]

/-- C73. Signatures are read back with the key they are given, salts with their tier, private keys with their public key. -/
theorem C73_objects (E : Env) (C : Crypto) :
    (∀ v code raw qb64b qb64 qb2 c, Cigar.new E v code raw qb64b qb64 qb2 = .ok c →
      Carried E c.matter c (Cigar.newWithQb64 E · v) (Cigar.newWithQb64b E · v) (Cigar.newWithQb2 E · v) ∧
      Carried E c.matter c (Cigar.newWithQb64 E · (some c.verfer)) (Cigar.newWithQb64b E · (some c.verfer)) (Cigar.newWithQb2 E · (some c.verfer))) ∧
    (∀ rnd rnd' tier code raw qb64b qb64 qb2 s, Salter.new E rnd tier code raw qb64b qb64 qb2 = .ok s →
      Carried E s.matter s (Salter.newWithQb64 E rnd' · tier) (Salter.newWithQb64b E rnd' · tier) (Salter.newWithQb2 E rnd' · tier) ∧
      Carried E s.matter s (Salter.newWithQb64 E rnd' · (some s.tier)) (Salter.newWithQb64b E rnd' · (some s.tier))
        (Salter.newWithQb2 E rnd' · (some s.tier))) ∧
    (∀ r r' t code raw qb64b qb64 qb2 s, Signer.new E C r t code raw qb64b qb64 qb2 = .ok s →
      Carried E s.matter s (Signer.newWithQb64 E C r' · t) (Signer.newWithQb64b E C r' · t) (Signer.newWithQb2 E C r' · t)) := by
  have hc := C54_codes_checked E zeroHash C
  have hT := fun t : Str => C67_typed E zeroHash C none none (some t) none (.text t) rfl
  have hY := fun t : List UInt8 => C67_typed E zeroHash C none (some t) none none (.bytes t) rfl
  have hB := fun b : List UInt8 => C67_typed E zeroHash C none none none (some b) (.binary b) rfl
  refine ⟨?_, ?_, ?_⟩
  · intro v code raw qb64b qb64 qb2 c h
    obtain ⟨hk, hv⟩ := Cigar.constructed h
    have hcode := hc.2.2.2.1 _ _ _ _ _ _ _ h
    have main : ∀ w : Option Matter, w.getD Verfer.default = c.verfer →
        Carried E c.matter c (Cigar.newWithQb64 E · w) (Cigar.newWithQb64b E · w) (Cigar.newWithQb2 E · w) := by
      intro w hw t ht
      obtain ⟨h1, h2, b, hb, h3⟩ := hk.reads ht
      have fin : ∀ i, Matter.read E i = .ok c.matter → (do
          let m ← Matter.read E i
          let m ← withCode Spec.Typed.sigCodes m
          Res.ok ({ matter := m, verfer := w.getD Verfer.default } : Cigar)) = .ok c := by
        intro i hi
        rw [hi]
        simp only [Res.ok_bind, withCode, if_pos hcode, hw]
      refine ⟨?_, ?_, b, hb, ?_⟩
      · show Cigar.newWithQb64 E t w = _
        rw [Cigar.newWithQb64, (hT t).2.1]; exact fin _ h1
      · show Cigar.newWithQb64b E t w = _
        rw [Cigar.newWithQb64b, (hY t).2.1]; exact fin _ h2
      · show Cigar.newWithQb2 E b w = _
        rw [Cigar.newWithQb2, (hB b).2.1]; exact fin _ h3
    exact ⟨main v hv.symm, main _ rfl⟩
  · intro rnd rnd' tier code raw qb64b qb64 qb2 s h
    obtain ⟨hk, hv⟩ := Salter.constructed h
    have main : ∀ w : Option Str, w.getD (lit "low") = s.tier →
        Carried E s.matter s (Salter.newWithQb64 E rnd' · w) (Salter.newWithQb64b E rnd' · w) (Salter.newWithQb2 E rnd' · w) := by
      intro w hw t ht
      obtain ⟨h1, h2, b, hb, h3⟩ := hk.reads ht
      have fin : ∀ i, Matter.read E i = .ok s.matter → (do
          let m ← Matter.read E i
          Res.ok ({ matter := m, tier := w.getD (lit "low") } : Salter)) = .ok s := by
        intro i hi
        rw [hi]
        simp only [Res.ok_bind, hw]
      refine ⟨?_, ?_, b, hb, ?_⟩
      · show Salter.newWithQb64 E rnd' t w = _
        rw [Salter.newWithQb64, (hT t).2.2.2.2.2.2.2.2.2.1, if_pos (by decide +kernel)]; exact fin _ h1
      · show Salter.newWithQb64b E rnd' t w = _
        rw [Salter.newWithQb64b, (hY t).2.2.2.2.2.2.2.2.2.1, if_pos (by decide +kernel)]; exact fin _ h2
      · show Salter.newWithQb2 E rnd' b w = _
        rw [Salter.newWithQb2, (hB b).2.2.2.2.2.2.2.2.2.1, if_pos (by decide +kernel)]; exact fin _ h3
    exact ⟨main tier hv.symm, main _ rfl⟩
  · intro r r' t code raw qb64b qb64 qb2 s h x hx
    obtain ⟨_, b, hb, h3⟩ := (C65_transport E C h).2 x hx
    exact ⟨(h3 r').1, (h3 r').2.1, b, hb, (h3 r').2.2⟩

/-- C73. Indexed signatures with an index their code allows are read back with the key they are given. -/
theorem C73_siger (E : Env) {c : Spec.IdxCode} (hc : c ∈ Spec.idxCodes) (v : Option Matter) (index ondex : Option Nat) (code : Option Str)
    (raw qb64b : Option (List UInt8)) (qb64 : Option Str) (qb2 : Option (List UInt8)) {s : Siger}
    (h : Siger.new E v index ondex code raw qb64b qb64 qb2 = .ok s) (ho : IdxObtained E c s.indexer) :
    ∃ t b, s.indexer.qb64 E = .ok t ∧ s.indexer.qb2 E = .ok b ∧ Siger.newWithQb64 E t v = .ok s ∧ Siger.newWithQb64b E t v = .ok s ∧
      Siger.newWithQb2 E b v = .ok s := by
  have hcode := (C54_codes_checked E zeroHash toy).2.2.2.2.1 _ _ _ _ _ _ _ _ _ h
  have hv : s.verfer = v.getD Verfer.default := by
    unfold Siger.new at h
    simp only [Res.bind_eq_ok] at h
    obtain ⟨_, _, _, _, h⟩ := h
    cases h
    rfl
  obtain ⟨t, h1, _, h3, h4⟩ := C17_text_roundtrip E hc ho
  obtain ⟨⟨b, h5, h6⟩, _⟩ := C18_binary_roundtrip E hc ho
  have hne : ¬ ((c.code = lit "3A" ∨ c.code = lit "3B") ∧ E.overflowChecks = true) := by
    rintro ⟨h', _⟩
    rw [ho.wf hc |>.1] at hcode
    rcases h' with h' | h' <;> rw [h'] at hcode <;> revert hcode <;> decide +kernel
  have fin : ∀ i, Indexer.read E i = .ok s.indexer → (do
      let x ← Indexer.read E i
      if x.code ∈ Spec.Typed.indexedSigCodes then Res.ok ({ indexer := x, verfer := v.getD Verfer.default } : Siger) else .err .unexpectedCode) = .ok s := by
    intro i hi
    rw [hi]
    simp only [Res.ok_bind, if_pos hcode, ← hv]
  refine ⟨t, b, h1, h6 hne, ?_, ?_, ?_⟩
  · rw [Siger.newWithQb64, (C67_typed E zeroHash toy none none (some t) none (.text t) rfl).2.2.2.2.2.2.2.2.2.2.2.2]; exact fin _ h3
  · rw [Siger.newWithQb64b, (C67_typed E zeroHash toy none (some t) none none (.bytes t) rfl).2.2.2.2.2.2.2.2.2.2.2.2]; exact fin _ h4
  · rw [Siger.newWithQb2, (C67_typed E zeroHash toy none none none (some b) (.binary b) rfl).2.2.2.2.2.2.2.2.2.2.2.2]; exact fin _ h5

/-- C73. Construction from raw bytes: the code needed or supplied by default, and the check of the code. -/
theorem C73_raw (E : Env) (H : Hash) (C : Crypto) (raw : List UInt8) (code : Option Str) :
    Verfer.newWithRaw E raw code = (do let m ← Matter.ofRaw E (code.getD (lit "B")) raw; withCode Spec.Typed.keyCodes m) ∧
    Diger.newWithRaw E H raw code = (match code with
      | none => .err .validation
      | some c => (match Matter.ofRaw E c raw with | .ok m => withCode Spec.Typed.digestCodes m | .panic => .panic | .err _ => .err .validation)) ∧
    Saider.newWithRaw E H raw code = (match code with
      | none => .err .validation
      | some c => if c ∈ Spec.Typed.digestCodes then Matter.ofRaw E c raw else .err .unexpectedCode) ∧
    Number.newWithRaw E raw code =
      (if code.getD (lit "M") ∈ Spec.Typed.numberCodes then Matter.ofRaw E (code.getD (lit "M")) raw else .err .unexpectedCode) ∧
    Seqner.newWithRaw E raw code = (do let m ← Matter.ofRaw E (code.getD (lit "0A")) raw; withCode Spec.Typed.seqnerCodes m) ∧
    (∀ now, Dater.newWithRaw E now raw code = (do let m ← Matter.ofRaw E (code.getD (lit "1AAG")) raw; withCode Spec.Typed.dateCodes m)) ∧
    Bexter.newWithRaw E raw code = (do let m ← Matter.ofRaw E (code.getD (lit "4A")) raw; withCode Spec.Typed.textCodes m) ∧
    Pather.newWithRaw E raw code = (do let m ← Matter.ofRaw E (code.getD (lit "4A")) raw; withCode Spec.Typed.textCodes m) ∧
    Prefixer.newWithRaw E H raw code = (if code.getD (lit "B") ∈ Spec.Typed.prefixCodes then
      (match code with | none => .err .emptyMaterial | some c => Matter.ofRaw E c raw) else .err .unexpectedCode) ∧
    (∀ v, Cigar.newWithRaw E raw v code = (match code with
      | none => .err .emptyMaterial
      | some c => do let m ← Matter.ofRaw E c raw; let m ← withCode Spec.Typed.sigCodes m; .ok { matter := m, verfer := v.getD Verfer.default })) ∧
    (∀ rnd tier, Salter.newWithRaw E rnd raw code tier =
      if code.getD (lit "0A") ∈ Spec.Typed.saltCodes then (do let m ← Matter.ofRaw E (code.getD (lit "0A")) raw; .ok { matter := m, tier := tier.getD (lit "low") })
      else .err .unexpectedCode) ∧
    (∀ r t, Signer.newWithRaw E C r raw t code = if code.getD (lit "A") ∈ Spec.Typed.seedCodes then (do
        let m ← Matter.ofRaw E (code.getD (lit "A")) raw
        let v ← Signer.deriveVerfer E C m.code m.raw (t.getD true)
        .ok { matter := m, verfer := v }) else .err .unexpectedCode) ∧
    (∀ v index ondex, Siger.newWithRaw E raw v index ondex code = (match code with
      | none => .err .emptyMaterial
      | some c => do
        let x ← Indexer.ofRaw E c raw (index.getD 0) ondex
        if x.code ∈ Spec.Typed.indexedSigCodes then .ok { indexer := x, verfer := v.getD Verfer.default } else .err .unexpectedCode)) := by
  refine ⟨?_, ?_, ?_, ?_, ?_, ?_, ?_, ?_, ?_, ?_, ?_, ?_, ?_⟩
  · show (do let m ← Matter.ofRaw E (code.getD (lit "B")) raw; Verfer.validateCode m.code; Res.ok m) = _
    congr 1; funext m
    exact check_eq _ _ _ _ fun _ => Iff.rfl
  · cases code with
    | none => rfl
    | some c =>
      unfold Diger.newWithRaw Diger.new
      rw [show Matter.new E (some c) (some raw) none none none = Matter.ofRaw E c raw from rfl]
      simp only
      cases Matter.ofRaw E c raw with
      | ok m => exact check_eq _ _ _ _ fun _ => Iff.rfl
      | panic => rfl
      | err e => rfl
  · cases code with
    | none => rfl
    | some c =>
      show (do let p ← (do validateDigestCode c; Res.ok (c, raw)); Matter.ofRaw E p.1 p.2) = _
      rw [show validateDigestCode c = _ from rfl, validateDigestCode, check_eq [lit "E", lit "F", lit "G", lit "H", lit "I", lit "0D", lit "0E", lit "0F", lit "0G"] Spec.Typed.digestCodes _ _ fun _ => Iff.rfl]
      simp only
      split <;> rfl
  · unfold Number.newWithRaw Number.new
    rw [if_neg (by simp)]
    simp only [Spec.Typed.numberCodes, Number.hasCode, List.contains_iff_mem]
    rfl
  · unfold Seqner.newWithRaw Seqner.new
    rw [if_neg (by simp)]
    simp only [Res.ok_bind]
    congr 1; funext m
    simp [withCode, Spec.Typed.seqnerCodes]
  · intro now
    unfold Dater.newWithRaw Dater.new
    simp only []
    rw [if_neg (by simp)]
    congr 1; funext m
    simp [withCode, Spec.Typed.dateCodes]
  · unfold Bexter.newWithRaw Bexter.new
    simp only
    rw [if_neg (by simp)]
    congr 1; funext m
    simp [withCode, Spec.Typed.textCodes, Bexter.hasCode]
  · unfold Pather.newWithRaw Pather.new
    simp only
    rw [if_neg (by simp)]
    congr 1; funext m
    simp [withCode, Spec.Typed.textCodes, Bexter.hasCode]
  · unfold Prefixer.newWithRaw Prefixer.new
    rw [if_pos (by simp)]
    unfold Prefixer.validateCode
    have : ∀ c, c ∈ [lit "B", lit "1AAA", lit "1AAI", lit "D", lit "1AAB", lit "1AAJ", lit "E", lit "0D", lit "F", lit "0E", lit "G", lit "H", lit "0F", lit "I",
      lit "0G"] ↔ c ∈ Spec.Typed.prefixCodes := by
      intro c
      simp only [Spec.Typed.prefixCodes, Spec.Typed.keyCodes, Spec.Typed.digestCodes, List.cons_append, List.nil_append, List.mem_cons, List.not_mem_nil, or_false]
      grind
    by_cases hc : code.getD (lit "B") ∈ Spec.Typed.prefixCodes
    · rw [if_pos (by rw [List.contains_iff_mem]; exact (this _).mpr hc), if_pos hc]; cases code <;> rfl
    · rw [if_neg (by rw [List.contains_iff_mem]; exact fun h => hc ((this _).mp h)), if_neg hc]; rfl
  · intro v
    cases code with
    | none => rfl
    | some c =>
      unfold Cigar.newWithRaw Cigar.new
      rw [show Matter.new E (some c) (some raw) none none none = Matter.ofRaw E c raw from rfl]
      simp only
      congr 1; funext m
      rw [Cigar.validateCode, check_eq [lit "0B", lit "0C", lit "0I"] Spec.Typed.sigCodes _ _ fun _ => Iff.rfl, withCode]
      split <;> rfl
  · intro rnd tier
    unfold Salter.newWithRaw Salter.new
    simp only [Spec.Typed.saltCodes, List.mem_cons, List.not_mem_nil, or_false]
    by_cases hc : code.getD (lit "0A") = lit "0A"
    · rw [if_neg (by simpa using hc), if_pos hc, if_neg (by simp)]
    · rw [if_pos hc, if_neg hc]
  · intro r t
    unfold Signer.newWithRaw Signer.new Signer.validateCode
    simp only
    rw [if_pos (by simp)]
    by_cases hc : code.getD (lit "A") ∈ Spec.Typed.seedCodes
    · rw [if_pos (by rw [List.contains_iff_mem]; exact hc), if_pos hc]
      rfl
    · rw [if_neg (by rw [List.contains_iff_mem]; exact hc), if_neg hc]
      rfl
  · intro v index ondex
    cases code with
    | none => rfl
    | some c =>
      unfold Siger.newWithRaw Siger.new
      rw [(C67_indexed E index ondex (some c) raw none none none).1]
      simp only
      congr 1; funext x
      exact check_eq _ _ _ _ fun _ => Iff.rfl

/-! Non-trivial cases: a number, a salt and a digest go through; the default code of a number is two bytes. -/

example : ∃ m, Number.newWithNum Env.debug 70000 = .ok m ∧ m.qb64 Env.debug = .ok (lit "0HAAARFw") ∧
    Number.newWithQb64 Env.debug (lit "0HAAARFw") = .ok m ∧ Number.newWithQb64b Env.debug (lit "0HAAARFw") = .ok m := by
  have h : Number.newWithNum Env.debug 70000 = .ok { code := lit "0H", size := 0, raw := [0, 1, 17, 112] } := by decide +kernel
  have ht : ({ code := lit "0H", size := 0, raw := [0, 1, 17, 112] } : Matter).qb64 Env.debug = .ok (lit "0HAAARFw") := by decide +kernel
  have := (C73_primitives Env.debug zeroHash []).2.2.2.1 _ _ _ _ _ _ _ _ h _ ht
  exact ⟨_, h, ht, this.1, this.2.1⟩

example : Number.newWithRaw Env.debug [1, 2] none = .ok { code := lit "M", size := 0, raw := [1, 2] } := by
  rw [(C73_raw Env.debug zeroHash toy [1, 2] none).2.2.2.1]
  decide +kernel

example : Verfer.newWithRaw Env.debug (List.replicate 33 7) none = .ok { code := lit "B", size := 0, raw := List.replicate 32 7 } := by
  rw [(C73_raw Env.debug zeroHash toy (List.replicate 33 7) none).1]
  decide +kernel

example : ∃ s, Salter.newWithRaw Env.debug [] (List.range 16 |>.map UInt8.ofNat) none (some (lit "high")) = .ok s ∧ s.tier = lit "high" ∧
    s.matter.qb64 Env.debug = .ok (lit "0AAAAQIDBAUGBwgJCgsMDQ4P") ∧
    Salter.newWithQb64 Env.debug [] (lit "0AAAAQIDBAUGBwgJCgsMDQ4P") (some (lit "high")) = .ok s := by
  have h : Salter.newWithRaw Env.debug [] (List.range 16 |>.map UInt8.ofNat) none (some (lit "high")) =
    .ok { matter := { code := lit "0A", size := 0, raw := List.range 16 |>.map UInt8.ofNat }, tier := lit "high" } := by decide +kernel
  have ht : ({ code := lit "0A", size := 0, raw := List.range 16 |>.map UInt8.ofNat } : Matter).qb64 Env.debug = .ok (lit "0AAAAQIDBAUGBwgJCgsMDQ4P") := by
    decide +kernel
  have := ((C73_objects Env.debug toy).2.1 _ [] _ _ _ _ _ _ _ h).1 _ ht
  exact ⟨_, h, rfl, ht, this.1⟩

end Cesride
