import Verif.Lemmas.Padded

/-!
# Property C83: which texts and bytes are primitives, indexed signatures and counters

The parsers as recognizers: accepted input is exactly what starts with the wire format (text may also be in the padded variant, a
defect), and it is read as what it spells. Everything else is refused or, on the inputs of C12, C22 and C26, panics.
-/

namespace Cesride

/-- C83 (primitives, text). A text is read as a primitive exactly when it starts with the wire text of that code, size and raw — or with
the same in which up to two raw bytes are missing and `=` stands in their place. -/
theorem C83_matter_text (E : Env) {s : Str} (hv : utf8Valid s = true) (m : Matter) :
    Matter.ofText E s = .ok m ↔ ∃ head pads t rest, pads ≤ 2 ∧ s = t ++ rest ∧ Spec.IsHead m.code m.size head ∧
      Spec.RawSize m.code m.size (m.raw.length + pads) ∧ Spec.IsPaddedWire head m.raw pads t :=
  Matter.exfil_iff hv

/-- C83 (primitives, text without `=`): exactly the wire format. -/
theorem C83_matter_text_nopad (E : Env) {s : Str} (hv : utf8Valid s = true) (hp : ch '=' ∉ s) (m : Matter) :
    Matter.ofText E s = .ok m ↔ ∃ head t rest, s = t ++ rest ∧ Spec.IsHead m.code m.size head ∧
      Spec.RawSize m.code m.size m.raw.length ∧ Spec.IsWire head m.raw t := by
  rw [C83_matter_text E hv]
  constructor
  · rintro ⟨head, pads, t, rest, h1, rfl, h2, h3, h4⟩
    have : pads = 0 := by
      obtain ⟨_, b, rfl, _⟩ := h4
      cases pads with
      | zero => rfl
      | succ n => exact absurd (by simp [List.replicate_succ]) hp
    subst this
    exact ⟨head, t, rest, rfl, h2, h3, isPaddedWire_zero.mp h4⟩
  · rintro ⟨head, t, rest, rfl, h2, h3, h4⟩
    exact ⟨head, 0, t, rest, by omega, rfl, h2, h3, isPaddedWire_zero.mpr h4⟩

/-- C83 (primitives, binary). Bytes are read as a primitive exactly when they start with bytes that have the bits of its wire text. -/
theorem C83_matter_binary (E : Env) (b : List UInt8) (m : Matter) :
    Matter.ofBinary E b = .ok m ↔ ∃ head t bt rest, b = bt ++ rest ∧ Spec.IsHead m.code m.size head ∧
      Spec.RawSize m.code m.size m.raw.length ∧ Spec.IsWire head m.raw t ∧ Spec.bytesBits bt = Spec.textBits t := by
  constructor
  · intro h
    obtain ⟨head, t, b', h1, h2, h3, h4, h5, h6⟩ := C76_matter_writes E (.binary h)
    obtain ⟨n, _, hn, h7⟩ := C05_binary_canonical E h
    obtain rfl := Res.ok.inj (h4.symm.trans h7)
    exact ⟨head, t, _, _, (List.take_append_drop _ _).symm, h1, h2, h5, h6⟩
  · rintro ⟨head, t, bt, rest, rfl, h1, h2, h3, h4⟩
    have h5 := (C76_matter_reads E h1 h2 h3).2 bt h4
    obtain ⟨_, b', _, h6, _, _, h7⟩ := C07_self_framing E (.binary h5)
    obtain ⟨n, hn, hl, h8⟩ := C05_binary_canonical E h5
    obtain rfl := Res.ok.inj (h6.symm.trans h8)
    have hlen : bt.take (n / 4 * 3) = bt := by
      apply List.take_of_length_le
      obtain ⟨hd', t', b'', g1, g2, g3, g4, g5, g6⟩ := C76_matter_writes E (.binary h5)
      obtain rfl := Res.ok.inj (h6.symm.trans g4)
      have hh : hd' = head := by
        obtain ⟨z, w, e1⟩ := Matter.wf_of_spec h1 h2
        obtain ⟨z', w', e2⟩ := Matter.wf_of_spec g1 g2
        have : z = z' := by
          exact Res.ok.inj (w.szg.symm.trans w'.szg)
        rw [e1, e2, this]
      subst hh
      obtain rfl := isWire_unique h3 g5
      have hb := congrArg List.length (bytesBits_inj (h4.trans g6.symm))
      rw [List.length_take] at hb
      omega
    have := h7 rest
    rw [hlen] at this
    exact this

/-- C83 (indexed signatures, text). For the sixteen signature codes. -/
theorem C83_indexer_text (E : Env) {s : Str} (hv : utf8Valid s = true) {c : Spec.IdxCode} (hc : c ∈ Spec.idxCodes) {x : Indexer}
    (hcode : x.code = c.code) :
    Indexer.ofText E s = .ok x ↔ ∃ head pads t rest, pads ≤ 2 ∧ s = t ++ rest ∧ Spec.IsIndexedHead c x.index x.ondex head ∧
      Spec.OndexRead c x.index x.ondex ∧ x.raw.length + pads = c.raw ∧ Spec.IsPaddedWire head x.raw pads t :=
  Indexer.exfil_iff hv hc hcode

/-- C83 (indexed signatures, binary). -/
theorem C83_indexer_binary (E : Env) (b : List UInt8) {c : Spec.IdxCode} (hc : c ∈ Spec.idxCodes) {x : Indexer} (hcode : x.code = c.code) :
    Indexer.ofBinary E b = .ok x ↔ ∃ head t bt rest, b = bt ++ rest ∧ Spec.IsIndexedHead c x.index x.ondex head ∧
      Spec.OndexRead c x.index x.ondex ∧ x.raw.length = c.raw ∧ Spec.IsWire head x.raw t ∧ Spec.bytesBits bt = Spec.textBits t := by
  obtain ⟨hz, hcur, hboth, hf, hraw, hms, hsep, hnsep, _⟩ := idxCodes_table c hc
  have key : ∀ w : Indexer.Wf x (idxRow c), Spec.bytesBits (Indexer.binary x (idxRow c)) = Spec.textBits (Indexer.text x (idxRow c)) := by
    intro w
    obtain ⟨hs, h3'⟩ := w.sextets_binary
    have hd := isDecoding_sextets h3'
    rw [hs] at hd
    exact hd.2.symm
  constructor
  · intro h
    obtain ⟨z, hw, hm, hl, hcan⟩ := Indexer.bexfil_canonical h
    have : z = idxRow c := idxRow_unique hc (by rw [← hcode]; exact hw.szg)
    subst this
    obtain ⟨w, hb⟩ := hcan rfl
    obtain ⟨head, h1, h2⟩ := w.wire hc hcode
    refine ⟨head, _, Indexer.binary x (idxRow c), b.drop ((Indexer.total x (idxRow c) + 1) * 3 / 4), ?_, h1, (Indexer.meant_iff hc hcode).mp hm,
      by rw [w.fix hf, hraw], h2, key w⟩
    rw [← hb, List.take_append_drop]
  · rintro ⟨head, t, bt, rest, rfl, h1, h2, h3, h4, h5⟩
    obtain ⟨w0, rfl⟩ := Indexer.headOk_of_isIndexedHead hc hcode h1
    have w : Indexer.Wf x (idxRow c) := ⟨w0, rfl, fun h => absurd h hf, fun _ => by rw [h3, hraw]⟩
    obtain ⟨head', g1, g2⟩ := w.wire hc hcode
    obtain rfl := isIndexedHead_unique h1 g1
    obtain rfl := isWire_unique h4 g2
    obtain rfl := bytesBits_inj (h5.trans (key w).symm)
    exact w.bexfil ((Indexer.meant_iff hc hcode).mpr h2) E rest

/-- C83 (indexed signatures). Whatever is read as an indexed signature has one of the sixteen codes or one of the three test codes. -/
theorem C83_indexer_codes (E : Env) {x : Indexer} (h : (∃ s, Indexer.ofText E s = .ok x) ∨ (∃ b, Indexer.ofBinary E b = .ok x)) :
    (∃ c ∈ Spec.idxCodes, x.code = c.code) ∨ x.code ∈ [lit "0z", lit "1z", lit "4z"] := by
  have key : ∀ e ∈ Indexer.sizes, (∃ c ∈ Spec.idxCodes, e.1 = c.code) ∨ e.1 ∈ [lit "0z", lit "1z", lit "4z"] := by decide +kernel
  rcases h with ⟨s, h⟩ | ⟨b, h⟩
  · obtain ⟨z, hw, _⟩ := Indexer.exfil_canonical h
    exact key _ (Indexer.sizage_mem hw.szg)
  · obtain ⟨z, hw, _⟩ := Indexer.bexfil_canonical h
    exact key _ (Indexer.sizage_mem hw.szg)

/-- C83 (counters, text). -/
theorem C83_counter_text (E : Env) {s : Str} (hv : utf8Valid s = true) (x : Counter) :
    Counter.ofText E s = .ok x ↔ ∃ digits rest, s = x.code ++ digits ++ rest ∧ (x.code, digits.length) ∈ Spec.counterCodes ∧
      Spec.IsB64Text digits ∧ Spec.textNum digits = x.count := by
  constructor
  · intro h
    obtain ⟨n, hn, _, h1⟩ := C25_text_canonical E h
    obtain ⟨t, b, h2, _, _, _, _, _, h6, _, ds, rfl, h8, h9, _⟩ := C23_roundtrip E (.text h)
    have e := Res.ok.inj (h2.symm.trans h1)
    refine ⟨ds, s.drop n, by rw [e, List.take_append_drop], h8, fun c hc => h6.1 c (List.mem_append_right _ hc), h9⟩
  · rintro ⟨ds, rest, rfl, h1, h2, h3⟩
    have hx : x = { code := x.code, count := Spec.textNum ds } := by rw [h3]
    obtain ⟨h4, h5, _⟩ := C76_counter E h1 h2
    rw [← hx] at h4 h5
    obtain ⟨t, b, g1, g2, g3, _⟩ := C25_self_framing E (.text h4)
    obtain rfl := Res.ok.inj (g1.symm.trans h5)
    refine g3 rest ?_
    rw [utf8Valid_ascii_append] at hv
    · exact hv
    · obtain ⟨t, b, q1, _, _, _, _, _, q6, _⟩ := C23_roundtrip E (.text h4)
      obtain rfl := Res.ok.inj (q1.symm.trans h5)
      exact ascii_b64Text q6.1

/-- C83 (counters, binary). -/
theorem C83_counter_binary (E : Env) (b : List UInt8) (x : Counter) :
    Counter.ofBinary E b = .ok x ↔ ∃ digits bt rest, b = bt ++ rest ∧ (x.code, digits.length) ∈ Spec.counterCodes ∧
      Spec.IsB64Text digits ∧ Spec.textNum digits = x.count ∧ Spec.bytesBits bt = Spec.textBits (x.code ++ digits) := by
  constructor
  · intro h
    obtain ⟨n, hn, _, h1⟩ := C25_binary_canonical E h
    obtain ⟨t, b', _, _, h2, _, _, _, h6, _, ds, rfl, h8, h9, _⟩ := C23_roundtrip E (.binary h)
    obtain rfl := Res.ok.inj (h2.symm.trans h1)
    refine ⟨ds, _, _, (List.take_append_drop _ _).symm, h8, fun c hc => h6.1 c (List.mem_append_right _ hc), h9, h6.2.symm⟩
  · rintro ⟨ds, bt, rest, rfl, h1, h2, h3, h4⟩
    have hx : x = { code := x.code, count := Spec.textNum ds } := by rw [h3]
    obtain ⟨h5, h6, h7⟩ := C76_counter E h1 h2
    have h8 := h7 bt h4
    rw [← hx] at h5 h6 h8
    obtain ⟨t, b', g1, g2, _, g3⟩ := C25_self_framing E (.text h5)
    obtain ⟨t2, b2, q1, _, q2, _, _, _, q6, _⟩ := C23_roundtrip E (.text h5)
    obtain rfl := Res.ok.inj (g2.symm.trans q2)
    obtain rfl := Res.ok.inj (q1.symm.trans h6)
    obtain rfl := bytesBits_inj (h4.trans q6.2)
    exact g3 rest

/-- Non-vacuity: `MAEC` is two bytes of a short number; `MAE=` is the same with the last byte missing, and read. -/
example : Spec.IsPaddedWire (lit "M") [1] 1 (lit "MAE=") ∧ Spec.RawSize (lit "M") 0 (1 + 1) :=
  ⟨⟨by decide, lit "MAE", by decide +kernel, by unfold Spec.IsB64Text; decide +kernel, 2, by decide, by decide +kernel⟩, .inl (by decide +kernel)⟩
example : Matter.ofText Env.debug (lit "MAE=") = .ok { code := lit "M", size := 0, raw := [1] } := by decide +kernel
example : Matter.ofText Env.debug (lit "MAEC") = .ok { code := lit "M", size := 0, raw := [1, 2] } := by decide +kernel
example : ∃ e, Matter.ofText Env.debug (lit "MQEC") = .err e := ⟨.prepad, by decide +kernel⟩
example : Spec.OndexRead ⟨lit "2A", false, 2, true, 64⟩ 5 7 ∧ Spec.IsIndexedHead ⟨lit "2A", false, 2, true, 64⟩ 5 7 (lit "2AAFAH") :=
  ⟨by unfold Spec.OndexRead; simp, lit "AF", lit "AH", by decide +kernel, by unfold Spec.IsB64Text; decide +kernel, by decide, by decide +kernel,
    by unfold Spec.IsB64Text; decide +kernel, by decide, fun _ => by decide +kernel⟩
example : Counter.ofText Env.debug (lit "-AAFrest") = .ok { code := lit "-A", count := 5 } := by decide +kernel

end Cesride
