import Verif.Spec.Wire
import Verif.Props.Stream
import Verif.Props.Util

/-!
# Property C76: the wire format

Round trips say that this library agrees with itself. Here the encodings are compared with the specification of the format,
bit by bit, so that other implementations can read what is written and be read.
-/

namespace Cesride

theorem charBits_inj {x y : UInt8} (hx : x ∈ Spec.alphabet) (hy : y ∈ Spec.alphabet) (h : Spec.charBits x = Spec.charBits y) : x = y := by
  have h1 : Spec.alphabet.idxOf x < 64 := List.idxOf_lt_length_of_mem hx
  have h2 : Spec.alphabet.idxOf y < 64 := List.idxOf_lt_length_of_mem hy
  simp only [Spec.charBits, List.cons.injEq] at h
  have he : Spec.alphabet.idxOf x = Spec.alphabet.idxOf y := by omega
  have g1 := List.getElem_idxOf (xs := Spec.alphabet) (x := x) (List.idxOf_lt_length_of_mem hx)
  have g2 := List.getElem_idxOf (xs := Spec.alphabet) (x := y) (List.idxOf_lt_length_of_mem hy)
  rw [← g1, ← g2]
  simp only [he]

theorem textBits_inj {s t : Str} (hs : Spec.IsB64Text s) (ht : Spec.IsB64Text t) (h : Spec.textBits s = Spec.textBits t) : s = t := by
  induction s generalizing t with
  | nil => cases t with
    | nil => rfl
    | cons y ys => simp [Spec.textBits, Spec.charBits] at h
  | cons x xs ih => cases t with
    | nil => simp [Spec.textBits, Spec.charBits] at h
    | cons y ys =>
      simp only [Spec.textBits, List.flatMap_cons] at h
      have h' := List.append_inj h (by simp [Spec.charBits])
      rw [charBits_inj (hs x (by simp)) (ht y (by simp)) h'.1,
        ih (fun c hc => hs c (by simp [hc])) (fun c hc => ht c (by simp [hc])) h'.2]

theorem bytesBits_inj {r1 r2 : List UInt8} (hz : Spec.bytesBits r1 = Spec.bytesBits r2) : r1 = r2 := by
  induction r1 generalizing r2 with
  | nil => cases r2 with
    | nil => rfl
    | cons y ys => simp [Spec.bytesBits, Spec.byteBits] at hz
  | cons x xs ih => cases r2 with
    | nil => simp [Spec.bytesBits, Spec.byteBits] at hz
    | cons y ys =>
      simp only [Spec.bytesBits, List.flatMap_cons] at hz
      have h' := List.append_inj hz (by simp [Spec.byteBits])
      rw [byteBits_inj h'.1, ih h'.2]

/-- Sanity of the specification: head and raw determine the wire text. -/
theorem isWire_unique {head : Str} {raw : List UInt8} {s t : Str} (hs : Spec.IsWire head raw s) (ht : Spec.IsWire head raw t) : s = t := by
  obtain ⟨s1, s2, a, ha, s3⟩ := hs
  obtain ⟨t1, t2, b, hb, t3⟩ := ht
  have e1 := congrArg List.length s3
  have e2 := congrArg List.length t3
  simp only [List.length_append, List.length_replicate, textBits_length', bytesBits_length'] at e1 e2
  have : a = b := by omega
  subst this
  exact textBits_inj s1 t1 (s3.trans t3.symm)

/-- Sanity of the specification: under heads of the same length, the wire text determines head and raw, unless the lengths of raw
differ. -/
theorem isWire_inj {h1 h2 : Str} {r1 r2 : List UInt8} {t : Str} (b1 : Spec.IsB64Text h1) (b2 : Spec.IsB64Text h2)
    (hh : h1.length = h2.length) (hr : r1.length = r2.length) (w1 : Spec.IsWire h1 r1 t) (w2 : Spec.IsWire h2 r2 t) : h1 = h2 ∧ r1 = r2 := by
  obtain ⟨_, _, a, _, s3⟩ := w1
  obtain ⟨_, _, b, _, t3⟩ := w2
  have e := s3.symm.trans t3
  have e1 := congrArg List.length e
  simp only [List.length_append, List.length_replicate, textBits_length', bytesBits_length'] at e1
  have hab : a = b := by omega
  subst hab
  have x := List.append_inj e (by simp only [List.length_append, List.length_replicate, textBits_length']; omega)
  have y := List.append_inj x.1 (by simp only [textBits_length']; omega)
  refine ⟨textBits_inj b1 b2 y.1, ?_⟩
  exact bytesBits_inj x.2

theorem bytesBits_zeros (n : Nat) : Spec.bytesBits (List.replicate n 0) = List.replicate (8 * n) 0 := by
  induction n with
  | zero => rfl
  | succ n ih =>
    rw [List.replicate_succ, Spec.bytesBits, List.flatMap_cons, ← Spec.bytesBits, ih, show 8 * (n + 1) = 8 + 8 * n by omega,
      ← List.replicate_append_replicate]
    rfl

theorem bits_frame {h : List Nat} (hd : ∀ x ∈ h, x < 64) (ls : Nat) (raw : List UInt8) :
    Spec.bytesBits (packD h ++ List.replicate ls 0 ++ raw) =
      Spec.textBits (encD h) ++ List.replicate (2 * (h.length % 4) + 8 * ls) 0 ++ Spec.bytesBits raw := by
  have a2 : ∀ u v, Spec.bytesBits (u ++ v) = Spec.bytesBits u ++ Spec.bytesBits v := by intro u v; simp [Spec.bytesBits]
  rw [a2, a2, bits_packD hd, bytesBits_zeros, textBits_encD hd, ← List.replicate_append_replicate]
  simp only [List.append_assoc]

theorem textNum_inj {s t : Str} (hs : Spec.IsB64Text s) (ht : Spec.IsB64Text t) (hl : s.length = t.length) (h : Spec.textNum s = Spec.textNum t) :
    s = t := by
  obtain ⟨d, hd, rfl⟩ := exists_encD ((isB64Text_iff _).mp hs)
  obtain ⟨e, he, rfl⟩ := exists_encD ((isB64Text_iff _).mp ht)
  rw [textNum_encD hd, textNum_encD he] at h
  rw [encD_length, encD_length] at hl
  rw [valB_inj hd he hl h]

theorem textNum_lt {s : Str} (hs : Spec.IsB64Text s) : Spec.textNum s < 64 ^ s.length := by
  obtain ⟨d, hd, rfl⟩ := exists_encD ((isB64Text_iff _).mp hs)
  rw [textNum_encD hd, encD_length]
  exact valB_lt hd

namespace Matter

theorem Wf.wire {m : Matter} {z : Sizage} (w : Wf m z) :
    Spec.IsHead m.code m.size (m.code ++ encD (digitsB 64 z.ss m.size)) ∧
    Spec.IsWire (m.code ++ encD (digitsB 64 z.ss m.size)) m.raw (text m z) ∧ Spec.RawSize m.code m.size m.raw.length := by
  obtain ⟨hs, h3⟩ := w.sextets_binary
  have hd := isDecoding_sextets h3
  rw [hs] at hd
  have hlen := w.text_length
  have har := w.arith
  have hl := headD_length w.szg (m := m)
  have hlt := headD_lt w.szg (m := m)
  refine ⟨?_, ⟨hd.1, by omega, 2 * ((headD m z).length % 4) + 8 * z.ls, by rw [hl]; omega, ?_⟩, ?_⟩
  · rcases sizage_spec w.szg with ⟨hf, l, f, h1, h2, h3'⟩ | ⟨hf, hm⟩
    · right
      have e := w.szg
      rw [h3', varCode_sizage l h1 h2] at e
      injection e with e
      refine ⟨l, z.ls, f, _, h1, h2, h3', rfl, (isB64Text_iff _).mpr (encD_isB64 (digitsB_lt (by decide) _ _)), ?_, ?_⟩
      · rw [encD_length, digitsB_length, ← e]
      · rw [textNum_encD (digitsB_lt (by decide) _ _), valB_digitsB, Nat.mod_eq_of_lt (w.var hf).1]
    · left
      have : z.ss = 0 := ((row_of_sizage w.szg).fix hf).1
      rw [this]
      exact ⟨_, hm, (w.fix hf).1, by simp [digitsB, encD]⟩
  · rw [hd.2, binary, bits_frame hlt]
    have : encD (headD m z) = m.code ++ encD (digitsB 64 z.ss m.size) := by
      rw [headD, encD_append, encD_codeDigits (row_of_sizage w.szg).b64]
    rw [this]
  · rcases sizage_spec w.szg with ⟨hf, l, f, h1, h2, h3'⟩ | ⟨hf, hm⟩
    · right; exact ⟨l, z.ls, f, h1, h2, h3', (w.var hf).2⟩
    · left; rw [(w.fix hf).2]; exact hm

/-- Heads and sizes that the specification allows are those of well-formed objects. -/
theorem wf_of_spec {code head : Str} {size : Nat} {raw : List UInt8} (hh : Spec.IsHead code size head) (hr : Spec.RawSize code size raw.length) :
    ∃ z, Wf { code := code, size := size, raw := raw } z ∧ head = code ++ encD (digitsB 64 z.ss size) := by
  rcases hh with ⟨n, hm, hsz, rfl⟩ | ⟨l, lead, f, ds, h1, h2, h3, rfl, hb, hl, hn⟩
  · obtain ⟨z, hz, hf, hn⟩ := fixed_sizage hm
    refine ⟨z, ⟨hz, fun h => absurd h hf, fun _ => ⟨hsz, ?_⟩⟩, ?_⟩
    · simp only
      rcases hr with hr | ⟨l, lead, f, h1, h2, h3, _⟩
      · obtain ⟨z', hz', _, hn'⟩ := fixed_sizage hr
        rw [hz] at hz'
        obtain rfl := Res.ok.inj hz'
        exact hn'
      · rw [h3, varCode_sizage l h1 h2] at hz
        obtain rfl := Res.ok.inj hz
        exact absurd rfl hf
    · rw [((row_of_sizage hz).fix hf).1]; simp [digitsB, encD]
  · have hz := varCode_sizage l h1 h2
    rw [← h3] at hz
    refine ⟨_, ⟨hz, fun _ => ⟨?_, ?_⟩, fun h => absurd rfl h⟩, ?_⟩
    · simp only
      have := textNum_lt hb
      rw [hn, hl] at this
      exact this
    · simp only
      rcases hr with hr | ⟨l', lead', f', h1', h2', h3', h4⟩
      · obtain ⟨z', hz', hf', _⟩ := fixed_sizage hr
        rw [hz] at hz'
        obtain rfl := Res.ok.inj hz'
        exact absurd rfl hf'
      · have hz' := varCode_sizage l' h1' h2'
        rw [← h3', hz] at hz'
        have := congrArg Sizage.ls (Res.ok.inj hz')
        simp only at this
        omega
    · congr 1
      apply textNum_inj hb ((isB64Text_iff _).mpr (encD_isB64 (digitsB_lt (by decide) _ _)))
      · rw [encD_length, digitsB_length, hl]
      · have := textNum_lt hb
        rw [hn, hl] at this
        rw [hn, textNum_encD (digitsB_lt (by decide) _ _), valB_digitsB, Nat.mod_eq_of_lt this]

end Matter

/-- C76 (primitives). Every obtained primitive is written in the format: its text is the wire text of its head and raw, its binary has
the same bits. -/
theorem C76_matter_writes (E : Env) {m : Matter} (h : Obtained E m) :
    ∃ head t b, Spec.IsHead m.code m.size head ∧ Spec.RawSize m.code m.size m.raw.length ∧ m.qb64 E = .ok t ∧ m.qb2 E = .ok b ∧
      Spec.IsWire head m.raw t ∧ Spec.bytesBits b = Spec.textBits t := by
  obtain ⟨z, w⟩ := h.wf
  obtain ⟨h1, h2, h3⟩ := w.wire
  obtain ⟨hs, h3'⟩ := w.sextets_binary
  have hd := isDecoding_sextets h3'
  rw [hs] at hd
  exact ⟨_, _, _, h1, h3, w.infil E, w.binfil E, h2, hd.2.symm⟩

/-- C76 (primitives). Whatever wrote it: a text, or a binary, that is in the format is read as the code, size and raw that it has. -/
theorem C76_matter_reads (E : Env) {code head t : Str} {size : Nat} {raw : List UInt8} (hh : Spec.IsHead code size head)
    (hr : Spec.RawSize code size raw.length) (ht : Spec.IsWire head raw t) :
    Matter.ofText E t = .ok { code := code, size := size, raw := raw } ∧
    ∀ b, Spec.bytesBits b = Spec.textBits t → Matter.ofBinary E b = .ok { code := code, size := size, raw := raw } := by
  obtain ⟨z, w, rfl⟩ := Matter.wf_of_spec hh hr
  obtain ⟨_, h2, _⟩ := w.wire
  obtain rfl := isWire_unique ht h2
  constructor
  · have := w.exfil (rest := []) rfl
    rwa [List.append_nil] at this
  · intro b hb
    obtain ⟨hs, h3'⟩ := w.sextets_binary
    have hd := isDecoding_sextets h3'
    rw [hs] at hd
    obtain rfl := isDecoding_unique hd ⟨hd.1, hb.symm⟩
    have := w.bexfil E []
    rw [List.append_nil] at this
    exact this

theorem Indexer.Wf.wire {x : Indexer} {c : Spec.IdxCode} (hc : c ∈ Spec.idxCodes) (hcode : x.code = c.code) (w : Indexer.Wf x (idxRow c)) :
    ∃ head, Spec.IsIndexedHead c x.index x.ondex head ∧ Spec.IsWire head x.raw (Indexer.text x (idxRow c)) := by
  obtain ⟨hz, hcur, hboth, hf, hraw, hms, hsep, hnsep, _⟩ := idxCodes_table c hc
  obtain ⟨hs, h3⟩ := w.sextets_binary
  have hd := isDecoding_sextets h3
  rw [hs] at hd
  have hlen := w.text_length
  have har := w.arith
  have hl := Indexer.headD_length w.szg
  have hlt := Indexer.headD_lt w.szg (x := x)
  refine ⟨_, ⟨encD (digitsB 64 ((idxRow c).ss - (idxRow c).os) x.index), encD (digitsB 64 (idxRow c).os x.ondex), rfl, ?_, ?_, ?_, ?_, ?_, ?_⟩,
    ⟨hd.1, by omega, 2 * ((Indexer.headD x (idxRow c)).length % 4) + 8 * 0, by omega, ?_⟩⟩
  · exact (isB64Text_iff _).mpr (encD_isB64 (digitsB_lt (by decide) _ _))
  · rw [encD_length, digitsB_length, hms]
  · rw [textNum_encD (digitsB_lt (by decide) _ _), valB_digitsB, Nat.mod_eq_of_lt w.index]
  · exact (isB64Text_iff _).mpr (encD_isB64 (digitsB_lt (by decide) _ _))
  · rw [encD_length, digitsB_length]
    cases hs : c.separate
    · exact hnsep hs
    · exact (hsep hs).1
  · intro hs
    rw [textNum_encD (digitsB_lt (by decide) _ _), valB_digitsB, Nat.mod_eq_of_lt]
    exact w.ondex (by have := hsep hs; omega)
  · rw [hd.2, Indexer.binary, bits_frame hlt]
    have : encD (Indexer.headD x (idxRow c)) = c.code ++ encD (digitsB 64 ((idxRow c).ss - (idxRow c).os) x.index) ++ encD (digitsB 64 (idxRow c).os x.ondex) := by
      rw [Indexer.headD, encD_append, encD_append, encD_codeDigits (Indexer.row_of_sizage w.szg).b64, hcode]
    rw [this]

/-- C76 (indexed signatures). Every obtained indexed signature is written in the format. -/
theorem C76_indexer_writes (E : Env) {c : Spec.IdxCode} (hc : c ∈ Spec.idxCodes) {x : Indexer} (h : IdxObtained E c x) :
    ∃ head t, Spec.IsIndexedHead c x.index x.ondex head ∧ x.raw.length = c.raw ∧ x.qb64 E = .ok t ∧ Spec.IsWire head x.raw t ∧
      ∀ b, x.qb2 E = .ok b → Spec.bytesBits b = Spec.textBits t := by
  obtain ⟨hcode, w, hm⟩ := h.wf hc
  obtain ⟨hz, hcur, hboth, hf, hraw, hms, hsep, hnsep, _⟩ := idxCodes_table c hc
  obtain ⟨head, h1, h2⟩ := w.wire hc hcode
  refine ⟨head, _, h1, by rw [w.fix hf, hraw], w.infil E, h2, fun b hb => ?_⟩
  obtain ⟨t, ht, hd', _⟩ := C19_domains_equivalent E hc h hb
  obtain rfl := Res.ok.inj ((w.infil E).symm.trans ht)
  exact hd'.2.symm

theorem isIndexedHead_unique {c : Spec.IdxCode} {i o : Nat} {s t : Str} (hs : Spec.IsIndexedHead c i o s) (ht : Spec.IsIndexedHead c i o t) : s = t := by
  obtain ⟨a1, a2, rfl, b1, b2, b3, b4, b5, b6⟩ := hs
  obtain ⟨c1, c2, rfl, d1, d2, d3, d4, d5, d6⟩ := ht
  rw [textNum_inj b1 d1 (b2.trans d2.symm) (b3.trans d3.symm)]
  congr 1
  cases hc : c.separate
  · rw [hc] at b5 d5
    rw [List.eq_nil_of_length_eq_zero b5, List.eq_nil_of_length_eq_zero d5]
  · exact textNum_inj b4 d4 (b5.trans d5.symm) ((b6 hc).trans (d6 hc).symm)

/-- C76 (indexed signatures). A text, or a binary, in the format with permitted indices is read as what it says, whatever wrote it. -/
theorem C76_indexer_reads (E : Env) {c : Spec.IdxCode} (hc : c ∈ Spec.idxCodes) {index : Nat} {ondex : Option Nat}
    (hp : Spec.Permitted c index ondex) {head t : Str} {raw : List UInt8} (hh : Spec.IsIndexedHead c index (Spec.otherIndex c index ondex) head)
    (hr : raw.length = c.raw) (ht : Spec.IsWire head raw t) :
    Indexer.ofText E t = .ok { code := c.code, raw := raw, index := index, ondex := Spec.otherIndex c index ondex } ∧
    ∀ b, Spec.bytesBits b = Spec.textBits t →
      Indexer.ofBinary E b = .ok { code := c.code, raw := raw, index := index, ondex := Spec.otherIndex c index ondex } := by
  obtain ⟨x, hx, h1, h2, h3, h4⟩ := C20_permitted_accepted E hc hp (raw := raw) (by omega)
  have hx' : x = { code := c.code, raw := raw, index := index, ondex := Spec.otherIndex c index ondex } := by
    cases x
    simp only at h1 h2 h3 h4
    rw [h1, h2, h3, h4, List.take_of_length_le (by omega)]
  obtain ⟨hcode, w, hm⟩ := (IdxObtained.built hp hx).wf hc
  rw [← hx']
  obtain ⟨head', g1, g2⟩ := w.wire hc hcode
  rw [h2, h3] at g1
  obtain rfl := isIndexedHead_unique hh g1
  have hraw : x.raw = raw := by rw [hx']
  rw [hraw] at g2
  obtain rfl := isWire_unique ht g2
  constructor
  · have := w.exfil hm (rest := []) rfl
    rwa [List.append_nil] at this
  · intro b hb
    obtain ⟨hs, h3'⟩ := w.sextets_binary
    have hd := isDecoding_sextets h3'
    rw [hs] at hd
    obtain rfl := isDecoding_unique hd ⟨hd.1, hb.symm⟩
    have := w.bexfil hm E []
    rw [List.append_nil] at this
    exact this

/-- C76 (counters). A text of a counter code and digits of a count, or the binary with the same bits, is read as that counter, and
every obtained counter is so written. -/
theorem C76_counter (E : Env) {code digits : Str} (hc : (code, digits.length) ∈ Spec.counterCodes) (hd : Spec.IsB64Text digits) :
    Counter.ofText E (code ++ digits) = .ok { code := code, count := Spec.textNum digits } ∧
    ({ code := code, count := Spec.textNum digits } : Counter).qb64 E = .ok (code ++ digits) ∧
    ∀ b, Spec.bytesBits b = Spec.textBits (code ++ digits) → Counter.ofBinary E b = .ok { code := code, count := Spec.textNum digits } := by
  have hlt := textNum_lt hd
  have ho : CounterObtained E { code := code, count := Spec.textNum digits } := by
    refine .built (code := code) (count := Spec.textNum digits) ?_
    rw [C24_limits E hc, if_pos (by omega)]
  obtain ⟨t, b, h1, _, h2, h3, _, h5, h6, _, ds, rfl, h8, h9, _⟩ := C23_roundtrip E ho
  simp only at h1 h8 h9
  have hds : ds = digits := by
    have hl : ds.length = digits.length := by
      have a := Counter.sizage_of_mem (counter_row hc)
      have b := Counter.sizage_of_mem (counter_row h8)
      rw [a] at b
      have := Res.ok.inj b
      simpa using (congrArg CSizage.ss this).symm
    have hb : Spec.IsB64Text ds := fun c hc => h6.1 c (List.mem_append_right _ hc)
    exact textNum_inj hb hd hl h9
  subst hds
  refine ⟨h3, h1, fun b' hb' => ?_⟩
  obtain rfl := isDecoding_unique h6 ⟨h6.1, hb'.symm⟩
  exact h5

/-- Non-vacuity: a two byte number, its bits spelled out. -/
example : Spec.IsWire (lit "M") [1, 2] (lit "MAEC") ∧ Spec.IsHead (lit "M") 0 (lit "M") ∧ Spec.RawSize (lit "M") 0 2 :=
  ⟨⟨by unfold Spec.IsB64Text; decide +kernel, by decide, 2, by decide, by decide +kernel⟩, .inl ⟨2, by decide +kernel, rfl, rfl⟩,
    .inl (by decide +kernel)⟩
example : Spec.IsWire (lit "5BAC") [1, 2, 3, 4, 5] (lit "5BACAAECAwQF") ∧ Spec.IsHead (lit "5B") 2 (lit "5BAC") ∧
    Spec.RawSize (lit "5B") 2 5 :=
  ⟨⟨by unfold Spec.IsB64Text; decide +kernel, by decide, 8, by decide, by decide +kernel⟩,
    .inr ⟨false, 1, ch 'B', lit "AC", by decide, by decide, by decide +kernel, by decide +kernel, by unfold Spec.IsB64Text; decide +kernel,
      by decide, by decide +kernel⟩,
    .inr ⟨false, 1, ch 'B', by decide, by decide, by decide +kernel, by decide⟩⟩

end Cesride
