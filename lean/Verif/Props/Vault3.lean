import Verif.Props.Vault2

/-! # Property C110: a whole exchange, and what the receiver's verdicts mean for every stream -/

namespace Cesride
namespace Builder
open Common Spec Tholder

variable {E : Env} {F : Str → Option Str} {H : Hash} {C : Crypto} {keys : List Str} {sith : Option Value} {ndigs : Option (List Str)} {nsith : Option Value}
    {toad : Option Nat} {wits cnfg : Option (List Str)} {data : Option (List Value)} {version : Option Version} {kind code : Option Str}
    {intive : Option Bool} {delpre : Option Str} {s : Sadder}

/-- C110. Enough keys: a number is reached by that many different signers, and any threshold is reached when exactly its positions have signed. -/
theorem C110_enough (h : incept E F H keys sith ndigs nsith toad wits cnfg data version kind code intive delpre = .ok s) :
    ∃ th, Serder.tholder E F s = .ok (some th) ∧
      (∀ n, th.num = .ok (some n) → 0 < n ∧ n ≤ keys.length ∧ ∀ L : List Nat, L.Nodup → th.satisfy E L = .ok (decide (n ≤ L.length))) ∧
      ∀ L : List Nat, L.Nodup → (∀ i, i ∈ L ↔ i < th.size) → th.satisfy E L = .ok true := by
  obtain ⟨vs, t, nt, kt, ntv, n, bt, dr, p, pre, vs', d, hp, hq, hk, hr, hv, hlt, hs, hc, _, _⟩ := incept_parts h
  obtain ⟨_, _, l3, _, _⟩ := look hk
  have hth := shown_read dr.thold dr.kt
  obtain ⟨o, e, hl⟩ := Sadder.index_ok.mp l3
  refine ⟨t, ((C60_thresholds e).1 _ _ hl).mpr hth, ?_, ?_⟩
  · intro m hm
    have h0 : 0 < m := Nat.pos_of_ne_zero fun e => dr.pos (by rw [hm, e])
    have hsz := dr.size
    refine ⟨h0, ?_, fun L hL => ?_⟩
    · rcases C101_shown hth with ⟨m', _, _, h2, _, h3⟩ | ⟨cs, _, h2, _⟩
      · rw [h2] at hm
        cases hm
        omega
      · have : t.num = .ok none := h2
        rw [hm] at this
        cases this
    · rw [C34_distinct_indices hth hm E hL, List.toFinset_card_of_nodup hL]
      simp [h0]
  · intro L hL hall
    rcases C101_shown hth with ⟨m, _, h1, h2, _, h3⟩ | ⟨cs, h1, h2, _, h3⟩
    · have h0 : 0 < m := Nat.pos_of_ne_zero fun e => dr.pos (by rw [h2, e])
      rw [C34_unweighted_decision hth h2]
      have hlen : L.length = m := by
        have : L.Perm (List.range m) := (List.perm_ext_iff_of_nodup hL List.nodup_range).mpr fun i => by rw [hall, List.mem_range, h3]
        rw [this.length_eq, List.length_range]
      simp [hlen, h0]
    · exact C36_full_set hth h1 E (.inl rfl) fun i => by rw [hall, h3]

/-- The bytes of a message are valid text and begin like the event. -/
theorem message_text {s : Sadder} {sigers wigers : Option (List Siger)} {sealed : Option Seal} {cigars : Option (List Cigar)} {m : Str}
    (hs : ∀ sigs, sigers = some sigs → (∀ x ∈ sigs, Genuine E x) ∧ sigs.length < 2 ^ 32) (hw : ∀ sigs, wigers = some sigs → (∀ x ∈ sigs, Genuine E x) ∧ sigs.length < 2 ^ 32)
    (hseal : ∀ x, sealed = some x → Readable E x) (h : messagize E s sigers sealed wigers cigars = .ok m) : ∃ t, m = s.raw ++ t ∧ utf8Valid m = true := by
  have hu : utf8Valid s.raw = true := by
    unfold messagize at h
    rw [fromUtf8] at h
    split at h
    · assumption
    · cases h
  have hsend := ((C109_written (cigars := cigars) hu hs hw hseal).1.mp ⟨m, h⟩).2
  obtain ⟨a, b, gs, ha, hb, hg, hasc, hr⟩ := (attached zeroHash hs hw hseal).2 hsend
  unfold messagize at h
  rw [fromUtf8, if_pos hu, Res.ok_bind] at h
  split at h
  · cases h
  · rw [ha, Res.ok_bind, hb, Res.ok_bind] at h
    obtain rfl := Res.ok.inj h
    refine ⟨a ++ b, rfl, ?_⟩
    rw [utf8Valid_append hu]
    exact utf8Valid_ascii hasc

/-- C110, a whole exchange: an inception message and a receipt message behind it, on one stream. The receiver accepts the first, and then the second for the event of the first; nothing is lost. -/
theorem C110_exchange (h : incept E F H keys sith ndigs nsith toad wits cnfg data version kind code intive delpre = .ok s)
    (hu : ∀ t ∈ ndigs.getD [] ++ cnfg.getD [] ++ delpre.toList, utf8Valid t = true) (hdata : ∀ v ∈ data.getD [], Ordinary F 125 v) (hl : s.raw.length < 2 ^ 32)
    (ht : ∀ m, toad = some m → m < 2 ^ 128) {signers ws : List Signer} (hk : KeysOf E C signers keys) (hw : KeysOf E C ws (wits.getD []))
    (hid : delpre ≠ none ∨ (∃ c ∈ digestPrefixes, code = some c) ∨ ndigs.getD [] = [] ∨ ∀ g ∈ signers, g.verfer.code ∈ transferableKeys)
    {sigs wigs : List Siger} (hs : SignedBy E C signers s.raw sigs) (hws : SignedBy E C ws s.raw wigs) (hn : sigs.length < 2 ^ 32) (hwn : wigs.length < 2 ^ 32)
    (hwl : (wits.getD []).length < 2 ^ 126) {cigars cigars' : Option (List Cigar)} {im rm i d : Str} {version' : Option Version} {kind' : Option Str} {r : Sadder}
    (hm : messagize E s (some sigs) none none cigars = .ok im) (hpre : Serder.pre s = .ok i) (hd : s.said E = .ok d) (hr : receipt E F H i 0 d version' kind' = .ok r)
    (hrl : r.raw.length < 2 ^ 32) (hrm : messagize E r none none (some wigs) cigars' = .ok rm) :
    ∃ th n, Serder.tholder E F s = .ok (some th) ∧ witnessThreshold E s = .ok n ∧ Asked E toad (wits.getD []) n ∧
      ∀ signed, th.satisfy E (sigs.map (·.indexer.index)).dedup = .ok signed → ∀ left, utf8Valid left = true → left.head? ≠ some (ch '-') →
        ∃ a c, acceptInception E F H C (im ++ (rm ++ left)) = .ok a ∧ a.event = s ∧ a.identified = true ∧ a.signers = (sigs.map (·.indexer.index)).dedup ∧ a.signed = signed ∧
          confirm E F H C a.event a.left = .ok c ∧ c.receipt = r ∧ c.witnesses = (wigs.map (·.indexer.index)).dedup ∧
          (c.witnessed = true ↔ n ≤ (wigs.map (·.indexer.index)).toFinset.card) ∧ c.left = left := by
  obtain ⟨th, n, h1, h2, hask, h3⟩ := C110_accepted h hu hdata hl ht hk hw hid (wigs := none) hs (by intro y hy; cases hy) hn (by simp) hwl hm
  obtain ⟨n', h4, _, h5⟩ := C110_receipted h ht hk hw hid hwl hpre hd hr hrl hws hwn hrm
  obtain rfl := Res.ok.inj (h2.symm.trans h4)
  refine ⟨th, n, h1, h2, hask, fun signed hsat left hleft hhead => ?_⟩
  obtain ⟨t, htxt, hut⟩ := message_text (E := E) (sigers := none) (wigers := some wigs) (by rintro _ ⟨⟩) (by rintro _ ⟨⟩; exact ⟨signed_genuine hw.1 hws, hwn⟩) (by rintro _ ⟨⟩) hrm
  obtain ⟨⟨vs, sn, hked, _⟩, hraw, _⟩ := C109_receipt (by exact Nat.two_pow_pos _) hr
  have hh : (rm ++ left).head? ≠ some (ch '-') := by
    rw [htxt, hraw, hked]
    simp only [receiptEntries, Value.toJson, List.append_assoc, List.cons_append, List.head?_cons]
    decide
  refine ⟨_, _, h3 signed hsat (rm ++ left) (by rw [utf8Valid_append hut]; exact hleft) hh, rfl, rfl, rfl, rfl, h5 left hleft hhead, rfl, rfl, ?_, rfl⟩
  simp [List.card_toFinset]

/-- C110. What the identifier of an event is worth when its SAID is not compared: the SAID of the event of a self-addressing identifier can be replaced by any text, and the identifier verifies as before. -/
theorem C110_said_defect (h : incept E F H keys sith ndigs nsith toad wits cnfg data version kind code intive delpre = .ok s)
    (hd : delpre ≠ none ∨ ∃ c ∈ digestPrefixes, code = some c) (d' : Str) :
    ∃ i ked', Serder.pre s = .ok i ∧ Prefixer.newWithQb64 E H i = .ok s.saider ∧ s.ked.set (lit "d") (.str d') = .ok ked' ∧ ked'.index (lit "d") = .ok (.str d') ∧
      Prefixer.verify E H s.saider ked' (some true) = .ok true := by
  obtain ⟨i, h1, h2, h3, h4, h5⟩ := C108_self_addressing h hd
  obtain ⟨vs, d, i', kt, nt, bt, hk, _⟩ := C108_event h
  refine ⟨i, .obj (inceptionEntries vs d' i' kt keys nt (ndigs.getD []) bt (wits.getD []) (cnfg.getD []) (data.getD []) delpre), h1, h4, ?_, ?_, ?_⟩
  · rw [hk, ← entries_d (d := d) d']
    rfl
  · cases delpre <;> rfl
  · rw [← h5, hk]
    have hc : s.saider.code ∈ digestPrefixes := by rw [h3]; decide +kernel
    unfold Prefixer.verify
    have e1 : ∀ d, (Value.obj (inceptionEntries vs d i' kt keys nt (ndigs.getD []) bt (wits.getD []) (cnfg.getD []) (data.getD []) delpre)).index (lit "t") =
        .ok (.str (if delpre.isNone then lit "icp" else lit "dip")) := by intro d; cases delpre <;> rfl
    have e2 : ∀ d code, Prefixer.deriveDigest H (Value.obj (inceptionEntries vs d i' kt keys nt (ndigs.getD []) bt (wits.getD []) (cnfg.getD []) (data.getD []) delpre)) code =
        Prefixer.deriveDigest H (Value.obj (inceptionEntries vs [] i' kt keys nt (ndigs.getD []) bt (wits.getD []) (cnfg.getD []) (data.getD []) delpre)) code := by
      intro d code
      cases delpre <;> rfl
    have e3 : ∀ d pre b, Prefixer.prefixMismatch (Value.obj (inceptionEntries vs d i' kt keys nt (ndigs.getD []) bt (wits.getD []) (cnfg.getD []) (data.getD []) delpre)) pre b =
        Prefixer.prefixMismatch (Value.obj (inceptionEntries vs [] i' kt keys nt (ndigs.getD []) bt (wits.getD []) (cnfg.getD []) (data.getD []) delpre)) pre b := by
      intro d pre b; cases delpre <;> rfl
    have hx : ∀ c ∈ digestPrefixes, Prefixer.nontransferableCodes.contains c = false ∧ Prefixer.transferableCodes.contains c = false := by decide +kernel
    obtain ⟨x1, x2⟩ := hx _ hc
    have e4 : ∀ d pre b code, Prefixer.verifyDigest E H (Value.obj (inceptionEntries vs d i' kt keys nt (ndigs.getD []) bt (wits.getD []) (cnfg.getD []) (data.getD []) delpre)) pre b code =
        Prefixer.verifyDigest E H (Value.obj (inceptionEntries vs [] i' kt keys nt (ndigs.getD []) bt (wits.getD []) (cnfg.getD []) (data.getD []) delpre)) pre b code := by
      intro d pre b code
      unfold Prefixer.verifyDigest
      rw [e2 d, e3 d]
      rfl
    simp only [e1, x1, x2, e4 d', e4 d, Bool.false_eq_true, if_false]

end Builder
end Cesride
