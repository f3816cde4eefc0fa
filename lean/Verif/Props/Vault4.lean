import Verif.Props.Vault3

/-! # Property C110: what the receiver's verdicts mean, for every stream -/

namespace Cesride
namespace Builder
open Common Spec Tholder

variable {E : Env} {F : Str → Option Str} {H : Hash} {C : Crypto}

/-- A signature stands in the text behind a counter with this code. -/
def Found (E : Env) (code : Str) (text : Str) (y : Siger) : Prop :=
  ∃ u v w x c, text = u ++ (v ++ (w ++ x)) ∧ Counter.new E none none none none (some (v ++ (w ++ x))) none = .ok c ∧ c.fullSize = .ok v.length ∧ c.code = code ∧
    Siger.newWithQb64 E x none = .ok y

theorem Found.later {code : Str} {text : Str} {y : Siger} (h : Found E code text y) (u : Str) : Found E code (u ++ text) y := by
  obtain ⟨a, v, w, x, c, rfl, h⟩ := h
  exact ⟨u ++ a, v, w, x, c, by rw [List.append_assoc], h⟩

theorem slice_length {s r : Str} {k : Nat} (h : sliceStr s k s.length = .ok r) : (s.take k).length = k := by
  rw [List.length_take, Nat.min_eq_left]
  unfold sliceStr at h
  split at h
  · rename_i hc; exact hc.1
  · cases h

theorem readCount_sound {text rest : Str} {c : Counter} (h : readCount E text = .ok (c, rest)) :
    ∃ v, text = v ++ rest ∧ Counter.new E none none none none (some text) none = .ok c ∧ c.fullSize = .ok v.length := by
  unfold readCount at h
  obtain ⟨c', h1, h⟩ := Res.bind_eq_ok.mp h
  obtain ⟨k, h2, h⟩ := Res.bind_eq_ok.mp h
  obtain ⟨r, h3, h⟩ := Res.bind_eq_ok.mp h
  have h := Res.ok.inj h
  simp only [Prod.mk.injEq] at h
  obtain ⟨rfl, rfl⟩ := h
  exact ⟨text.take k, sliceStr_to_end h3, h1, by rw [slice_length h3]; exact h2⟩

theorem skip_sound {m : Matter} {text rest : Str} (h : skip m text = .ok rest) : ∃ u, text = u ++ rest := by
  unfold skip at h
  obtain ⟨k, _, h⟩ := Res.bind_eq_ok.mp h
  exact ⟨_, sliceStr_to_end h⟩

theorem readInner_sound {text rest : Str} {sigs : List Siger} (h : readInner E text = .ok (sigs, rest)) : ∃ u, text = u ++ rest := by
  unfold readInner at h
  obtain ⟨⟨c, t⟩, h1, h'⟩ := Res.bind_eq_ok.mp h
  clear h
  dsimp only at h'
  split at h'
  · obtain ⟨v, rfl, _⟩ := readCount_sound h1
    obtain ⟨_, ⟨u, rfl⟩, _⟩ := readSigs_sound h'
    exact ⟨v ++ u, by rw [List.append_assoc]⟩
  · cases h'

/-- The signatures of the controller in a group, and those of witnesses. -/
def signatures : Group → List Siger × List Siger
  | .controller sigs => (sigs, [])
  | .witness sigs => ([], sigs)
  | _ => ([], [])

theorem readGroup_sound {text rest : Str} {g : Group} (h : readGroup E H text = .ok (g, rest)) :
    (∃ u, text = u ++ rest) ∧ (∀ y ∈ (signatures g).1, Found E (lit "-A") text y) ∧ ∀ y ∈ (signatures g).2, Found E (lit "-B") text y := by
  unfold readGroup at h
  obtain ⟨⟨c, t⟩, h1, h'⟩ := Res.bind_eq_ok.mp h
  clear h
  rename' h' => h
  obtain ⟨v, rfl, h2, h3⟩ := readCount_sound h1
  dsimp only at h
  have found : ∀ {n sigs l code}, readSigs E n t = .ok (sigs, l) → c.code = code → (∃ u, v ++ t = u ++ l) ∧ ∀ y ∈ sigs, Found E code (v ++ t) y := by
    intro n sigs l code hs hc
    obtain ⟨_, ⟨u, e⟩, hall⟩ := readSigs_sound hs
    refine ⟨⟨v ++ u, by rw [e, List.append_assoc]⟩, fun y hy => ?_⟩
    obtain ⟨w, x, e', hx⟩ := hall y hy
    subst e'
    exact ⟨[], v, w, x, c, rfl, h2, h3, hc, hx⟩
  split at h
  · rename_i hc
    obtain ⟨⟨sigs, l⟩, hs, h⟩ := Res.bind_eq_ok.mp h
    have h := Res.ok.inj h
    simp only [Prod.mk.injEq] at h
    obtain ⟨rfl, rfl⟩ := h
    obtain ⟨f1, f2⟩ := found hs hc
    exact ⟨f1, f2, (by intro y hy; cases hy)⟩
  split at h
  · rename_i hc
    obtain ⟨⟨sigs, l⟩, hs, h⟩ := Res.bind_eq_ok.mp h
    have h := Res.ok.inj h
    simp only [Prod.mk.injEq] at h
    obtain ⟨rfl, rfl⟩ := h
    obtain ⟨f1, f2⟩ := found hs hc
    exact ⟨f1, (by intro y hy; cases hy), f2⟩
  split at h
  · cases h
  split at h
  · obtain ⟨i, _, h⟩ := Res.bind_eq_ok.mp h
    obtain ⟨t1, e1, h⟩ := Res.bind_eq_ok.mp h
    obtain ⟨⟨sigs, l⟩, hs, h⟩ := Res.bind_eq_ok.mp h
    have h := Res.ok.inj h
    simp only [Prod.mk.injEq] at h
    obtain ⟨rfl, rfl⟩ := h
    obtain ⟨a, rfl⟩ := skip_sound e1
    obtain ⟨b, rfl⟩ := readInner_sound hs
    exact ⟨⟨v ++ (a ++ b), by simp⟩, (by intro y hy; cases hy), (by intro y hy; cases hy)⟩
  split at h
  · obtain ⟨i, _, h⟩ := Res.bind_eq_ok.mp h
    obtain ⟨t1, e1, h⟩ := Res.bind_eq_ok.mp h
    obtain ⟨sq, _, h⟩ := Res.bind_eq_ok.mp h
    obtain ⟨t2, e2, h⟩ := Res.bind_eq_ok.mp h
    obtain ⟨d, _, h⟩ := Res.bind_eq_ok.mp h
    obtain ⟨t3, e3, h⟩ := Res.bind_eq_ok.mp h
    obtain ⟨⟨sigs, l⟩, hs, h⟩ := Res.bind_eq_ok.mp h
    have h := Res.ok.inj h
    simp only [Prod.mk.injEq] at h
    obtain ⟨rfl, rfl⟩ := h
    obtain ⟨a, rfl⟩ := skip_sound e1
    obtain ⟨b, rfl⟩ := skip_sound e2
    obtain ⟨b', rfl⟩ := skip_sound e3
    obtain ⟨b2, rfl⟩ := readInner_sound hs
    exact ⟨⟨v ++ (a ++ (b ++ (b' ++ b2))), by simp⟩, (by intro y hy; cases hy), (by intro y hy; cases hy)⟩
  · cases h

theorem controllerSigs_cons (g : Group) (gs : List Group) : controllerSigs (g :: gs) = (signatures g).1 ++ controllerSigs gs := by cases g <;> rfl
theorem witnessSigs_cons (g : Group) (gs : List Group) : witnessSigs (g :: gs) = (signatures g).2 ++ witnessSigs gs := by cases g <;> rfl

theorem readGroups_sound : ∀ {n : Nat} {text rest : Str} {gs : List Group}, readGroups E H n text = .ok (gs, rest) →
    (∃ u, text = u ++ rest) ∧ (∀ y ∈ controllerSigs gs, Found E (lit "-A") text y) ∧ ∀ y ∈ witnessSigs gs, Found E (lit "-B") text y
  | 0, text, rest, gs, h => by
    have h := Res.ok.inj h
    simp only [Prod.mk.injEq] at h
    obtain ⟨rfl, rfl⟩ := h
    exact ⟨⟨[], rfl⟩, (by intro y hy; cases hy), (by intro y hy; cases hy)⟩
  | n + 1, text, rest, gs, h => by
    unfold readGroups at h
    split at h
    · obtain ⟨⟨g, t⟩, h1, h⟩ := Res.bind_eq_ok.mp h
      obtain ⟨⟨gs', l⟩, h2, h⟩ := Res.bind_eq_ok.mp h
      have h := Res.ok.inj h
      simp only [Prod.mk.injEq] at h
      obtain ⟨rfl, rfl⟩ := h
      obtain ⟨⟨u, rfl⟩, f1, f2⟩ := readGroup_sound h1
      obtain ⟨⟨u', rfl⟩, f3, f4⟩ := readGroups_sound h2
      refine ⟨⟨u ++ u', by rw [List.append_assoc]⟩, ?_, ?_⟩
      · intro y hy
        rw [controllerSigs_cons, List.mem_append] at hy
        exact hy.elim (f1 y) fun hy => (f3 y hy).later u
      · intro y hy
        rw [witnessSigs_cons, List.mem_append] at hy
        exact hy.elim (f2 y) fun hy => (f4 y hy).later u
    · have h := Res.ok.inj h
      simp only [Prod.mk.injEq] at h
      obtain ⟨rfl, rfl⟩ := h
      exact ⟨⟨[], rfl⟩, (by intro y hy; cases hy), (by intro y hy; cases hy)⟩

theorem readMessage_sound {stream : List UInt8} {m : Message} (h : readMessage E F H stream = .ok m) :
    Serder.newWithRaw E F H stream = .ok m.event ∧ ∃ text, stream = m.event.raw ++ text ∧ (∃ u, text = u ++ m.left) ∧ (∀ y ∈ controllerSigs m.groups, Found E (lit "-A") text y) ∧
      ∀ y ∈ witnessSigs m.groups, Found E (lit "-B") text y := by
  unfold readMessage at h
  obtain ⟨event, hev, h⟩ := Res.bind_eq_ok.mp h
  obtain ⟨att, hatt, h⟩ := Res.bind_eq_ok.mp h
  obtain ⟨text, htext, h⟩ := Res.bind_eq_ok.mp h
  obtain ⟨⟨gs, left⟩, hg, h⟩ := Res.bind_eq_ok.mp h
  have h := Res.ok.inj h
  subst h
  have htext : text = att := by
    unfold fromUtf8 at htext
    split at htext
    · exact (Res.ok.inj htext).symm
    · cases htext
  subst htext
  have hpre : stream = event.raw ++ text := by
    obtain ⟨size, o, m, hm, e⟩ := (C82_serder E F H none none stream none none event).mp hev
    have hraw : event.raw = stream.take event.raw.length := by
      rw [e]
      simp
    unfold slice at hatt
    split at hatt
    · have hatt := Res.ok.inj hatt
      rw [List.take_length] at hatt
      conv_lhs => rw [← List.take_append_drop event.raw.length stream, ← hraw, hatt]
    · cases hatt
  exact ⟨hev, text, hpre, readGroups_sound hg⟩

/-- The positions of the keys under which a signature verifies. -/
theorem mem_judge {keys : List Matter} {ser : List UInt8} {sigs : List Siger} {i : Nat} :
    i ∈ judge C keys ser sigs ↔ ∃ (k : Matter) (y : Siger), keys[i]? = some k ∧ y ∈ sigs ∧ y.indexer.index = i ∧ Verfer.verify C k y.indexer.raw ser = .ok true := by
  unfold judge
  rw [List.mem_dedup, List.mem_map]
  constructor
  · rintro ⟨y, hy, rfl⟩
    obtain ⟨hy, hv⟩ := List.mem_filter.mp hy
    unfold verifiesUnder at hv
    split at hv
    · rename_i k' hk'
      exact ⟨k', y, hk', hy, rfl, by simpa using hv⟩
    · cases hv
  · rintro ⟨k', y, hk', hy, rfl, hv⟩
    refine ⟨y, List.mem_filter.mpr ⟨hy, ?_⟩, rfl⟩
    unfold verifiesUnder
    rw [hk']
    simpa using hv

/-- C110, the receiver's verdict on an inception message means what it says, for every byte stream: the event is the one at its front; the identifier is said to belong to the event only if it verifies
against it (and stands in its field `d`, if it is a digest); a position is reported exactly if a signature found in a group of the controller (of witnesses) verifies under the key (witness) at that position over the bytes
of the event; and "enough" is said of different positions that reach the thresholds of the event. -/
theorem C110_sound {stream : List UInt8} {a : Accepted} (h : acceptInception E F H C stream = .ok a) :
    Serder.newWithRaw E F H stream = .ok a.event ∧ (∃ text, stream = a.event.raw ++ text ∧ (∃ u, text = u ++ a.left) ∧
      (∃ (keys : List Matter) (sigs : List Siger), Serder.verfers E a.event = .ok keys ∧ (∀ y ∈ sigs, Found E (lit "-A") text y) ∧
        ∀ i, i ∈ a.signers ↔ ∃ (k : Matter) (y : Siger), keys[i]? = some k ∧ y ∈ sigs ∧ y.indexer.index = i ∧ Verfer.verify C k y.indexer.raw a.event.raw = .ok true) ∧
      (∃ (named : List Matter) (sigs : List Siger), Serder.werfers E a.event = .ok named ∧ (∀ y ∈ sigs, Found E (lit "-B") text y) ∧
        ∀ i, i ∈ a.witnesses ↔ ∃ (k : Matter) (y : Siger), named[i]? = some k ∧ y ∈ sigs ∧ y.indexer.index = i ∧ Verfer.verify C k y.indexer.raw a.event.raw = .ok true)) ∧
    a.signers.Nodup ∧ a.witnesses.Nodup ∧
    (a.identified = true → ∃ i p, Serder.pre a.event = .ok i ∧ Prefixer.newWithQb64 E H i = .ok p ∧ Prefixer.verify E H p a.event.ked (some true) = .ok true ∧
      (p.code ∈ digestPrefixes → a.event.ked.index (lit "d") = .ok (.str i))) ∧
    (a.signed = true → ∃ th, Serder.tholder E F a.event = .ok (some th) ∧ th.satisfy E a.signers = .ok true ∧ ∀ n, th.num = .ok (some n) → 0 < n ∧ n ≤ a.signers.toFinset.card) ∧
    ∃ n, witnessThreshold E a.event = .ok n ∧ (a.witnessed = true ↔ n ≤ a.witnesses.toFinset.card) := by
  unfold acceptInception at h
  obtain ⟨m, hm, h⟩ := Res.bind_eq_ok.mp h
  obtain ⟨pre, hpre, h⟩ := Res.bind_eq_ok.mp h
  obtain ⟨p, hp, h⟩ := Res.bind_eq_ok.mp h
  obtain ⟨ver, hver, h⟩ := Res.bind_eq_ok.mp h
  obtain ⟨dv, hdv, h⟩ := Res.bind_eq_ok.mp h
  obtain ⟨d, hd, h⟩ := Res.bind_eq_ok.mp h
  obtain ⟨keys, hkeys, h⟩ := Res.bind_eq_ok.mp h
  obtain ⟨named, hnamed, h⟩ := Res.bind_eq_ok.mp h
  obtain ⟨th, hth, h⟩ := Res.bind_eq_ok.mp h
  obtain ⟨enough, he, h⟩ := Res.bind_eq_ok.mp h
  obtain ⟨n, hn, h⟩ := Res.bind_eq_ok.mp h
  have h := Res.ok.inj h
  subst h
  dsimp only
  obtain ⟨h1, text, h2, h3, h4, h5⟩ := readMessage_sound hm
  have nd : ∀ keys ser sigs, (judge C keys ser sigs).Nodup := fun _ _ _ => List.nodup_dedup _
  refine ⟨h1, ⟨text, h2, h3, ⟨keys, _, hkeys, h4, fun i => mem_judge⟩, ⟨named, _, hnamed, h5, fun i => mem_judge⟩⟩, nd _ _ _, nd _ _ _, ?_, ?_, n, hn, ?_⟩
  · intro hid
    rw [Bool.and_eq_true] at hid
    obtain ⟨hid, hid'⟩ := hid
    subst hid
    refine ⟨pre, p, hpre, hp, hver, fun hc => ?_⟩
    rw [digestive_iff.mpr hc] at hid'
    have : d = pre := by simpa using hid'
    rw [hdv, Sadder.toStr_ok.mp hd, this]
  · intro hen
    subst hen
    cases th with
    | none => cases he
    | some th =>
      refine ⟨th, hth, he, fun n hn => ?_⟩
      obtain ⟨map, hmap, hth⟩ := Res.bind_eq_ok.mp hth
      split at hth
      · obtain ⟨v, hv, hth⟩ := Res.bind_eq_ok.mp hth
        obtain ⟨t, ht, hth⟩ := Res.bind_eq_ok.mp hth
        have e : t = th := by simpa using hth
        subst e
        have := C34_distinct_indices ht hn E (nd keys m.event.raw (controllerSigs m.groups))
        dsimp only at he
        rw [he] at this
        simpa using this.symm
      · cases hth
  · rw [decide_eq_true_eq, List.toFinset_card_of_nodup (nd _ _ _)]

/-- C110, the same for receipts: the receipt is the message at the front of the stream, is of type `rct`, and names identifier, number and SAID of the event; positions and verdict are about the event,
its witnesses and its threshold. -/
theorem C110_confirm_sound {event : Sadder} {stream : List UInt8} {c : Confirmed} (h : confirm E F H C event stream = .ok c) :
    Serder.newWithRaw E F H stream = .ok c.receipt ∧ c.receipt.ked.index (lit "t") = .ok (.str (lit "rct")) ∧
    (∃ i sn d, Serder.pre c.receipt = .ok i ∧ Serder.pre event = .ok i ∧ Serder.sn E c.receipt = .ok sn ∧ Serder.sn E event = .ok sn ∧ c.receipt.said E = .ok d ∧ event.said E = .ok d) ∧
    (∃ text, stream = c.receipt.raw ++ text ∧ (∃ u, text = u ++ c.left) ∧ ∃ (named : List Matter) (sigs : List Siger), Serder.werfers E event = .ok named ∧
      (∀ y ∈ sigs, Found E (lit "-B") text y) ∧
      ∀ i, i ∈ c.witnesses ↔ ∃ (k : Matter) (y : Siger), named[i]? = some k ∧ y ∈ sigs ∧ y.indexer.index = i ∧ Verfer.verify C k y.indexer.raw event.raw = .ok true) ∧
    c.witnesses.Nodup ∧ ∃ n, witnessThreshold E event = .ok n ∧ (c.witnessed = true ↔ n ≤ c.witnesses.toFinset.card) := by
  unfold confirm at h
  obtain ⟨m, hm, h⟩ := Res.bind_eq_ok.mp h
  obtain ⟨tv, ht1, h⟩ := Res.bind_eq_ok.mp h
  obtain ⟨t, ht2, h⟩ := Res.bind_eq_ok.mp h
  obtain ⟨i, hi, h⟩ := Res.bind_eq_ok.mp h
  obtain ⟨i', hi', h⟩ := Res.bind_eq_ok.mp h
  obtain ⟨sn, hs, h⟩ := Res.bind_eq_ok.mp h
  obtain ⟨sn', hs', h⟩ := Res.bind_eq_ok.mp h
  obtain ⟨d, hd, h⟩ := Res.bind_eq_ok.mp h
  obtain ⟨d', hd', h'⟩ := Res.bind_eq_ok.mp h
  clear h
  split at h'
  · rename_i hc
    obtain ⟨e1, e2, e3, e4⟩ := hc
    subst e1 e2 e3 e4
    obtain ⟨named, hnamed, g⟩ := Res.bind_eq_ok.mp h'
    obtain ⟨n, hn, g2⟩ := Res.bind_eq_ok.mp g
    have g3 := Res.ok.inj g2
    subst g3
    dsimp only
    obtain ⟨h1, text, h2, h3, h4, h5⟩ := readMessage_sound hm
    have nd : ∀ keys ser sigs, (judge C keys ser sigs).Nodup := fun _ _ _ => List.nodup_dedup _
    refine ⟨h1, by rw [ht1, Sadder.toStr_ok.mp ht2], ⟨i, sn, d, hi, hi', hs, hs', hd, hd'⟩, ⟨text, h2, h3, named, _, hnamed, h5, fun i => mem_judge⟩, nd _ _ _, n, hn, ?_⟩
    rw [decide_eq_true_eq, List.toFinset_card_of_nodup (nd _ _ _)]
  · cases h'

theorem verify_text {p : Matter} {ked : Value} {b : Option Bool} (h : Prefixer.verify E H p ked b = .ok true) : ∃ t, p.qb64 E = .ok t := by
  unfold Prefixer.verify at h
  obtain ⟨_, _, h⟩ := Res.bind_eq_ok.mp h
  obtain ⟨_, _, h⟩ := Res.bind_eq_ok.mp h
  split at h
  · cases h
  split at h
  · obtain ⟨t, ht, _⟩ := Res.bind_eq_ok.mp h; exact ⟨t, ht⟩
  split at h
  · obtain ⟨t, ht, _⟩ := Res.bind_eq_ok.mp h; exact ⟨t, ht⟩
  split at h
  · obtain ⟨t, ht, _⟩ := Res.bind_eq_ok.mp h; exact ⟨t, ht⟩
  · cases h

/-- C110. A self-addressing identifier belongs to one event: if two streams are accepted with the same self-addressing identifier, and the version string is the first field of both events, then the events
have the same fields in the same order with the same values, up to the size in the version string - or two different serializations have the same digest. -/
theorem C110_one_event {st st' : List UInt8} {a b : Accepted} (ha : acceptInception E F H C st = .ok a) (hb : acceptInception E F H C st' = .ok b) (ia : a.identified = true) (ib : b.identified = true)
    {i : Str} {p : Matter} (hia : Serder.pre a.event = .ok i) (hib : Serder.pre b.event = .ok i) (hp : Prefixer.newWithQb64 E H i = .ok p) (hc : p.code ∈ digestPrefixes)
    {x y : Value} {u v : List (Str × Value)} (hu : a.event.ked = .obj ((lit "v", x) :: u)) (hv : b.event.ked = .obj ((lit "v", y) :: v))
    (pu : Plain (.obj ((lit "v", x) :: u))) (pv : Plain (.obj ((lit "v", y) :: v))) :
    (∃ m m' : List UInt8, m ≠ m' ∧ H.digest p.code m = H.digest p.code m') ∨ u = v := by
  obtain ⟨_, _, _, _, fa, _⟩ := C110_sound ha
  obtain ⟨_, _, _, _, fb, _⟩ := C110_sound hb
  obtain ⟨i1, p1, a1, a2, a3, a4⟩ := fa ia
  obtain ⟨i2, p2, b1, b2, b3, b4⟩ := fb ib
  obtain rfl := Res.ok.inj (hia.symm.trans a1)
  obtain rfl := Res.ok.inj (hib.symm.trans b1)
  obtain rfl := Res.ok.inj (hp.symm.trans a2)
  obtain rfl := Res.ok.inj (hp.symm.trans b2)
  have a4 := a4 hc
  have b4 := b4 hc
  obtain ⟨t, ht⟩ := verify_text a3
  rw [hu] at a3 a4
  rw [hv] at b3 b4
  have hpre : IsPrefix E H p := ⟨_, _, _, _, _, _, _, hp⟩
  obtain ⟨oa, ca, ba, ⟨e, _⟩, hca, hra, _, hfa, hpa⟩ := C48_digest hpre ht hc a3
  injection e with e
  subst e
  obtain ⟨ob, cb, bb, ⟨e, _⟩, hcb, hrb, _, hfb, hpb⟩ := C48_digest hpre ht hc b3
  injection e with e
  subst e
  obtain rfl := hfa x u rfl
  obtain rfl := hfb y v rfl
  have hpa := hpa rfl
  have hpb := hpb rfl
  by_cases he : (Value.obj ca).toJson = (Value.obj cb).toJson
  · right
    have hcc : Value.obj ca = Value.obj cb := C39_injective (hca.plain pu) (hcb.plain pv) he
    injection hcc with hcc
    subst hcc
    obtain ⟨_, e, da⟩ := Sadder.index_ok.mp a4
    injection e with e
    subst e
    obtain ⟨_, e, db⟩ := Sadder.index_ok.mp b4
    injection e with e
    subst e
    have mem : ∀ {o : List (Str × Value)} {k x}, o.lookup k = some x → k ∈ o.map Prod.fst := by
      intro o k x h
      exact List.mem_map.mpr ⟨_, lookup_mem h, rfl⟩
    have k1 := hca.keys
    have k2 := hcb.keys
    rw [if_pos (mem hpa), if_pos (mem da), List.append_nil, List.append_nil] at k1
    rw [if_pos (mem hpb), if_pos (mem db), List.append_nil, List.append_nil] at k2
    have hkeys := k1.symm.trans k2
    have hkeys' : u.map Prod.fst = v.map Prod.fst := by
      simp only [List.map_cons, List.cons.injEq, true_and] at hkeys
      exact hkeys
    have hnu := pu.2
    simp only [List.map_cons, List.nodup_cons] at hnu
    have hnv := pv.2
    simp only [List.map_cons, List.nodup_cons] at hnv
    refine Json.assoc_ext hkeys' hnu.2 fun k => ?_
    by_cases kv : k = lit "v"
    · subst kv
      rw [lookup_none_iff.mpr hnu.1, lookup_none_iff.mpr hnv.1]
    · have full : ((lit "v", x) :: u).lookup k = ((lit "v", y) :: v).lookup k := by
        by_cases k1 : k = lit "i"
        · subst k1; rw [hpa, hpb]
        · by_cases k2 : k = lit "d"
          · subst k2; rw [da, db]
          · rw [← hca.other k k1 k2 kv, ← hcb.other k k1 k2 kv]
      rw [List.lookup_cons, List.lookup_cons, beq_false_of_ne kv] at full
      exact full
  · left
    exact ⟨_, _, he, by rw [← hra, ← hrb]⟩

end Builder
end Cesride
