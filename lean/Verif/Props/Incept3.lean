import Verif.Props.Incept2

/-! # Property C108, continued: exceptions and examples -/

namespace Cesride
namespace Builder
open Common Spec Tholder

variable {E : Env} {F : Str → Option Str} {H : Hash} {keys : List Str} {sith : Option Value} {ndigs : Option (List Str)} {nsith : Option Value}
    {toad : Option Nat} {wits cnfg : Option (List Str)} {data : Option (List Value)} {version : Option Version} {kind code : Option Str}
    {intive : Option Bool} {delpre : Option Str} {s : Sadder}

theorem number_thold (E : Env) (F : Str → Option Str) {n : Nat} (hn : n < 2 ^ 32) :
    ∃ t, Tholder.new E F none none (some (.int n)) = .ok t ∧ t.num = .ok (some n) ∧ t.size = n ∧ t.sith = .ok (.str (hexStr n)) := by
  obtain ⟨h1, h2, _⟩ := C34_accepted E F n
  obtain ⟨t, h3, h4⟩ := h2 (by omega)
  rw [Int.toNat_natCast] at h4
  have h5 : Tholder.new E F none none (some (.int n)) = .ok t := h1.trans h3
  rcases new_shaped h5 with ⟨m, hm⟩ | ⟨cs, hw⟩
  · have hmn : m = n := by
      have := num_number hm
      rw [h4] at this
      injection this with this
      injection this with this
      exact this.symm
    subst hmn
    exact ⟨t, h5, h4, hm.size, (sith_number (F := F) hm).1⟩
  · have : t.num = .ok none := by simp [num, hw.weighted]
    rw [h4] at this
    cases this

/-- Without any thresholds given, keys and witnesses are all that matters. -/
theorem proper_default (E : Env) (F : Str → Option Str) {keys ndigs wits : List Str} (hk : keys ≠ []) (h1 : keys.length < 2 ^ 32) (h2 : ndigs.length < 2 ^ 32) (h3 : wits.length < 2 ^ 32)
    (hw : ∀ u x y v, wits = u ++ x :: y :: v → x ≠ y) :
    ∃ n, n ≤ wits.length ∧ Proper E F keys none ndigs none none wits false (.str (hexStr ((keys.length + 1) / 2))) (.str (hexStr ((ndigs.length + 1) / 2))) (.str (hexStr n)) := by
  have hpos : 1 ≤ keys.length := by cases keys <;> simp_all
  obtain ⟨t, t1, t2, t3, t4⟩ := number_thold E F (n := (keys.length + 1) / 2) (by omega)
  obtain ⟨u, u1, u2, u3, u4⟩ := number_thold E F (n := (ndigs.length + 1) / 2) (by omega)
  have hmax : max 1 ((keys.length + 1) / 2) = (keys.length + 1) / 2 := by omega
  have written : ∀ {t : Tholder} {v : Value}, t.sith = .ok v → WrittenThreshold false t v := fun h => .inr ⟨(fun _ h => by cases h), h⟩
  have ht : ∃ t, Tholder.new E F none none (some ((none : Option Value).getD (.int (max 1 ((keys.length + 1) / 2) : Nat)))) = .ok t ∧ t.num ≠ .ok (some 0) ∧ t.size ≤ keys.length ∧
      WrittenThreshold false t (.str (hexStr ((keys.length + 1) / 2))) := by
    refine ⟨t, ?_, ?_, by omega, written t4⟩
    · rw [hmax]; exact t1
    · rw [t2]; intro h; injection h with h; injection h with h; omega
  have hx : ∀ n : Nat, if (false : Bool) = true ∧ n < 2 ^ 32 - 1 then Value.str (hexStr n) = .int n else ∃ x, Value.str (hexStr n) = .str x ∧ CanonicalHex x n := by
    intro n
    rw [if_neg (by simp)]
    exact ⟨_, rfl, hexStr_canonical n⟩
  by_cases hn : wits = []
  · exact ⟨0, by omega, ht, ⟨u, u1, by omega, written u4⟩, hw, by omega, 0, .inr (.inr ⟨rfl, hn, rfl⟩), by rw [if_pos hn], hx 0⟩
  · obtain ⟨m, m1, m2, m3, _⟩ := C107_agreement E (n := wits.length) (by cases wits <;> simp_all) (by omega) none
    exact ⟨m, m3, ht, ⟨u, u1, by omega, written u4⟩, hw, by omega, m, .inr (.inl ⟨rfl, hn, m1⟩), by rw [if_neg hn]; exact ⟨m2, m3⟩, hx m⟩

/-- A bound for the length of small events. -/
theorem small {n : Nat} (hn : n < 4) {f : Nat → Str → List UInt8} (h : ∀ k ≤ 88, ∀ n < 4, (f k (hexStr n)).length < 2 ^ 24) : ∀ k ≤ 88, (f k (hexStr n)).length < 2 ^ 24 :=
  fun k hk => h k hk n hn

/-- C108, a case of all the theorems about self-addressing identifiers: two keys, two next keys and three witnesses, with and without delegator. -/
theorem C108_example (E : Env) (F : Str → Option Str) (H : Hash) (delpre : Option Str) (hd : delpre = none ∨ delpre = some sampleKeyD) :
    ∃ s, incept E F H [sampleKeyD, sampleKeyB] none (some [lit "EAAA", lit "EBBB"]) none none (some [lit "BA", lit "BB", lit "BC"]) none none none none (some (lit "E")) none delpre = .ok s := by
  obtain ⟨n, hn, hp⟩ := proper_default E F (keys := [sampleKeyD, sampleKeyB]) (ndigs := [lit "EAAA", lit "EBBB"]) (wits := [lit "BA", lit "BB", lit "BC"]) (by decide) (by decide) (by decide)
    (by decide) ((dedup_same _).mp (by decide +kernel))
  have hn' : n ≤ 3 := hn
  have hsize := small (n := n) (f := fun k x => (Value.obj (inceptionEntries (lit "KERI10JSON000000_") (List.replicate k (ch '#')) (List.replicate k (ch '#'))
    (.str (hexStr 1)) [sampleKeyD, sampleKeyB] (.str (hexStr 1)) [lit "EAAA", lit "EBBB"] (.str x) [lit "BA", lit "BB", lit "BC"] [] [] delpre)).toJson) (by omega)
    (by rcases hd with rfl | rfl <;> decide +kernel)
  obtain ⟨s, hs, _⟩ := C108_accepts (E := E) (F := F) (H := H) (ndigs := some [lit "EAAA", lit "EBBB"]) (wits := some [lit "BA", lit "BB", lit "BC"]) (cnfg := none) (data := none)
    (version := none) (kind := none) (intive := none) (delpre := delpre) hp rfl rfl (.inl rfl) hsize
  exact ⟨s, hs⟩

/-- C108, a case where numbers are wanted and the only key names its code. -/
theorem C108_intive_example (E : Env) (F : Str → Option Str) (H : Hash) :
    ∃ s, incept E F H [sampleKeyD] (some (.str (lit "1"))) none none (some 2) (some [lit "BA", lit "BB"]) none none none none (some (lit "D")) (some true) none = .ok s ∧
      Serder.pre s = .ok sampleKeyD ∧ s.ked.index (lit "kt") = .ok (.int 1) ∧ s.ked.index (lit "bt") = .ok (.int 2) := by
  have wD : Matter.Wf ⟨lit "D", 0, List.replicate 32 0⟩ ⟨1, 0, 0, 44⟩ := ⟨by decide +kernel, by decide +kernel, by decide +kernel⟩
  obtain ⟨t, t1, t2, t3, t4⟩ := number_thold E F (n := 1) (by omega)
  obtain ⟨u, u1, u2, u3, u4⟩ := number_thold E F (n := 0) (by omega)
  have t1' : Tholder.new E F none none (some (.str (lit "1"))) = .ok t := by
    obtain ⟨x, hx, hy⟩ := C37_sith t1 (sith_nonempty t1)
    have hx := Res.ok.inj (t4.symm.trans hx)
    rw [← hx, show hexStr 1 = lit "1" by decide +kernel] at hy
    exact hy
  have hx : Matter.exfil sampleKeyD = .ok ⟨lit "D", 0, List.replicate 32 0⟩ := by decide +kernel
  have hp : Proper E F [sampleKeyD] (some (.str (lit "1"))) [] none (some 2) [lit "BA", lit "BB"] true (.int (1 : Nat)) (.int (0 : Nat)) (.int (2 : Nat)) :=
    ⟨⟨t, t1', by rw [t2]; decide, by rw [t3]; decide, .inl ⟨1, rfl, t2, by omega, rfl⟩⟩, ⟨u, u1, by omega, .inl ⟨0, rfl, u2, by omega, rfl⟩⟩, (dedup_same _).mp (by decide +kernel),
      by decide, 2, .inl rfl, by decide, by simp⟩
  obtain ⟨s, hs, hi⟩ := C108_accepts_key (E := E) (F := F) (H := H) (ndigs := none) (wits := some [lit "BA", lit "BB"]) (cnfg := none) (data := none) (version := none) (kind := none)
    (intive := some true) (code := some (lit "D")) (p := ⟨lit "D", 0, List.replicate 32 0⟩) hp rfl rfl (.inr ⟨rfl, by decide +kernel⟩)
    (((C54_parsed_unchecked (E := E) (H := H) _).1 sampleKeyD).2.1.mpr hx) ((wD.infil E).trans (by decide +kernel)) (by decide +kernel) (by decide +kernel)
  refine ⟨s, hs, hi, ?_, ?_⟩
  · obtain ⟨t', nt, kt, ntv, h1, _, h2, _, h3, _⟩ := C108_written hs
    obtain ⟨t'', nt', h4, _, h5, _⟩ := C108_thresholds hs
    rw [h1] at h4
    injection h4 with h4
    injection h4 with h4
    subst h4
    have h6 := h5 _ rfl
    rw [t1'] at h6
    injection h6 with h6
    subst h6
    rcases h3 with ⟨n, _, h3, _, rfl⟩ | ⟨h3, _⟩
    · rw [t2] at h3
      injection h3 with h3
      injection h3 with h3
      subst h3
      exact h2
    · have := h3 1 rfl t2
      omega
  · obtain ⟨n, bt, h1, h2, _, h3, _⟩ := C108_witnesses hs (by rintro m h; injection h with h; omega) (by decide)
    have := h3 2 rfl
    subst this
    rw [h1, h2 ⟨rfl, by omega⟩]
    rfl

/-- C108, exception: nothing is asked of keys, digests and witnesses but their number, and a witness may come again after another one: there is an event whose
keys cannot be read. -/
theorem C108_unchecked_defect (E : Env) (F : Str → Option Str) (H : Hash) :
    ∃ s e, incept E F H [lit "?", lit "?"] none none none none (some [lit "a", lit "b", lit "a"]) none none none none (some (lit "E")) none none = .ok s ∧
      Serder.verfers E s = .err e := by
  obtain ⟨n, hn, hp⟩ := proper_default E F (keys := [lit "?", lit "?"]) (ndigs := []) (wits := [lit "a", lit "b", lit "a"]) (by decide) (by decide) (by decide)
    (by decide) ((dedup_same _).mp (by decide +kernel))
  have hn' : n ≤ 3 := hn
  obtain ⟨s, hs, _⟩ := C108_accepts (E := E) (F := F) (H := H) (ndigs := none) (wits := some [lit "a", lit "b", lit "a"]) (cnfg := none) (data := none) (version := none) (kind := none)
    (intive := none) (delpre := none) hp rfl rfl (.inl rfl) (small (f := fun k x => (Value.obj (inceptionEntries (lit "KERI10JSON000000_") (List.replicate k (ch '#')) (List.replicate k (ch '#'))
    (.str (hexStr 1)) [lit "?", lit "?"] (.str (hexStr 0)) [] (.str x) [lit "a", lit "b", lit "a"] [] [] none)).toJson) (by omega) (by decide +kernel))
  obtain ⟨vs, d, i, kt, nt, bt, hk, _⟩ := C108_event hs
  have hx : Matter.exfil (lit "?") = .err .unknownHardage := by decide +kernel
  refine ⟨s, .unknownHardage, hs, ?_⟩
  unfold Serder.verfers
  rw [hk]
  have e : Verfer.new E none none none (some (lit "?")) none = .err .unknownHardage := by
    have : Verfer.new E none none none (some (lit "?")) none = (do let m ← Matter.exfil (lit "?"); Verfer.validateCode m.code; .ok m) := rfl
    rw [this, hx]; rfl
  have e2 : (Value.obj (inceptionEntries vs d i kt [lit "?", lit "?"] nt (none.getD []) bt ((some [lit "a", lit "b", lit "a"]).getD []) (none.getD []) (none.getD []) none)).index (lit "k") =
      .ok (.arr [.str (lit "?"), .str (lit "?")]) := rfl
  have hm : ∀ o : List (Str × Value), (Value.obj o).toMap = .ok o := fun _ => rfl
  rw [hm, Res.ok_bind, hasKey_some (v := .arr [.str (lit "?"), .str (lit "?")]) rfl, if_pos rfl, e2, Res.ok_bind]
  simp [Value.toVec, Serder.parseAll, Value.toStr, e]

/-- The event of a single key, with defaults. -/
theorem single (E : Env) (F : Str → Option Str) (H : Hash) {key : Str} {p : Matter} {ndigs : List Str} (hl : ndigs.length < 2) (hkey : Matter.exfil key = .ok p) (hq : p.qb64 E = .ok key)
    (hnd : p.code ∉ digestPrefixes)
    (hsize : ∀ k ≤ 88, (Value.obj (inceptionEntries (lit "KERI10JSON000000_") (List.replicate k (ch '#')) key (.str (hexStr 1)) [key] (.str (hexStr ((ndigs.length + 1) / 2))) ndigs
      (.str (hexStr 0)) [] [] [] none)).toJson.length < 2 ^ 24) :
    ∃ s, incept E F H [key] none (some ndigs) none none none none none none none none none none = .ok s ∧ Serder.pre s = .ok key := by
  obtain ⟨n, hn, hp⟩ := proper_default E F (keys := [key]) (ndigs := ndigs) (wits := []) (by simp) (by simp) (by omega) (by simp) ((dedup_same _).mp rfl)
  have hn' : n = 0 := by simpa using hn
  subst hn'
  have e1 : ([key].length + 1) / 2 = 1 := by simp
  rw [e1] at hp
  refine C108_accepts_key (ndigs := some ndigs) (wits := none) (cnfg := none) (data := none) (version := none) (kind := none) (intive := none) (code := none) hp rfl rfl (.inl rfl)
    (((C54_parsed_unchecked (E := E) (H := H) p).1 key).2.1.mpr hkey) hq hnd hsize

/-- C108, a case of the theorem about basic identifiers, where everything verifies. -/
theorem C108_basic_example (E : Env) (F : Str → Option Str) (H : Hash) :
    ∃ s, incept E F H [sampleKeyD] none (some [lit "EAAA"]) none none none none none none none none none none = .ok s ∧ Serder.pre s = .ok sampleKeyD := by
  have wD : Matter.Wf ⟨lit "D", 0, List.replicate 32 0⟩ ⟨1, 0, 0, 44⟩ := ⟨by decide +kernel, by decide +kernel, by decide +kernel⟩
  exact single E F H (p := ⟨lit "D", 0, List.replicate 32 0⟩) (by decide) (by decide +kernel) ((wD.infil E).trans (by decide +kernel)) (by decide +kernel) (by decide +kernel)

/-- C108, exception: the only key may have a code that no key has, here that of a salt; no identifier verifies then. -/
theorem C108_salt_defect (E : Env) (F : Str → Option Str) (H : Hash) :
    ∃ s i p, incept E F H [lit "0AAAAAAAAAAAAAAAAAAAAAAA"] none (some []) none none none none none none none none none none = .ok s ∧ Serder.pre s = .ok i ∧
      Prefixer.new E H none none none none none (some i) none = .ok p ∧ Prefixer.verify E H p s.ked (some true) = .err .unexpectedCode := by
  have w : Matter.Wf ⟨lit "0A", 0, List.replicate 16 0⟩ ⟨2, 0, 0, 24⟩ := ⟨by decide +kernel, by decide +kernel, by decide +kernel⟩
  have hx : Matter.exfil (lit "0AAAAAAAAAAAAAAAAAAAAAAA") = .ok ⟨lit "0A", 0, List.replicate 16 0⟩ := by decide +kernel
  obtain ⟨s, hs, hi⟩ := single E F H (p := ⟨lit "0A", 0, List.replicate 16 0⟩) (ndigs := []) (by decide) hx ((w.infil E).trans (by decide +kernel)) (by decide +kernel) (by decide +kernel)
  refine ⟨s, _, _, hs, hi, ((C54_parsed_unchecked (E := E) (H := H) _).1 _).2.1.mpr hx, ?_⟩
  obtain ⟨vs, d, i, kt, nt, bt, hk, _⟩ := C108_event hs
  unfold Prefixer.verify
  rw [hk]
  rfl

/-- C108, exception: a key that cannot be rotated is accepted along with digests of next keys; the identifier does not verify then. -/
theorem C108_next_defect (E : Env) (F : Str → Option Str) (H : Hash) :
    ∃ s i p, incept E F H [sampleKeyB] none (some [lit "EAAA"]) none none none none none none none none none none = .ok s ∧ Serder.pre s = .ok i ∧
      Prefixer.new E H none none none none none (some i) none = .ok p ∧ Prefixer.verify E H p s.ked (some true) = .ok false := by
  have w : Matter.Wf ⟨lit "B", 0, List.replicate 32 0⟩ ⟨1, 0, 0, 44⟩ := ⟨by decide +kernel, by decide +kernel, by decide +kernel⟩
  have hx : Matter.exfil sampleKeyB = .ok ⟨lit "B", 0, List.replicate 32 0⟩ := by decide +kernel
  obtain ⟨s, hs, hi⟩ := single E F H (p := ⟨lit "B", 0, List.replicate 32 0⟩) (ndigs := [lit "EAAA"]) (by decide) hx ((w.infil E).trans (by decide +kernel)) (by decide +kernel) (by decide +kernel)
  have hread := ((C54_parsed_unchecked (E := E) (H := H) ⟨lit "B", 0, List.replicate 32 0⟩).1 sampleKeyB).2.1.mpr hx
  refine ⟨s, _, _, hs, hi, hread, ?_⟩
  obtain ⟨i, rest, p, h1, h2, h3, _, _, _, _, _, h4⟩ := C108_basic hs rfl (by intro c h; cases h)
  rw [hi] at h2
  injection h2 with h2
  subst h2
  rw [hread] at h3
  injection h3 with h3
  subst h3
  rw [h4 (by decide +kernel)]
  simp

theorem entries_ext {vs d i vs' d' i' : Str} {kt nt bt : Value} {keys ndigs wits cnfg : List Str} {data : List Value} {c : List (Str × Value)}
    (hk : c.map Prod.fst = (inceptionEntries vs d i kt keys nt ndigs bt wits cnfg data delpre).map Prod.fst) (hv : c.lookup (lit "v") = some (.str vs'))
    (hd : c.lookup (lit "d") = some (.str d')) (hi : c.lookup (lit "i") = some (.str i'))
    (ho : ∀ k, k ≠ lit "v" → k ≠ lit "d" → k ≠ lit "i" → c.lookup k = (inceptionEntries vs d i kt keys nt ndigs bt wits cnfg data delpre).lookup k) :
    c = inceptionEntries vs' d' i' kt keys nt ndigs bt wits cnfg data delpre := by
  have hn : ((inceptionEntries vs d i kt keys nt ndigs bt wits cnfg data delpre).map Prod.fst).Nodup := by
    have h1 : List.Nodup [lit "v", lit "t", lit "d", lit "i", lit "s", lit "kt", lit "k", lit "nt", lit "n", lit "bt", lit "b", lit "c", lit "a"] := by decide +kernel
    have h2 : List.Nodup [lit "v", lit "t", lit "d", lit "i", lit "s", lit "kt", lit "k", lit "nt", lit "n", lit "bt", lit "b", lit "c", lit "a", lit "di"] := by decide +kernel
    cases delpre with
    | none => exact h1
    | some x => exact h2
  obtain ⟨rest, hrest⟩ := entries_cons (delpre := delpre) (d := d) (i := i) (kt := kt) (nt := nt) (bt := bt) (keys := keys) (ndigs := ndigs) (wits := wits) (cnfg := cnfg) (data := data)
  refine Json.assoc_ext (hk.trans (by cases delpre <;> rfl)) (by rw [hk]; exact hn) fun k => ?_
  by_cases h1 : k = lit "v"
  · subst h1; rw [hv]; rfl
  by_cases h2 : k = lit "d"
  · subst h2; rw [hd]; rfl
  by_cases h3 : k = lit "i"
  · subst h3; rw [hi]; rfl
  rw [ho k h1 h2 h3, ← entries_d (d := d) d', lookup_insert_ne _ _ h2, ← entries_i (i := i) i', lookup_insert_ne _ _ h3, hrest vs, hrest vs', List.lookup_cons, List.lookup_cons,
    beq_false_of_ne h1]

/-- Events with different identifiers of the same length have different bytes, even with different sizes in their version strings. -/
theorem entries_differ {vs vs' id id' d i i' : Str} {m m' : Nat} {kt nt bt : Value} {keys ndigs wits cnfg : List Str} {data : List Value} (h : VersionText vs id 1 0 (lit "JSON") m)
    (h' : VersionText vs' id' 1 0 (lit "JSON") m') (hp : ∀ c ∈ i, escapeByte c = [c]) (hp' : ∀ c ∈ i', escapeByte c = [c]) (hne : i ≠ i') :
    (Value.obj (inceptionEntries vs d i kt keys nt ndigs bt wits cnfg data delpre)).toJson ≠ (Value.obj (inceptionEntries vs' d i' kt keys nt ndigs bt wits cnfg data delpre)).toJson := by
  intro e
  obtain ⟨back, hb⟩ : ∃ back, ∀ vs i, inceptionEntries vs d i kt keys nt ndigs bt wits cnfg data delpre =
      [(lit "v", .str vs), (lit "t", .str (if delpre.isNone then lit "icp" else lit "dip")), (lit "d", .str d)] ++ (lit "i", .str i) :: back := ⟨_, fun _ _ => rfl⟩
  have hl := toJson_first_length (rest := [(lit "t", .str (if delpre.isNone then lit "icp" else lit "dip")), (lit "d", .str d), (lit "i", .str [])]) h h'
  have e3 : ∀ vs : Str, (lit "v", Value.str vs) :: [(lit "t", Value.str (if delpre.isNone then lit "icp" else lit "dip")), (lit "d", .str d), (lit "i", .str [])] =
    [(lit "v", .str vs), (lit "t", .str (if delpre.isNone then lit "icp" else lit "dip")), (lit "d", .str d)] ++ (lit "i", .str []) :: [] := fun _ => rfl
  rw [e3, e3, toJson_split, toJson_split, List.length_append, List.length_append (as := objFore _ _) (bs := _ ++ _), Nat.add_right_cancel_iff] at hl
  rw [hb, hb, toJson_split, toJson_split] at e
  have e := List.append_cancel_right (List.append_inj e hl).2
  rw [Value.toJson, Value.toJson, jsonStr_plain hp, jsonStr_plain hp'] at e
  injection e with _ e
  exact hne (List.append_cancel_right e)

/-- C108. The SAID of the event of a self-addressing identifier is not the digest of the event with that identifier, so that the check of the SAID succeeds only
with a hash collision; the check of the identifier is the one to use. -/
theorem C108_said_defect (h : incept E F H keys sith ndigs nsith toad wits cnfg data version kind code intive delpre = .ok s)
    (hd : delpre ≠ none ∨ ∃ c ∈ digestPrefixes, code = some c) {prefixed versioned : Option Bool} {kind' : Option Str}
    (hv : Saider.verify E H s.saider s.ked prefixed versioned kind' none none = .ok true) :
    ∃ a b, a ≠ b ∧ H.digest (lit "E") a = H.digest (lit "E") b := by
  obtain ⟨i, h1, h2, h3, h4, h5⟩ := C108_self_addressing h hd
  obtain ⟨vs, d, i', kt, nt, bt, hk, hr, hvt, _, h6, h7, _⟩ := C108_event h
  rw [h1] at h6
  rw [h2] at h7
  injection h6 with h6
  injection h7 with h7
  subst h6 h7
  have hq : s.saider.qb64 E = .ok i := h2
  obtain ⟨o, c, bytes, ⟨e, _⟩, pc, hraw, _, hfirst, _⟩ := C48_digest ⟨_, _, _, _, _, _, _, h4⟩ hq (by rw [h3]; decide +kernel) h5
  have hm : Matter.exfil i = .ok s.saider := ((C54_parsed_unchecked (E := E) (H := H) _).1 _).2.1.mp h4
  have hsaid : IsSaid E H s.saider := by
    refine ⟨none, none, none, none, none, none, none, some i, none, ?_⟩
    rw [Sadder.saider_qb64, hm, Res.ok_bind, validateDigestCode_ok (u := ()).mpr ⟨32, by rw [h3]; decide +kernel⟩]
    rfl
  obtain ⟨o2, c2, t2, e2, ht2, sc, hraw2, _⟩ := C44_content hsaid hv
  rw [hq] at ht2
  injection ht2 with ht2
  subst ht2
  rw [hk] at e e2
  injection e with e
  injection e2 with e2
  subst e e2
  obtain ⟨rest, hrest⟩ := entries_cons (delpre := delpre) (d := i) (i := i) (kt := kt) (nt := nt) (bt := bt) (keys := keys) (ndigs := ndigs.getD []) (wits := wits.getD [])
      (cnfg := cnfg.getD []) (data := data.getD [])
  have hb := hfirst _ _ (hrest vs)
  subst hb
  refine ⟨_, _, ?_, (by rw [← h3, ← hraw, ← hraw2] : H.digest (lit "E") (Value.obj c).toJson = H.digest (lit "E") (Value.obj c2).toJson)⟩
  have hplain : ∀ c ∈ i, escapeByte c = [c] := by
    obtain ⟨z, w⟩ := Matter.new_text_wf (Prefixer.new_matter h4).choose_spec.choose_spec.choose_spec.choose_spec.choose_spec hq
    exact (text_of_wf w hq).2.2
  have hmem : ∀ l ∈ [lit "d", lit "i"], l ∈ (inceptionEntries vs i i kt keys nt (ndigs.getD []) bt (wits.getD []) (cnfg.getD []) (data.getD []) delpre).map Prod.fst := by
    intro l hl
    simp only [List.mem_cons, List.not_mem_nil, or_false] at hl
    rcases hl with rfl | rfl <;> simp [inceptionEntries]
  obtain ⟨w, w', idn, m, _, hw, _, _, hvw⟩ := pc.version
  obtain ⟨x, x', idn', m1, m2, _, hx, _, _, hvx, _⟩ := sc.version (by simp) _ rfl
  have ec := entries_ext (delpre := delpre) (c := c) (by rw [pc.keys, if_pos (hmem _ (by simp)), if_pos (hmem _ (by simp)), List.append_nil, List.append_nil]) hw pc.said pc.pre
    (fun k h1 h2 h3 => pc.other k h3 h2 h1)
  have ec2 := entries_ext (delpre := delpre) (c := c2) (by
      rw [sc.keys, if_pos (hmem _ (by simp)), List.append_nil, List.filter_eq_self.mpr (by intro a _; simp)]) hx (sc.field (by simp))
    (by rw [sc.other _ (by simp) (by decide +kernel) (by decide +kernel)]; rfl) (fun k h1 h2 h3 => sc.other k (by simp) h2 h1)
  rw [ec, ec2]
  refine entries_differ hvw hvx (by intro c hc; rw [List.eq_of_mem_replicate hc]; decide +kernel) hplain ?_
  intro e
  rw [← e] at hm
  have hz : Matter.exfil (List.replicate i.length (ch '#')) ≠ .ok s.saider := by
    cases hi : i.length with
    | zero => intro h; cases h
    | succ n =>
      intro h
      have hh : Matter.hardage (ch '#') = .err .unknownHardage := by decide +kernel
      rw [List.replicate_succ] at h
      unfold Matter.exfil at h
      simp [hh] at h
  exact hz hm

end Builder
end Cesride
