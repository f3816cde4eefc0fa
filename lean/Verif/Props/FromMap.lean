import Verif.Props.JsonRead

/-! # C85: which documents make a message -/

namespace Cesride
open Common Spec Spec.JsonText

/-- What a document must be like so that it can be written as a message of protocol `ident`: its entries are `o1`, the version string, `o2`. `raw`
and `nvs` are the bytes and the new version string. -/
def Writable (ident : Str) (kind : Option Str) (o1 o2 : List (Str × Value)) (vs : Value) (raw : List UInt8) (nvs : Str) : Prop :=
  lit "v" ∉ o1.map Prod.fst ∧ (∃ t n, vs = .str t ∧ VersionText t ident 1 0 (lit "JSON") n) ∧ (kind = none ∨ kind = some (lit "JSON")) ∧
  ∃ pre w post, FirstVersion (Value.obj (o1 ++ (lit "v", vs) :: o2)).toJson pre w post ∧ pre.length ≤ 12 ∧
    VersionText nvs ident 1 0 (lit "JSON") ((Value.obj (o1 ++ (lit "v", vs) :: o2)).toJson.length % 2 ^ 32) ∧ raw = pre ++ nvs ++ post

/-- What a document must be like to make a message with digest code `code`: it can be written, and its entry `d` is the text of a digest primitive
with that code, the SAID object `m`. -/
def MakesMessage (E : Env) (H : Hash) (ident code : Str) (kind : Option Str) (o1 o2 : List (Str × Value)) (vs : Value) (raw : List UInt8) (nvs : Str) (m : Matter) : Prop :=
  Writable ident kind o1 o2 vs raw nvs ∧ ∃ t, (o1 ++ o2).lookup (lit "d") = some (.str t) ∧ Saider.newWithQb64 E H t = .ok m ∧ m.code = code

theorem saiderOf_iff {E : Env} {H : Hash} (k : Value) (m : Matter) :
    Sadder.saiderOf E H k = .ok m ↔ ∃ o t, k = .obj o ∧ o.lookup (lit "d") = some (.str t) ∧ Saider.newWithQb64 E H t = .ok m := by
  constructor
  · intro h
    have h' := h
    obtain ⟨o, t, n, rfl, hl, -⟩ := Sadder.saiderOf_ok.mp h
    refine ⟨o, t, rfl, hl, ?_⟩
    unfold Sadder.saiderOf at h'
    simp only [Value.index, hl, Res.ok_bind, Value.toStr] at h'
    exact h'
  · rintro ⟨o, t, rfl, hl, h⟩
    unfold Sadder.saiderOf
    simp only [Value.index, hl, Res.ok_bind, Value.toStr]
    exact h

theorem lookup_skip (o1 o2 : List (Str × Value)) {k j : Str} (x : Value) (h : j ≠ k) : (o1 ++ (k, x) :: o2).lookup j = (o1 ++ o2).lookup j := by
  have : (j == k) = false := by simp [h]
  simp only [List.lookup_append, List.lookup_cons, this]

theorem mkVs_unique {i vs : Str} {n : Nat} (hi : i ∈ protocols) (h : VersionText vs i 1 0 (lit "JSON") n) : n < 2 ^ 24 ∧ vs = mkVs i n := by
  have hn : n < 2 ^ 24 := by
    obtain ⟨_, _, z, _, _, _, _, _, hz⟩ := h
    have := lowHexNum_lt hz.2.1
    rw [hz.1, hz.2.2] at this
    omega
  exact ⟨hn, VersionText_unique h (mkVs_text hi hn)⟩

theorem sizeify_iff {o1 o2 : List (Str × Value)} {x : Value} {ident : Str} {kind : Option Str} {r : Sized} (hi : ident ∈ protocols) (hv : lit "v" ∉ o1.map Prod.fst) :
    (sizeify (.obj (o1 ++ (lit "v", x) :: o2)) kind = .ok r ∧ r.ident = ident) ↔
    (∃ t n, x = .str t ∧ VersionText t ident 1 0 (lit "JSON") n) ∧ (kind = none ∨ kind = some (lit "JSON")) ∧
    ∃ pre w post nvs, FirstVersion (Value.obj (o1 ++ (lit "v", x) :: o2)).toJson pre w post ∧ pre.length ≤ 12 ∧
      VersionText nvs ident 1 0 (lit "JSON") ((Value.obj (o1 ++ (lit "v", x) :: o2)).toJson.length % 2 ^ 32) ∧
      r = { raw := pre ++ nvs ++ post, ident := ident, kind := lit "JSON", ked := .obj (o1 ++ (lit "v", .str nvs) :: o2), version := ⟨1, 0⟩ } := by
  have hfind : ∀ {t i : Str} {n : Nat}, VersionText t i 1 0 (lit "JSON") n →
      find (Value.obj (o1 ++ (lit "v", .str t) :: o2)).toJson = some (vsStart o1) := by
    intro t i n ht
    rw [toJson_versioned ht, find_versioned ht]
    rfl
  have hcut : ∀ {s pre w post : Str}, FirstVersion s pre w post → pre = s.take pre.length ∧ post = s.drop (pre.length + 17) := by
    intro s pre w post h
    have hw := versionLike_length h.2.1
    rw [h.1, ← hw]
    constructor
    · rw [List.append_assoc, List.take_left]
    · rw [← List.length_append, List.drop_left]
  constructor
  · rintro ⟨h, hid⟩
    obtain ⟨p1, p2, vs, i, sz, e, hn, ht, hp, hk⟩ := sizeify_ok h
    have hx : x = .str vs := by
      have h1 := lookup_of_split (v := x) (o2 := o2) hv
      have h2 := lookup_of_split (v := .str vs) (o2 := p2) hn
      rw [Value.obj.inj e, h2] at h1
      exact (Option.some.inj h1).symm
    subst hx
    have hse := sizeify_eq (o2 := o2) hv ht hp hk
    dsimp only at hse
    rw [hse] at h
    split at h
    · rename_i hc
      injection h with h
      have hii : i = ident := by rw [← hid, ← h]
      subst hii
      obtain ⟨pre, w, post, hF, hl⟩ := find_iff.mp (hfind ht)
      obtain ⟨c1, c2⟩ := hcut hF
      refine ⟨⟨vs, sz, rfl, ht⟩, ?_, pre, w, post, mkVs i ((Value.obj (o1 ++ (lit "v", .str vs) :: o2)).toJson.length % 2 ^ 32), hF, by omega, mkVs_text hp hc.2, ?_⟩
      · cases kind with
        | none => exact .inl rfl
        | some k => exact .inr (by rw [← hk]; rfl)
      · rw [← h, ← hl, ← c1, ← c2]
        rfl
    · cases h
  · rintro ⟨⟨t, n, rfl, ht⟩, hk, pre, w, post, nvs, hF, hl, hnv, rfl⟩
    refine ⟨?_, rfl⟩
    have hk' : kind.getD (lit "JSON") = lit "JSON" := by rcases hk with rfl | rfl <;> rfl
    obtain ⟨hn, rfl⟩ := mkVs_unique hi hnv
    have hse := sizeify_eq (o2 := o2) hv ht hi hk'
    dsimp only at hse
    have hs : pre.length = vsStart o1 := by
      have := find_iff.mpr ⟨pre, w, post, hF, rfl⟩
      rw [hfind ht] at this
      exact (Option.some.inj this).symm
    obtain ⟨c1, c2⟩ := hcut hF
    rw [hse, if_pos ⟨by omega, hn⟩, ← hs, ← c1, ← c2]
    rfl

theorem sadder_makes {E : Env} {F : Str → Option Str} {H : Hash} {dflt s : Sadder} {code kind : Option Str} {ked : Value} {sad : Option Sadder} {ident : Str} (hi : ident ∈ protocols) :
    Sadder.new E F H dflt code none kind (some ked) sad = .ok s ∧ s.ident = ident ↔
    ∃ o1 vs o2 raw nvs m, ked = .obj (o1 ++ (lit "v", vs) :: o2) ∧ MakesMessage E H ident (code.getD (lit "E")) kind o1 o2 vs raw nvs m ∧
      s = { code := code.getD (lit "E"), raw := raw, ked := .obj (o1 ++ (lit "v", .str nvs) :: o2), ident := ident, kind := lit "JSON", size := raw.length % 2 ^ 32, version := ⟨1, 0⟩, saider := m } := by
  have hd : (lit "d" : Str) ≠ lit "v" := by decide
  rw [Sadder.new_ked_ok]
  constructor
  · rintro ⟨⟨r, m, hr, hm, hc, rfl⟩, hid⟩
    obtain ⟨o1, o2, vs, i, sz, rfl, hn, ht, hp, hk⟩ := sizeify_ok hr
    obtain ⟨h1, h2, pre, w, post, nvs, h3, h4, h5, rfl⟩ := (sizeify_iff hi hn).mp ⟨hr, hid⟩
    obtain ⟨o, t, e, hl, hs⟩ := (saiderOf_iff _ _).mp hm
    cases e
    rw [lookup_skip _ _ _ hd] at hl
    exact ⟨o1, .str vs, o2, _, nvs, m, rfl, ⟨⟨hn, h1, h2, pre, w, post, h3, h4, h5, rfl⟩, t, hl, hs, hc⟩, rfl⟩
  · rintro ⟨o1, vs, o2, raw, nvs, m, rfl, ⟨⟨hn, h1, h2, pre, w, post, h3, h4, h5, rfl⟩, t, hl, hs, hc⟩, rfl⟩
    have hr := (sizeify_iff hi hn).mpr ⟨h1, h2, pre, w, post, nvs, h3, h4, h5, rfl⟩
    refine ⟨⟨_, m, hr.1, (saiderOf_iff _ _).mpr ⟨_, t, rfl, ?_, hs⟩, hc, rfl⟩, rfl⟩
    rw [lookup_skip _ _ _ hd]
    exact hl

/-- C85. A document makes an event exactly when it is one of protocol KERI, and the event is the one stated. -/
theorem C85_serder (E : Env) (F : Str → Option Str) (H : Hash) (code kind : Option Str) (ked : Value) (sad : Option Sadder) (s : Sadder) :
    Serder.new E F H code none kind (some ked) sad = .ok s ↔
    ∃ o1 vs o2 raw nvs m, ked = .obj (o1 ++ (lit "v", vs) :: o2) ∧ MakesMessage E H (lit "KERI") (code.getD (lit "E")) kind o1 o2 vs raw nvs m ∧
      s = { code := code.getD (lit "E"), raw := raw, ked := .obj (o1 ++ (lit "v", .str nvs) :: o2), ident := lit "KERI", kind := lit "JSON", size := raw.length % 2 ^ 32, version := ⟨1, 0⟩, saider := m } := by
  rw [Serder.new_ok, sadder_makes (by decide)]
  rfl

/-- C85. The same for credentials and protocol ACDC. -/
theorem C85_creder (E : Env) (F : Str → Option Str) (H : Hash) (code kind : Option Str) (ked : Value) (sad : Option Sadder) (s : Sadder) :
    Creder.new E F H code none kind (some ked) sad = .ok s ↔
    ∃ o1 vs o2 raw nvs m, ked = .obj (o1 ++ (lit "v", vs) :: o2) ∧ MakesMessage E H (lit "ACDC") (code.getD (lit "E")) kind o1 o2 vs raw nvs m ∧
      s = { code := code.getD (lit "E"), raw := raw, ked := .obj (o1 ++ (lit "v", .str nvs) :: o2), ident := lit "ACDC", kind := lit "JSON", size := raw.length % 2 ^ 32, version := ⟨1, 0⟩, saider := m } := by
  rw [Creder.new_ok, sadder_makes (by decide)]
  rfl

/-- C85. The bytes have the length of the document's JSON text, and when the version string is the first entry they are the JSON text of
the message's document. -/
theorem C85_bytes {E : Env} {H : Hash} {ident code : Str} {kind : Option Str} {o1 o2 : List (Str × Value)} {vs : Value} {raw : List UInt8} {nvs : Str} {m : Matter}
    (h : MakesMessage E H ident code kind o1 o2 vs raw nvs m) :
    raw.length = (Value.obj (o1 ++ (lit "v", vs) :: o2)).toJson.length ∧ raw.length % 2 ^ 32 < 2 ^ 24 ∧
    (o1 = [] → raw = (Value.obj ((lit "v", .str nvs) :: o2)).toJson) := by
  obtain ⟨⟨-, ⟨t, n, rfl, ht⟩, -, pre, w, post, hF, -, hn, rfl⟩, -⟩ := h
  have hw := versionLike_length hF.2.1
  have hnl := versionLike_length ⟨_, _, _, _, _, hn⟩
  have hlen : (pre ++ nvs ++ post).length = (Value.obj (o1 ++ (lit "v", .str t) :: o2)).toJson.length := by
    rw [hF.1]
    simp only [List.length_append, hw, hnl]
  refine ⟨hlen, ?_, ?_⟩
  · rw [hlen]
    obtain ⟨_, _, z, _, _, _, _, _, hz⟩ := hn
    have := lowHexNum_lt hz.2.1
    rw [hz.1, hz.2.2] at this
    omega
  · rintro rfl
    rw [List.nil_append] at hF
    rw [toJson_first ht] at hF
    rw [toJson_first hn]
    have hF2 := first_version ht (ch '"' :: objBack o2)
    have hl : pre.length = vHead.length := Nat.le_antisymm (hF.2.2 _ _ _ hF2.1 hF2.2.1) (hF2.2.2 _ _ _ hF.1 hF.2.1)
    have he := hF.1
    rw [List.append_assoc, List.append_assoc] at he
    obtain ⟨e1, e2⟩ := List.append_inj he hl.symm
    obtain ⟨-, e3⟩ := List.append_inj e2 (by rw [hw, versionLike_length ⟨_, _, _, _, _, ht⟩])
    rw [← e1, ← e3]

theorem sadder_makes_panic {E : Env} {F : Str → Option Str} {H : Hash} {dflt : Sadder} {code kind : Option Str} {ked : Value} {sad : Option Sadder} :
    Sadder.new E F H dflt code none kind (some ked) sad = .panic ↔
    ∃ ident o1 vs o2 raw nvs, ident ∈ protocols ∧ ked = .obj (o1 ++ (lit "v", vs) :: o2) ∧ Writable ident kind o1 o2 vs raw nvs ∧
      (lit "d" ∉ (o1 ++ o2).map Prod.fst ∨ ∃ t, (o1 ++ o2).lookup (lit "d") = some (.str t) ∧ Matter.ofText E t = .panic) := by
  have hd : (lit "d" : Str) ≠ lit "v" := by decide
  have key : Sadder.new E F H dflt code none kind (some ked) sad = .panic ↔ ∃ r, sizeify ked kind = .ok r ∧ Sadder.saiderOf E H r.ked = .panic := by
    unfold Sadder.new Sadder.populateFromKed Sadder.setSaider
    dsimp only
    cases hr : sizeify ked kind with
    | panic => exact absurd hr (sizeify_ne_panic _ _)
    | err e => simp
    | ok r =>
      dsimp only
      cases hm : Sadder.saiderOf E H r.ked with
      | panic => simp [hm]
      | err e => simp [hm]
      | ok m =>
        dsimp only
        split <;> simp [hm]
  have hnk : ∀ (o1 o2 : List (Str × Value)) (x : Value), lit "d" ∉ (o1 ++ (lit "v", x) :: o2).map Prod.fst ↔ lit "d" ∉ (o1 ++ o2).map Prod.fst := by
    intro o1 o2 x
    simp only [List.map_append, List.map_cons, List.mem_append, List.mem_cons, hd, false_or]
  rw [key]
  constructor
  · rintro ⟨r, hr, hp⟩
    obtain ⟨o1, o2, vs, i, sz, rfl, hn, ht, hi, hk⟩ := sizeify_ok hr
    have hid : r.ident ∈ protocols := by
      have := sizeify_eq (o2 := o2) hn ht hi hk
      dsimp only at this
      rw [this] at hr
      split at hr
      · injection hr with hr; rw [← hr]; exact hi
      · cases hr
    obtain ⟨h1, h2, pre, w, post, nvs, h3, h4, h5, he⟩ := (sizeify_iff hid hn).mp ⟨hr, rfl⟩
    rw [he] at hp
    refine ⟨r.ident, o1, _, o2, _, nvs, hid, rfl, ⟨hn, h1, h2, pre, w, post, h3, h4, h5, rfl⟩, ?_⟩
    rcases Sadder.saiderOf_panic.mp hp with h | ⟨o, e, h⟩ | ⟨o, t, e, h, hx⟩
    · exact absurd rfl (h _)
    · cases e; exact .inl ((hnk _ _ _).mp h)
    · cases e; rw [lookup_skip _ _ _ hd] at h; exact .inr ⟨t, h, hx⟩
  · rintro ⟨i, o1, vs, o2, raw, nvs, hi, rfl, ⟨hn, h1, h2, pre, w, post, h3, h4, h5, rfl⟩, h⟩
    have hr := (sizeify_iff hi hn).mpr ⟨h1, h2, pre, w, post, nvs, h3, h4, h5, rfl⟩
    refine ⟨_, hr.1, Sadder.saiderOf_panic.mpr ?_⟩
    rcases h with h | ⟨t, h, hx⟩
    · exact .inr (.inl ⟨_, rfl, (hnk _ _ _).mpr h⟩)
    · exact .inr (.inr ⟨_, t, rfl, by rw [lookup_skip _ _ _ hd]; exact h, hx⟩)

/-- C85, the defect: a document that can be written, of either protocol, makes the constructors panic exactly when it has no entry `d`, or a text there
on which the primitive parser panics. Every other document gives a message or an error. -/
theorem C85_panics (E : Env) (F : Str → Option Str) (H : Hash) (code kind : Option Str) (ked : Value) (sad : Option Sadder) :
    (Serder.new E F H code none kind (some ked) sad = .panic ↔
      ∃ ident o1 vs o2 raw nvs, ident ∈ protocols ∧ ked = .obj (o1 ++ (lit "v", vs) :: o2) ∧ Writable ident kind o1 o2 vs raw nvs ∧
        (lit "d" ∉ (o1 ++ o2).map Prod.fst ∨ ∃ t, (o1 ++ o2).lookup (lit "d") = some (.str t) ∧ Matter.ofText E t = .panic)) ∧
    (Creder.new E F H code none kind (some ked) sad = .panic ↔ Serder.new E F H code none kind (some ked) sad = .panic) := by
  rw [Creder.new_panic, Serder.new_panic, sadder_makes_panic, sadder_makes_panic]
  exact ⟨Iff.rfl, Iff.rfl⟩

/-- C85. Without bytes and document, a given message is taken over when it is of the right protocol, whatever else is given; nothing at all is
an error. -/
theorem C85_copy (E : Env) (F : Str → Option Str) (H : Hash) (code kind : Option Str) (s0 s : Sadder) :
    (Serder.new E F H code none kind none (some s0) = .ok s ↔ s = s0 ∧ s0.ident = lit "KERI") ∧
    (Creder.new E F H code none kind none (some s0) = .ok s ↔ s = s0 ∧ s0.ident = lit "ACDC") ∧
    Serder.new E F H code none kind none none = .err .value ∧ Creder.new E F H code none kind none none = .err .value := by
  refine ⟨?_, ?_, rfl, rfl⟩
  · rw [Serder.new_ok]
    constructor
    · rintro ⟨h, hid⟩
      have : s0 = s := Res.ok.inj h
      subst this
      exact ⟨rfl, hid⟩
    · rintro ⟨rfl, hid⟩
      exact ⟨rfl, hid⟩
  · rw [Creder.new_ok]
    constructor
    · rintro ⟨h, hid⟩
      have : s0 = s := Res.ok.inj h
      subst this
      exact ⟨rfl, hid⟩
    · rintro ⟨rfl, hid⟩
      exact ⟨rfl, hid⟩

/-- The sample document is one that makes a message. -/
example : ∃ o1 vs o2 raw nvs m, sampleMsg (lit "KERI10JSON000000_") = .obj (o1 ++ (lit "v", vs) :: o2) ∧
    MakesMessage Env.release zeroHash (lit "KERI") (lit "E") none o1 o2 vs raw nvs m := by
  obtain ⟨s, h, -⟩ := sample_serder
  obtain ⟨o1, vs, o2, raw, nvs, m, h1, h2, -⟩ := (C85_serder _ _ _ _ _ _ _ _).mp h
  exact ⟨o1, vs, o2, raw, nvs, m, h1, h2⟩

/-- Without `d` it panics. -/
example : Serder.newWithKed Env.release (fun _ => none) zeroHash (.obj [(lit "v", .str (lit "KERI10JSON000000_")), (lit "t", .str (lit "icp"))]) none none = .panic := by
  have ht : VersionText (lit "KERI10JSON000000_") (lit "KERI") 1 0 (lit "JSON") 0 := sample_text (by decide +kernel)
  refine (C85_panics _ _ _ _ _ _ _).1.mpr ⟨lit "KERI", [], _, [(lit "t", .str (lit "icp"))], _, _, by decide +kernel, rfl,
    ⟨by decide, ⟨_, _, rfl, ht⟩, .inl rfl, vHead, lit "KERI10JSON000000_", ch '"' :: objBack [(lit "t", .str (lit "icp"))], ?_, ?_, mkVs_text (by decide) (by decide +kernel), rfl⟩, .inl (by decide)⟩
  · rw [List.nil_append, toJson_first ht]
    exact first_version ht _
  · decide +kernel

end Cesride
