import Verif.Lemmas.Sadder2
import Verif.Props.Matter

/-! # C42, C45, C46, C59: messages (`Serder`, `Creder`) -/

namespace Cesride
open Common Spec

theorem announces_iff {raw : Str} {v : Versioned} : sniff raw = .ok v ↔ Announces raw v.ident v.version.major v.version.minor v.size ∧ v.kind = lit "JSON" := by
  rw [sniff_iff]
  unfold Announces
  constructor
  · rintro ⟨h1, h2, pre, w, post, h3, h4, h5, h6⟩
    exact ⟨⟨h1, h2, pre, w, post, h3, h4, h5⟩, h6⟩
  · rintro ⟨⟨h1, h2, pre, w, post, h3, h4, h5⟩, h6⟩
    exact ⟨h1, h2, pre, w, post, h3, h4, h5, h6⟩

/-- What bytes announce is unique. -/
theorem Announces_unique {raw i i' : Str} {a b n a' b' n' : Nat} (h : Announces raw i a b n) (h' : Announces raw i' a' b' n') :
    i = i' ∧ a = a' ∧ b = b' ∧ n = n' := by
  have h1 := (announces_iff (v := ⟨i, lit "JSON", ⟨a, b⟩, n⟩)).mpr ⟨h, rfl⟩
  have h2 := (announces_iff (v := ⟨i', lit "JSON", ⟨a', b'⟩, n'⟩)).mpr ⟨h', rfl⟩
  rw [h1] at h2
  simpa [and_assoc] using h2

/-! ## C42: panics when reading a message -/

/-- The bytes of a message body on which reading panics: JSON whose numbers do not convert, JSON that is not an object, an object
without `d`, or a `d` text on which the primitive parser panics. -/
def BadBody (E : Env) (F : Str → Option Str) (body : Str) : Prop :=
  utf8Valid body = true ∧ (Json.fromStr F body = .panic ∨ ∃ k, Json.fromStr F body = .ok k ∧
    ((∀ o, k ≠ .obj o) ∨ (∃ o, k = .obj o ∧ lit "d" ∉ o.map Prod.fst) ∨
      ∃ o t, k = .obj o ∧ o.lookup (lit "d") = some (.str t) ∧ Matter.ofText E t = .panic))

theorem sadder_raw_panics (E : Env) (F : Str → Option Str) (H : Hash) (dflt : Sadder) (code kind : Option Str) (raw : List UInt8) (ked : Option Value) (sad : Option Sadder) :
    Sadder.new E F H dflt code (some raw) kind ked sad = .panic ↔
      ∃ ident size, Announces raw ident 1 0 size ∧ (raw.length < size ∨ BadBody E F (raw.take size)) := by
  rw [Sadder.new_raw_panic]
  constructor
  · rintro ⟨v, hv, hver, h⟩
    obtain ⟨ha, _⟩ := announces_iff.mp hv
    rw [hver] at ha
    refine ⟨v.ident, v.size, ha, ?_⟩
    rcases h with h | ⟨_, hu, h | ⟨k, hk, h⟩⟩
    · exact .inl h
    · exact .inr ⟨hu, .inl h⟩
    · exact .inr ⟨hu, .inr ⟨k, hk, Sadder.saiderOf_panic.mp h⟩⟩
  · rintro ⟨i, n, ha, h⟩
    refine ⟨⟨i, lit "JSON", ⟨1, 0⟩, n⟩, announces_iff.mpr ⟨ha, rfl⟩, rfl, ?_⟩
    by_cases hl : raw.length < n
    · exact .inl hl
    · rcases h with h | ⟨hu, h | ⟨k, hk, h⟩⟩
      · exact absurd h hl
      · exact .inr ⟨Nat.le_of_not_lt hl, hu, .inl h⟩
      · exact .inr ⟨Nat.le_of_not_lt hl, hu, .inr ⟨k, hk, Sadder.saiderOf_panic.mpr h⟩⟩

/-- C42: exactly when building a `Serder` from bytes panics; in every other case it returns a value or an error. -/
theorem C42_serder_panics_iff (E : Env) (F : Str → Option Str) (H : Hash) (code kind : Option Str) (raw : List UInt8) (ked : Option Value) (sad : Option Sadder) :
    Serder.new E F H code (some raw) kind ked sad = .panic ↔
      ∃ ident size, Announces raw ident 1 0 size ∧ (raw.length < size ∨ BadBody E F (raw.take size)) := by
  rw [Serder.new_panic, sadder_raw_panics]

/-- C42: the same for a `Creder`. -/
theorem C42_creder_panics_iff (E : Env) (F : Str → Option Str) (H : Hash) (code kind : Option Str) (raw : List UInt8) (ked : Option Value) (sad : Option Sadder) :
    Creder.new E F H code (some raw) kind ked sad = .panic ↔
      ∃ ident size, Announces raw ident 1 0 size ∧ (raw.length < size ∨ BadBody E F (raw.take size)) := by
  rw [Creder.new_panic, sadder_raw_panics]

/-- C42: no message is read from bytes that are shorter than the size they announce, or from fewer than 29 bytes. -/
theorem C42_no_short_message {E : Env} {F : Str → Option Str} {H : Hash} {code kind : Option Str} {raw : List UInt8} {ked : Option Value} {sad : Option Sadder} {s : Sadder}
    (h : Serder.new E F H code (some raw) kind ked sad = .ok s ∨ Creder.new E F H code (some raw) kind ked sad = .ok s) :
    29 ≤ raw.length ∧ s.size ≤ raw.length ∧ s.raw = raw.take s.size ∧ s.raw.length = s.size := by
  have h' : ∃ dflt, Sadder.new E F H dflt (some (code.getD (lit "E"))) (some raw) kind ked sad = .ok s := by
    rcases h with h | h
    · exact ⟨_, (Serder.new_ok.mp h).1⟩
    · exact ⟨_, (Creder.new_ok.mp h).1⟩
  obtain ⟨_, h'⟩ := h'
  obtain ⟨v, k, m, hv, _, hl, _, _, _, _, rfl⟩ := Sadder.new_raw_ok.mp h'
  obtain ⟨⟨h1, _⟩, _⟩ := announces_iff.mp hv
  exact ⟨h1, hl, rfl, by simp; omega⟩

/-! ## C45: the SAID of a message -/

/-- What a constructor from bytes or a map establishes about the SAID object. -/
theorem sadder_said {E : Env} {F : Str → Option Str} {H : Hash} {dflt : Sadder} {code kind : Option Str} {raw : Option (List UInt8)} {ked : Option Value} {s : Sadder}
    (h : Sadder.new E F H dflt code raw kind ked none = .ok s) :
    ∃ o t n, s.ked = .obj o ∧ o.lookup (lit "d") = some (.str t) ∧ Matter.ofText E t = .ok s.saider ∧ (s.saider.code, n) ∈ digestSizes ∧
      s.saider.code = code.getD (lit "E") ∧ s.code = code.getD (lit "E") := by
  cases raw with
  | some raw =>
    obtain ⟨v, k, m, _, _, _, _, _, hm, hc, rfl⟩ := Sadder.new_raw_ok.mp h
    obtain ⟨o, t, n, rfl, h1, h2, h3⟩ := Sadder.saiderOf_ok.mp hm
    exact ⟨o, t, n, rfl, h1, h2, h3, hc, rfl⟩
  | none =>
    cases ked with
    | some ked =>
      obtain ⟨r, m, _, hm, hc, rfl⟩ := Sadder.new_ked_ok.mp h
      obtain ⟨o, t, n, ho, h1, h2, h3⟩ := Sadder.saiderOf_ok.mp hm
      exact ⟨o, t, n, ho, h1, h2, h3, hc, rfl⟩
    | none => cases h

/-- C45: the SAID a message object reports is the one in the `d` field of its map: the field holds the reported text, possibly
with text after it, and its code is the requested digest code. Whatever the message was built from. -/
theorem C45_said_field {E : Env} {F : Str → Option Str} {H : Hash} {code kind : Option Str} {raw : Option (List UInt8)} {ked : Option Value} {s : Sadder}
    (h : Serder.new E F H code raw kind ked none = .ok s ∨ Creder.new E F H code raw kind ked none = .ok s) :
    ∃ o t n, s.ked = .obj o ∧ o.lookup (lit "d") = some (.str t) ∧ Matter.ofText E t = .ok s.saider ∧ (s.saider.code, n) ∈ digestSizes ∧
      s.saider.code = code.getD (lit "E") ∧ ∀ said, s.said E = .ok said → ∃ tail, t = said ++ tail := by
  have h' : ∃ dflt, Sadder.new E F H dflt (some (code.getD (lit "E"))) raw kind ked none = .ok s := by
    rcases h with h | h
    · exact ⟨_, (Serder.new_ok.mp h).1⟩
    · exact ⟨_, (Creder.new_ok.mp h).1⟩
  obtain ⟨_, h'⟩ := h'
  obtain ⟨o, t, n, h1, h2, h3, h4, h5, _⟩ := sadder_said h'
  refine ⟨o, t, n, h1, h2, h3, h4, h5, ?_⟩
  intro said hs
  exact Matter.exfil_text h3 hs

/-- C45, the defect: the constructors never hash anything. Their outcome is the same for every hash function, so it cannot depend
on whether the SAID is the digest of the content. -/
theorem C45_never_hashed (E : Env) (F : Str → Option Str) (H H' : Hash) (code kind : Option Str) (raw : Option (List UInt8)) (ked : Option Value) (sad : Option Sadder) :
    Serder.new E F H code raw kind ked sad = Serder.new E F H' code raw kind ked sad ∧
    Creder.new E F H code raw kind ked sad = Creder.new E F H' code raw kind ked sad := ⟨rfl, rfl⟩

/-- C45, the defect: in every accepted map with the version field first, any field but `v` and `d` can be given any value (as long
as the serialization stays below 16 MiB), and the result is accepted with the same SAID. -/
theorem C45_content_not_bound {E : Env} {F : Str → Option Str} {H : Hash} {code kind : Option Str} {rest : List (Str × Value)} {x : Value} {s : Sadder}
    (h : Serder.new E F H code none kind (some (.obj ((lit "v", x) :: rest))) none = .ok s) {k : Str} (hv : k ≠ lit "v") (hd : k ≠ lit "d") (y : Value)
    (hl : (Value.obj ((lit "v", x) :: Value.insert rest k y)).toJson.length < 2 ^ 24) :
    ∃ s' o', Serder.new E F H code none kind (some (.obj ((lit "v", x) :: Value.insert rest k y))) none = .ok s' ∧ s'.saider = s.saider ∧
      s'.ked = .obj o' ∧ o'.lookup k = some y := by
  obtain ⟨h, hid⟩ := Serder.new_ok.mp h
  obtain ⟨r, m, hr, hm, hc, rfl⟩ := Sadder.new_ked_ok.mp h
  obtain ⟨vs, i, sz, rfl, ht, hi, hk, _, rfl⟩ := sizeify_first.mp hr
  dsimp only at hm hid
  subst hid
  have hr' := (sizeify_first (rest := Value.insert rest k y) (kind := kind)).mpr ⟨vs, _, sz, rfl, ht, hi, hk, by omega, rfl⟩
  obtain ⟨o, t, n, ho, h1, h2, h3⟩ := Sadder.saiderOf_ok.mp hm
  injection ho with ho
  have hdv : (lit "d" == lit "v") = false := by decide +kernel
  subst ho
  rw [List.lookup_cons, hdv] at h1
  dsimp only at h1
  refine ⟨_, _, Serder.new_ok.mpr ⟨Sadder.new_ked_ok.mpr ⟨_, m, hr', Sadder.saiderOf_ok.mpr ⟨_, t, n, rfl, ?_, h2, h3⟩, hc, rfl⟩, rfl⟩, rfl, rfl, ?_⟩
  · rw [List.lookup_cons, hdv]
    dsimp only
    rw [lookup_insert_ne _ _ (fun e => hd e.symm)]
    exact h1
  · have : (k == lit "v") = false := by simpa using hv
    rw [List.lookup_cons, this]
    dsimp only
    rw [lookup_insert_self]

/-- C45, the defect: the same for a `Creder`. -/
theorem C45_content_not_bound_creder {E : Env} {F : Str → Option Str} {H : Hash} {code kind : Option Str} {rest : List (Str × Value)} {x : Value} {s : Sadder}
    (h : Creder.new E F H code none kind (some (.obj ((lit "v", x) :: rest))) none = .ok s) {k : Str} (hv : k ≠ lit "v") (hd : k ≠ lit "d") (y : Value)
    (hl : (Value.obj ((lit "v", x) :: Value.insert rest k y)).toJson.length < 2 ^ 24) :
    ∃ s' o', Creder.new E F H code none kind (some (.obj ((lit "v", x) :: Value.insert rest k y))) none = .ok s' ∧ s'.saider = s.saider ∧
      s'.ked = .obj o' ∧ o'.lookup k = some y := by
  obtain ⟨h, hid⟩ := Creder.new_ok.mp h
  obtain ⟨r, m, hr, hm, hc, rfl⟩ := Sadder.new_ked_ok.mp h
  obtain ⟨vs, i, sz, rfl, ht, hi, hk, _, rfl⟩ := sizeify_first.mp hr
  dsimp only at hm hid
  subst hid
  have hr' := (sizeify_first (rest := Value.insert rest k y) (kind := kind)).mpr ⟨vs, _, sz, rfl, ht, hi, hk, by omega, rfl⟩
  obtain ⟨o, t, n, ho, h1, h2, h3⟩ := Sadder.saiderOf_ok.mp hm
  injection ho with ho
  have hdv : (lit "d" == lit "v") = false := by decide +kernel
  subst ho
  rw [List.lookup_cons, hdv] at h1
  dsimp only at h1
  refine ⟨_, _, Creder.new_ok.mpr ⟨Sadder.new_ked_ok.mpr ⟨_, m, hr', Sadder.saiderOf_ok.mpr ⟨_, t, n, rfl, ?_, h2, h3⟩, hc, rfl⟩, rfl⟩, rfl, rfl, ?_⟩
  · rw [List.lookup_cons, hdv]
    dsimp only
    rw [lookup_insert_ne _ _ (fun e => hd e.symm)]
    exact h1
  · have : (k == lit "v") = false := by simpa using hv
    rw [List.lookup_cons, this]
    dsimp only
    rw [lookup_insert_self]

theorem sadder_saidified {E : Env} {F : Str → Option Str} {H : Hash} {code kind : Option Str} {rest : List (Str × Value)} {vs : Str} {size : Nat} {m : Matter} {sad' : Value} {i : Str} (dflt : Sadder)
    (h : Saider.saidify E H (.obj ((lit "v", .str vs) :: rest)) code kind none none = .ok (m, sad')) (ht : VersionText vs i 1 0 (lit "JSON") size) :
    ∃ s, Sadder.new E F H dflt (some (code.getD (lit "E"))) none none (some sad') none = .ok s ∧ s.ident = i ∧ s.saider = m ∧ s.ked = sad' ∧ s.raw = sad'.toJson ∧
      Saider.verify E H s.saider s.ked (some true) (some true) none none none = .ok true := by
  have hver := C43_verifies h (some true) (some true) (kind' := none) (.inl rfl)
  obtain ⟨n, z, o, o', t, hc, hz, ho, hin, hp, hm, hq, rfl⟩ := Saider.saidify_ok h
  injection ho with ho
  subst ho
  simp only [Option.getD_none] at hin hp hver ⊢
  have hdv : lit "d" ≠ lit "v" := by decide +kernel
  rw [insert_first hdv] at hp
  obtain ⟨r, hr, hrk, _⟩ := Saider.prep_versioned hp (by rw [Saider.hasKey_eq_isSome]; simp)
  obtain ⟨vs', i', sz, e, ht', hi, hk, hlt, rfl⟩ := sizeify_first.mp hr
  injection e with e
  subst e
  have hid := VersionText_ident ht ht'
  subst hid
  injection hrk with hrk
  subst hrk
  rw [insert_first hdv, insert_insert] at hver ⊢
  -- the text of the SAID
  obtain ⟨z', t', _, w, hq'⟩ := digest_matter E H hc (Value.obj (Saider.removeKeys (([] : List Str)) ((lit "v", Value.str (mkVs i ((Value.obj ((lit "v", Value.str vs) :: Value.insert rest (lit "d") (Saider.dummy z.fs))).toJson.length % 2 ^ 32))) ::
        Value.insert rest (lit "d") (Saider.dummy z.fs)))).toJson
  simp only [Option.getD_none] at hm
  rw [← hm] at w hq'
  have hzz : z' = z := by
    have := w.szg
    rw [hm] at this
    dsimp only at this
    rw [hz] at this
    injection this with this
    exact this.symm
  subst hzz
  have htx : t = Matter.text m z' := by
    have := w.infil E
    rw [show m.infil E = m.qb64 E from rfl, hq] at this
    injection this
  have htl : t.length = z'.fs := by
    obtain ⟨z2, hz2, hfs, _⟩ := digest_row hc
    rw [hz] at hz2
    injection hz2 with hz2
    subst hz2
    rw [htx, w.text_length, Matter.total, if_neg hfs]
  have hlen : (Value.obj ((lit "v", .str (mkVs i ((Value.obj ((lit "v", Value.str vs) :: Value.insert rest (lit "d") (Saider.dummy z'.fs))).toJson.length % 2 ^ 32))) ::
      Value.insert rest (lit "d") (.str t))).toJson.length = (Value.obj ((lit "v", Value.str vs) :: Value.insert rest (lit "d") (Saider.dummy z'.fs))).toJson.length := by
    rw [toJson_first_length (mkVs_text hi hlt) ht']
    rw [← insert_first hdv, ← insert_first hdv]
    refine toJson_insert_length ?_ ?_ ?_
    · intro c hc
      rw [htx] at hc
      exact isB64_plain c (w.text_b64 c hc)
    · intro c hc
      rw [List.mem_replicate] at hc
      rw [hc.2]; exact dummy_plain
    · rw [htl, List.length_replicate]
  have hr2 := (sizeify_first (kind := none) (rest := Value.insert rest (lit "d") (.str t))).mpr ⟨_, _, _, rfl, mkVs_text hi hlt, hi, rfl, by rw [hlen]; exact hlt, rfl⟩
  rw [hlen] at hr2
  have hx : Matter.exfil t = .ok m := by
    have := w.exfil (rest := []) rfl
    rw [List.append_nil, ← htx] at this
    exact this
  have hmc : m.code = code.getD (lit "E") := by rw [hm]
  refine ⟨_, Sadder.new_ked_ok.mpr ⟨_, m, hr2, Sadder.saiderOf_ok.mpr ⟨_, t, n, rfl, ?_, hx, by rw [hmc]; exact hc⟩, hmc, rfl⟩, rfl, rfl, rfl, rfl, hver⟩
  have hdv' : (lit "d" == lit "v") = false := by decide +kernel
  rw [List.lookup_cons, hdv']
  dsimp only
  rw [lookup_insert_self]

/-- C43: a version string of the given map stays a version string of the same protocol, with the number of bytes of the returned map as its size. -/
theorem C43_version {E : Env} {H : Hash} {sad sad' : Value} {code kind label : Option Str} {ignore : Option (List Str)} {s : Matter}
    (h : Saider.saidify E H sad code kind label ignore = .ok (s, sad')) :
    ∃ o o', sad = .obj o ∧ sad' = .obj o' ∧ (o.lookup (lit "v") = none → o'.lookup (lit "v") = none) ∧
      ∀ x, o.lookup (lit "v") = some x → ∃ vs vs' ident m, x = .str vs ∧ o'.lookup (lit "v") = some (.str vs') ∧ ident ∈ protocols ∧
        VersionText vs ident 1 0 (lit "JSON") m ∧ VersionText vs' ident 1 0 (lit "JSON") (sad'.toJson.length % 2 ^ 32) := by
  obtain ⟨n, z, o, o', t, hc, hz, rfl, hin, hp, hm, hq, rfl⟩ := Saider.saidify_ok h
  have hcon := Saider.prep_content (ignore := []) hp
  have hrem : Saider.removeKeys [] o' = o' := by simp [Saider.removeKeys]
  rw [hrem] at hcon
  have hl : label.getD (lit "d") ≠ lit "v" := by
    intro e
    rw [e] at hp
    exact Saider.prep_label_v hp
  obtain ⟨z', t', _, w, hq'⟩ := digest_matter E H hc (Value.obj (Saider.removeKeys (ignore.getD []) o')).toJson
  rw [← hm] at w hq'
  have hzz : z' = z := by
    have := w.szg
    rw [hm] at this
    dsimp only at this
    rw [hz] at this
    injection this with this
    exact this.symm
  subst hzz
  have htx : t = Matter.text s z' := by
    have := w.infil E
    rw [show s.infil E = s.qb64 E from rfl, hq] at this
    injection this
  have htl : t.length = z'.fs := by
    obtain ⟨z2, hz2, hfs, _⟩ := digest_row hc
    rw [hz] at hz2
    injection hz2 with hz2
    subst hz2
    rw [htx, w.text_length, Matter.total, if_neg hfs]
  have hlen : (Value.obj (Value.insert o' (label.getD (lit "d")) (.str t))).toJson.length = (Value.obj o').toJson.length := by
    rw [← insert_lookup (hcon.field (by simp)), insert_insert]
    refine toJson_insert_length ?_ ?_ ?_
    · intro c hc
      rw [htx] at hc
      exact isB64_plain c (w.text_b64 c hc)
    · intro c hc
      rw [List.mem_replicate] at hc
      rw [hc.2]; exact dummy_plain
    · rw [htl, List.length_replicate]
  refine ⟨o, _, rfl, rfl, ?_, ?_⟩
  · intro hn
    rw [lookup_insert_ne _ _ (Ne.symm hl), lookup_none_iff]
    have hk := hcon.keys
    rw [if_pos hin, List.append_nil, List.filter_eq_self.mpr (by simp)] at hk
    rw [hk]
    exact lookup_none_iff.mp hn
  · intro x hx
    obtain ⟨vs, vs', ident, m, m', e, hv', hid, ht, ht', hsz⟩ := hcon.version (by simp) x hx
    refine ⟨vs, vs', ident, m, e, ?_, hid, ht, ?_⟩
    · rw [lookup_insert_ne _ _ (Ne.symm hl)]; exact hv'
    · rw [hlen, ← hsz rfl]; exact ht'

/-- C45: a map that `saidify` made, with a KERI version field in front, is accepted by `Serder` as it is, and the message object
then reports exactly the SAID that was computed, which verifies against the map. -/
theorem C45_saidified_serder {E : Env} {F : Str → Option Str} {H : Hash} {code kind : Option Str} {rest : List (Str × Value)} {vs : Str} {size : Nat} {m : Matter} {sad' : Value}
    (h : Saider.saidify E H (.obj ((lit "v", .str vs) :: rest)) code kind none none = .ok (m, sad')) (ht : VersionText vs (lit "KERI") 1 0 (lit "JSON") size) :
    ∃ s, Serder.new E F H code none none (some sad') none = .ok s ∧ s.saider = m ∧ s.ked = sad' ∧ s.raw = sad'.toJson ∧
      Saider.verify E H s.saider s.ked (some true) (some true) none none none = .ok true := by
  obtain ⟨s, h1, h2, h3⟩ := sadder_saidified (F := F) Serder.default h ht
  exact ⟨s, Serder.new_ok.mpr ⟨h1, h2⟩, h3⟩

/-- C45: the same for a `Creder` and ACDC. -/
theorem C45_saidified_creder {E : Env} {F : Str → Option Str} {H : Hash} {code kind : Option Str} {rest : List (Str × Value)} {vs : Str} {size : Nat} {m : Matter} {sad' : Value}
    (h : Saider.saidify E H (.obj ((lit "v", .str vs) :: rest)) code kind none none = .ok (m, sad')) (ht : VersionText vs (lit "ACDC") 1 0 (lit "JSON") size) :
    ∃ s, Creder.new E F H code none none (some sad') none = .ok s ∧ s.saider = m ∧ s.ked = sad' ∧ s.raw = sad'.toJson ∧
      Saider.verify E H s.saider s.ked (some true) (some true) none none none = .ok true := by
  obtain ⟨s, h1, h2, h3⟩ := sadder_saidified (F := F) Creder.default h ht
  exact ⟨s, Creder.new_ok.mpr ⟨h1, h2⟩, h3⟩

/-! ## C46: protocols -/

/-- C46: a `Serder` built from a map has a `v` field that is a KERI 1.0 JSON version string with the size of the message, and
every other field of the given map. -/
theorem C46_serder_map {E : Env} {F : Str → Option Str} {H : Hash} {code kind : Option Str} {ked : Value} {s : Sadder} {sad : Option Sadder}
    (h : Serder.new E F H code none kind (some ked) sad = .ok s) :
    ∃ o vs, ked = .obj o ∧ s.ked = .obj (Value.insert o (lit "v") (.str vs)) ∧ VersionText vs (lit "KERI") 1 0 (lit "JSON") s.size ∧
      s.size = s.raw.length % 2 ^ 32 ∧ (∃ vs' n, o.lookup (lit "v") = some (.str vs') ∧ VersionText vs' (lit "KERI") 1 0 (lit "JSON") n) := by
  obtain ⟨h, hid⟩ := Serder.new_ok.mp h
  obtain ⟨r, m, hr, hm, hc, rfl⟩ := Sadder.new_ked_ok.mp h
  obtain ⟨o, vs, rfl, _, h2, h3, _⟩ := C41_size hr
  obtain ⟨ht, _, hk⟩ := deversify_ok.mp h3
  dsimp only at hid ht hk
  rw [hid, hk] at ht
  refine ⟨o, vs, rfl, h2, ht, rfl, ?_⟩
  obtain ⟨o1, o2, vs', i, sz, e, hv, ht', hi, hk'⟩ := sizeify_ok hr
  injection e with e
  subst e
  refine ⟨vs', sz, lookup_of_split hv, ?_⟩
  have e := sizeify_eq (o2 := o2) (kind := kind) hv ht' hi hk'
  dsimp only at e
  rw [hr] at e
  split at e
  · injection e with e
    rw [e] at hid
    dsimp only at hid
    rw [hid] at ht'
    exact ht'
  · cases e

/-- C46: the same for a `Creder` and ACDC. -/
theorem C46_creder_map {E : Env} {F : Str → Option Str} {H : Hash} {code kind : Option Str} {ked : Value} {s : Sadder} {sad : Option Sadder}
    (h : Creder.new E F H code none kind (some ked) sad = .ok s) :
    ∃ o vs, ked = .obj o ∧ s.ked = .obj (Value.insert o (lit "v") (.str vs)) ∧ VersionText vs (lit "ACDC") 1 0 (lit "JSON") s.size ∧
      s.size = s.raw.length % 2 ^ 32 ∧ (∃ vs' n, o.lookup (lit "v") = some (.str vs') ∧ VersionText vs' (lit "ACDC") 1 0 (lit "JSON") n) := by
  obtain ⟨h, hid⟩ := Creder.new_ok.mp h
  obtain ⟨r, m, hr, hm, hc, rfl⟩ := Sadder.new_ked_ok.mp h
  obtain ⟨o, vs, rfl, _, h2, h3, _⟩ := C41_size hr
  obtain ⟨ht, _, hk⟩ := deversify_ok.mp h3
  dsimp only at hid ht hk
  rw [hid, hk] at ht
  refine ⟨o, vs, rfl, h2, ht, rfl, ?_⟩
  obtain ⟨o1, o2, vs', i, sz, e, hv, ht', hi, hk'⟩ := sizeify_ok hr
  injection e with e
  subst e
  refine ⟨vs', sz, lookup_of_split hv, ?_⟩
  have e := sizeify_eq (o2 := o2) (kind := kind) hv ht' hi hk'
  dsimp only at e
  rw [hr] at e
  split at e
  · injection e with e
    rw [e] at hid
    dsimp only at hid
    rw [hid] at ht'
    exact ht'
  · cases e

/-- C46: bytes accepted by `Serder` announce KERI 1.0, bytes accepted by `Creder` announce ACDC 1.0. -/
theorem C46_bytes {E : Env} {F : Str → Option Str} {H : Hash} {code kind : Option Str} {raw : List UInt8} {ked : Option Value} {sad : Option Sadder} {s : Sadder} :
    (Serder.new E F H code (some raw) kind ked sad = .ok s → Announces raw (lit "KERI") 1 0 s.size ∧ s.ident = lit "KERI" ∧ s.version = ⟨1, 0⟩) ∧
    (Creder.new E F H code (some raw) kind ked sad = .ok s → Announces raw (lit "ACDC") 1 0 s.size ∧ s.ident = lit "ACDC" ∧ s.version = ⟨1, 0⟩) := by
  constructor
  · intro h
    obtain ⟨h, hid⟩ := Serder.new_ok.mp h
    obtain ⟨v, k, m, hv, hver, _, _, _, _, _, rfl⟩ := Sadder.new_raw_ok.mp h
    obtain ⟨ha, _⟩ := announces_iff.mp hv
    dsimp only at hid
    rw [hver, hid] at ha
    exact ⟨ha, hid, hver⟩
  · intro h
    obtain ⟨h, hid⟩ := Creder.new_ok.mp h
    obtain ⟨v, k, m, hv, hver, _, _, _, _, _, rfl⟩ := Sadder.new_raw_ok.mp h
    obtain ⟨ha, _⟩ := announces_iff.mp hv
    dsimp only at hid
    rw [hver, hid] at ha
    exact ⟨ha, hid, hver⟩

/-- C46: no input, bytes or map, is accepted by both. -/
theorem C46_disjoint {E E' : Env} {F F' : Str → Option Str} {H H' : Hash} {code kind code' kind' : Option Str} {raw : Option (List UInt8)} {ked : Option Value} {s s' : Sadder}
    (h : Serder.new E F H code raw kind ked none = .ok s) : Creder.new E' F' H' code' raw kind' ked none ≠ .ok s' := by
  intro h'
  have hne : lit "KERI" ≠ lit "ACDC" := by decide +kernel
  cases raw with
  | some raw => exact hne (Announces_unique (C46_bytes.1 h).1 (C46_bytes.2 h').1).1
  | none =>
    cases ked with
    | none => obtain ⟨h, _⟩ := Serder.new_ok.mp h; cases h
    | some ked =>
      obtain ⟨o, _, rfl, _, _, _, vs, n, h1, h2⟩ := C46_serder_map h
      obtain ⟨o', _, e, _, _, _, vs', n', h1', h2'⟩ := C46_creder_map h'
      injection e with e
      subst e
      rw [h1] at h1'
      injection h1' with h1'
      injection h1' with h1'
      subst h1'
      exact hne (VersionText_ident h2 h2')

/-! ## C59: message round trip -/

theorem sadder_reload {E : Env} {F : Str → Option Str} {H : Hash} {dflt dflt' : Sadder} {code kind : Option Str} {rest : List (Str × Value)} {x : Value} {sad : Option Sadder} {s : Sadder}
    (h : Sadder.new E F H dflt code none kind (some (.obj ((lit "v", x) :: rest))) sad = .ok s)
    (hp : Plain (.obj ((lit "v", x) :: rest))) (hF : FloatsRead F (.obj ((lit "v", x) :: rest))) (hu : Utf8Value (.obj ((lit "v", x) :: rest))) (hd : depth (.obj ((lit "v", x) :: rest)) < 128)
    (hl : s.raw.length < 2 ^ 32) (tail : Str) (kind' : Option Str) (ked' : Option Value) (sad' : Option Sadder) :
    Sadder.new E F H dflt' code (some (s.raw ++ tail)) kind' ked' sad' = if utf8Valid tail then .ok s else .err .utf8 := by
  obtain ⟨r, m, hr, hm, hc, rfl⟩ := Sadder.new_ked_ok.mp h
  obtain ⟨vs, i, sz, rfl, ht, hi, hk, hlt, rfl⟩ := sizeify_first.mp hr
  dsimp only at hm hl ⊢
  have htn := mkVs_text hi hlt
  generalize hvs : mkVs i ((Value.obj ((lit "v", Value.str vs) :: rest)).toJson.length % 2 ^ 32) = nvs at *
  have hlen := toJson_first_length (rest := rest) htn ht
  rw [← hlen] at htn hlt
  have hp' := plain_first (vs' := nvs) hp
  have hF' : FloatsRead F (.obj ((lit "v", .str nvs) :: rest)) := floatsRead_first hF
  have hu' := utf8_first htn hu
  have hd' : depth (.obj ((lit "v", .str nvs) :: rest)) < 128 := by rw [depth_first (vs' := vs)]; exact hd
  have hmod : (Value.obj ((lit "v", Value.str nvs) :: rest)).toJson.length % 2 ^ 32 = (Value.obj ((lit "v", Value.str nvs) :: rest)).toJson.length := Nat.mod_eq_of_lt hl
  rw [hmod] at htn hlt ⊢
  have hvalid := utf8_toJson _ hu' tail
  obtain ⟨o, t, n, ho, h1, _⟩ := Sadder.saiderOf_ok.mp hm
  injection ho with ho
  subst ho
  have hdv' : (lit "d" == lit "v") = false := by decide +kernel
  rw [List.lookup_cons, hdv'] at h1
  have hdin : lit "d" ∈ rest.map Prod.fst := Saider.hasKey_iff.mp (by rw [Saider.hasKey_eq_isSome]; simp at h1; rw [h1]; rfl)
  have htext := toJson_first (rest := rest) htn
  have hback := objBack_length hdin
  have hlong : 29 ≤ (Value.obj ((lit "v", Value.str nvs) :: rest)).toJson.length := by
    rw [htext]
    have : vHead.length = 6 := by decide +kernel
    simp only [List.length_append, List.length_cons, versionText_length htn, this]
    omega
  by_cases hv : utf8Valid tail = true
  · rw [if_pos hv]
    have hsn := sniff_first htn (tail := (ch '"' :: objBack rest) ++ tail) (by simp; omega) (by rw [← List.append_assoc, ← htext, hvalid]; exact hv)
    rw [← List.append_assoc, ← htext] at hsn
    refine Sadder.new_raw_ok.mpr ⟨_, Value.obj ((lit "v", Value.str nvs) :: rest), m, hsn, rfl, ?_, ?_, ?_, hm, hc, ?_⟩
    · simp
    · dsimp only
      rw [List.take_left]
      have := utf8_toJson _ hu' []
      rw [List.append_nil] at this
      rw [this]; rfl
    · dsimp only
      rw [List.take_left, C39_roundtrip F hp' hF', if_pos hd']
    · dsimp only
      rw [List.take_left]
      rfl
  · rw [if_neg hv]
    have : sniff ((Value.obj ((lit "v", Value.str nvs) :: rest)).toJson ++ tail) = .err .utf8 := by
      unfold sniff
      rw [if_neg (by simp; omega), fromUtf8, if_neg (by rw [hvalid]; exact hv)]
      rfl
    unfold Sadder.new Sadder.populateFromRaw Sadder.inhale
    dsimp only
    rw [this]
    rfl

/-- C59: the bytes of a `Serder` built from a map with the version field in front and nesting below 128 give the same
object back, also with more text after them; if what follows is not UTF-8 they are refused. -/
theorem C59_serder {E : Env} {F : Str → Option Str} {H : Hash} {code kind : Option Str} {rest : List (Str × Value)} {x : Value} {sad : Option Sadder} {s : Sadder}
    (h : Serder.new E F H code none kind (some (.obj ((lit "v", x) :: rest))) sad = .ok s)
    (hp : Plain (.obj ((lit "v", x) :: rest))) (hF : FloatsRead F (.obj ((lit "v", x) :: rest))) (hu : Utf8Value (.obj ((lit "v", x) :: rest))) (hd : depth (.obj ((lit "v", x) :: rest)) < 128)
    (hl : s.raw.length < 2 ^ 32) (tail : Str) :
    Serder.new E F H code (some (s.raw ++ tail)) none none none = if utf8Valid tail then .ok s else .err .utf8 := by
  obtain ⟨h1, hid⟩ := Serder.new_ok.mp h
  have := sadder_reload (dflt' := Serder.default) h1 hp hF hu hd hl tail none none none
  unfold Serder.new
  dsimp only
  rw [this]
  split
  · rw [Res.ok_bind, Serder.validateIdent, if_neg (by simp [hid])]
    rfl
  · rfl

/-- C59: the same for a `Creder`. -/
theorem C59_creder {E : Env} {F : Str → Option Str} {H : Hash} {code kind : Option Str} {rest : List (Str × Value)} {x : Value} {sad : Option Sadder} {s : Sadder}
    (h : Creder.new E F H code none kind (some (.obj ((lit "v", x) :: rest))) sad = .ok s)
    (hp : Plain (.obj ((lit "v", x) :: rest))) (hF : FloatsRead F (.obj ((lit "v", x) :: rest))) (hu : Utf8Value (.obj ((lit "v", x) :: rest))) (hd : depth (.obj ((lit "v", x) :: rest)) < 128)
    (hl : s.raw.length < 2 ^ 32) (tail : Str) :
    Creder.new E F H code (some (s.raw ++ tail)) none none none = if utf8Valid tail then .ok s else .err .utf8 := by
  obtain ⟨h1, hid⟩ := Creder.new_ok.mp h
  have := sadder_reload (dflt' := Creder.default) h1 hp hF hu hd hl tail none none none
  unfold Creder.new
  dsimp only
  rw [this]
  split
  · rw [Res.ok_bind, Creder.validateIdent, if_neg (by simp [hid])]
    rfl
  · rfl

/-- C42, the defect: of such a message, every proper prefix that is valid UTF-8 and has at least 29 bytes makes `Serder` panic; the
shorter ones are refused. -/
theorem C42_truncated {E : Env} {F : Str → Option Str} {H : Hash} {code kind : Option Str} {rest : List (Str × Value)} {x : Value} {sad : Option Sadder} {s : Sadder}
    (h : Serder.new E F H code none kind (some (.obj ((lit "v", x) :: rest))) sad = .ok s) (hl : s.raw.length < 2 ^ 32)
    {n : Nat} (hn : n < s.raw.length) (hu : utf8Valid (s.raw.take n) = true) (code' : Option Str) :
    (29 ≤ n → Serder.new E F H code' (some (s.raw.take n)) none none none = .panic ∧ Creder.new E F H code' (some (s.raw.take n)) none none none = .panic) ∧
    (n < 29 → ∃ e, Serder.new E F H code' (some (s.raw.take n)) none none none = .err e ∧ Creder.new E F H code' (some (s.raw.take n)) none none none = .err e) := by
  obtain ⟨h, hid⟩ := Serder.new_ok.mp h
  obtain ⟨r, m, hr, hm, hc, rfl⟩ := Sadder.new_ked_ok.mp h
  obtain ⟨vs, i, sz, rfl, ht, hi, hk, hlt, rfl⟩ := sizeify_first.mp hr
  dsimp only at hm hl hn hu ⊢
  have htn := mkVs_text hi hlt
  generalize hvs : mkVs i ((Value.obj ((lit "v", Value.str vs) :: rest)).toJson.length % 2 ^ 32) = nvs at *
  have hlen := toJson_first_length (rest := rest) htn ht
  rw [← hlen, Nat.mod_eq_of_lt hl] at htn
  have hh : vHead.length = 6 := by decide +kernel
  have hvl := versionText_length htn
  have htext := toJson_first (rest := rest) htn
  constructor
  · intro h29
    have hsplit : (Value.obj ((lit "v", Value.str nvs) :: rest)).toJson.take n = vHead ++ nvs ++ (ch '"' :: objBack rest).take (n - 23) := by
      rw [htext, List.take_append, List.take_of_length_le (by simp [hh, hvl]; omega)]
      simp [hh, hvl]
    have ha : Announces ((Value.obj ((lit "v", Value.str nvs) :: rest)).toJson.take n) i 1 0 (Value.obj ((lit "v", Value.str nvs) :: rest)).toJson.length := by
      refine ⟨by simp; omega, hu, vHead, nvs, (ch '"' :: objBack rest).take (n - 23), ?_, by omega, htn⟩
      rw [hsplit]
      exact first_version htn _
    rw [C42_serder_panics_iff, C42_creder_panics_iff]
    have hlt' : ((Value.obj ((lit "v", Value.str nvs) :: rest)).toJson.take n).length < (Value.obj ((lit "v", Value.str nvs) :: rest)).toJson.length := by simp; omega
    exact ⟨⟨i, _, ha, .inl hlt'⟩, ⟨i, _, ha, .inl hlt'⟩⟩
  · intro h29
    have hs : sniff ((Value.obj ((lit "v", Value.str nvs) :: rest)).toJson.take n) = .err .value := by
      unfold sniff
      rw [if_pos (by simp; omega)]
    refine ⟨.value, ?_, ?_⟩
    · unfold Serder.new Sadder.new Sadder.populateFromRaw Sadder.inhale
      dsimp only
      rw [hs]
      rfl
    · unfold Creder.new Sadder.new Sadder.populateFromRaw Sadder.inhale
      dsimp only
      rw [hs]
      rfl

/-! ## Concrete messages -/

/-- The text of a digest of 32 zero bytes. -/
def zeroSaid : Str := ch 'E' :: List.replicate 43 (ch 'A')

/-- A KERI map. -/
def sampleMsg (vs : Str) : Value := .obj [(lit "v", .str vs), (lit "t", .str (lit "icp")), (lit "d", .str zeroSaid), (lit "x", .arr [.int 1, .null])]

theorem sample_text {i vs : Str} {n : Nat} (h : deversify vs = .ok ⟨i, lit "JSON", ⟨1, 0⟩, n⟩) : VersionText vs i 1 0 (lit "JSON") n := (deversify_ok.mp h).1

/-- The sample map is accepted, with exactly these bytes. -/
theorem sample_serder : ∃ s, Serder.newWithKed Env.release (fun _ => none) zeroHash (sampleMsg (lit "KERI10JSON000000_")) none none = .ok s ∧
    s.raw = lit "{\"v\":\"KERI10JSON000063_\",\"t\":\"icp\",\"d\":\"EAAAAAAAAAAAAAAAAAAAAAAAAAAAAAAAAAAAAAAAAAAA\",\"x\":[1,null]}" := by
  have ht : VersionText (lit "KERI10JSON000000_") (lit "KERI") 1 0 (lit "JSON") 0 := sample_text (by decide +kernel)
  have hr := (sizeify_first (kind := none) (rest := [(lit "t", .str (lit "icp")), (lit "d", .str zeroSaid), (lit "x", .arr [.int 1, .null])])).mpr
    ⟨_, _, _, rfl, ht, by decide +kernel, rfl, by decide +kernel, rfl⟩
  have hlen : (Value.obj [(lit "v", .str (lit "KERI10JSON000000_")), (lit "t", .str (lit "icp")), (lit "d", .str zeroSaid), (lit "x", .arr [.int 1, .null])]).toJson.length = 99 := by
    decide +kernel
  have hmk : mkVs (lit "KERI") (99 % 2 ^ 32) = lit "KERI10JSON000063_" :=
    VersionText_unique (mkVs_text (by decide +kernel) (by decide)) (sample_text (by decide +kernel))
  rw [hlen, hmk] at hr
  refine ⟨_, Serder.new_ok.mpr ⟨Sadder.new_ked_ok.mpr ⟨_, ⟨lit "E", 0, List.replicate 32 0⟩, hr, Sadder.saiderOf_ok.mpr ⟨_, zeroSaid, 32, rfl, rfl, ?_, ?_⟩, ?_, rfl⟩, rfl⟩, ?_⟩ <;>
    decide +kernel

/-- Reading it back, with text after it. -/
example : ∃ s, Serder.newWithKed Env.release (fun _ => none) zeroHash (sampleMsg (lit "KERI10JSON000000_")) none none = .ok s ∧
    Serder.newWithRaw Env.release (fun _ => none) zeroHash (s.raw ++ lit "-AAB") = .ok s ∧ Serder.newWithRaw Env.release (fun _ => none) zeroHash (s.raw.take 50) = .panic := by
  obtain ⟨s, h, hr⟩ := sample_serder
  refine ⟨s, h, ?_, ?_⟩
  · have := C59_serder h (by simp [Plain, PlainFields, PlainElems, lit]) (floatsRead_of_noFloats _ (by decide +kernel)) (by simp [Utf8Value, Utf8Fields, Utf8Elems]; decide +kernel) (by decide +kernel) (by rw [hr]; decide +kernel) (lit "-AAB")
    rw [if_pos (by decide +kernel)] at this
    exact this
  · exact ((C42_truncated h (by rw [hr]; decide +kernel) (n := 50) (by rw [hr]; decide +kernel) (by rw [hr]; decide +kernel) none).1 (by decide)).1

/-- C46, the defect: from bytes the protocol is that of the first version-like text, here a key, not that of the `v` field. -/
theorem C46_defect : ∃ raw s o, Serder.newWithRaw Env.release (fun _ => none) zeroHash raw = .ok s ∧ s.ked = .obj o ∧
    o.lookup (lit "v") = some (.str (lit "ACDC10JSON000000_")) := by
  let o : List (Str × Value) := [(lit "KERI10JSON000062_", .int 0), (lit "v", .str (lit "ACDC10JSON000000_")), (lit "d", .str zeroSaid)]
  have hlen : (Value.obj o).toJson.length = 98 := by decide +kernel
  have ht : VersionText (lit "KERI10JSON000062_") (lit "KERI") 1 0 (lit "JSON") 98 := sample_text (by decide +kernel)
  have hfv := first_version' (h := lit "{\"") ht (by decide +kernel) ((Value.obj o).toJson.drop 19)
  rw [show lit "{\"" ++ lit "KERI10JSON000062_" ++ (Value.obj o).toJson.drop 19 = (Value.obj o).toJson by decide +kernel] at hfv
  have ha : Announces (Value.obj o).toJson (lit "KERI") 1 0 98 := ⟨by decide +kernel, by decide +kernel, _, _, _, hfv, by decide +kernel, ht⟩
  refine ⟨(Value.obj o).toJson, _, o, Serder.new_ok.mpr ⟨Sadder.new_raw_ok.mpr ⟨⟨lit "KERI", lit "JSON", ⟨1, 0⟩, 98⟩, .obj o, ⟨lit "E", 0, List.replicate 32 0⟩,
    announces_iff.mpr ⟨ha, rfl⟩, rfl, by decide +kernel, ?_, ?_, Sadder.saiderOf_ok.mpr ⟨o, zeroSaid, 32, rfl, rfl, by decide +kernel, by decide +kernel⟩,
      by decide +kernel, rfl⟩, rfl⟩, rfl, rfl⟩
  · dsimp only
    rw [← hlen, List.take_length]
    exact ha.2.1
  · dsimp only
    rw [← hlen, List.take_length, C39_roundtrip _ (by simp [o, Plain, PlainFields, lit]) (floatsRead_of_noFloats _ (by decide +kernel)), if_pos (by decide +kernel)]

end Cesride
