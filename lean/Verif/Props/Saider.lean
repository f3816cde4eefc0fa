import Verif.Lemmas.Saider2
import Verif.Props.Json

/-! # C43, C44, C58: self-addressing identifiers -/

namespace Cesride
open Common Spec

/-! ## C43 -/

/-- C43: what `saidify` returns verifies, with or without checking the field and the version string, for every code, label and
list of ignored fields. -/
theorem C43_verifies {E : Env} {H : Hash} {sad sad' : Value} {code kind label : Option Str} {ignore : Option (List Str)} {s : Matter}
    (h : Saider.saidify E H sad code kind label ignore = .ok (s, sad')) (prefixed versioned : Option Bool) {kind' : Option Str}
    (hk' : kind' = none ∨ kind' = some (lit "JSON")) :
    Saider.verify E H s sad' prefixed versioned kind' label ignore = .ok true := by
  obtain ⟨n, z, o, o', t, hc, hz, rfl, _, hp, rfl, hq, rfl⟩ := Saider.saidify_ok h
  obtain ⟨z', t', _, w, hq'⟩ := digest_matter E H hc (Value.obj (Saider.removeKeys (ignore.getD []) o')).toJson
  have hzz : z' = z := by have := w.szg; rw [hz] at this; injection this with this; exact this.symm
  subst hzz
  have hl : label.getD (lit "d") ≠ lit "v" := by
    intro e
    rw [e] at hp
    exact Saider.prep_label_v hp
  obtain ⟨hlab, hp2, _⟩ := Saider.prep_idem (y := .str t) hl hp hk'
  rw [Saider.verify_true w]
  refine ⟨n, _, o', t, hc, rfl, hp2, rfl, hq, ?_, ?_⟩
  · intro _
    rw [lookup_insert_ne _ _ (Ne.symm hl)]
  · intro _
    rw [lookup_insert_self]

/-- C43: the same call as was used for `saidify` verifies. -/
theorem C43_verifies_same {E : Env} {H : Hash} {sad sad' : Value} {code kind label : Option Str} {ignore : Option (List Str)} {s : Matter}
    (h : Saider.saidify E H sad code kind label ignore = .ok (s, sad')) (prefixed versioned : Option Bool) :
    Saider.verify E H s sad' prefixed versioned kind label ignore = .ok true := by
  obtain ⟨n, z, o, o', t, hc, hz, _, _, hp, _⟩ := Saider.saidify_ok h
  exact C43_verifies h prefixed versioned (Saider.prep_kind hp)

/-- C43: the returned map holds the text of the SAID in the field, and is otherwise the given map with a sized version string. -/
theorem C43_map {E : Env} {H : Hash} {sad sad' : Value} {code kind label : Option Str} {ignore : Option (List Str)} {s : Matter}
    (h : Saider.saidify E H sad code kind label ignore = .ok (s, sad')) :
    ∃ o o' t, sad = .obj o ∧ sad' = .obj o' ∧ s.qb64 E = .ok t ∧ s.code = code.getD (lit "E") ∧ o'.lookup (label.getD (lit "d")) = some (.str t) ∧
      o'.map Prod.fst = o.map Prod.fst ∧ (∀ k, k ≠ label.getD (lit "d") → k ≠ lit "v" → o'.lookup k = o.lookup k) := by
  obtain ⟨n, z, o, o', t, hc, hz, rfl, hin, hp, rfl, hq, rfl⟩ := Saider.saidify_ok h
  have hcon := Saider.prep_content (ignore := []) hp
  have hl : label.getD (lit "d") ≠ lit "v" := by
    intro e
    rw [e] at hp
    exact Saider.prep_label_v hp
  have hk := hcon.keys
  rw [if_pos hin, List.append_nil, List.filter_eq_self.mpr (by simp)] at hk
  have hin' : label.getD (lit "d") ∈ o'.map Prod.fst := by
    have : o'.map Prod.fst = o.map Prod.fst := hk
    rw [this]; exact hin
  refine ⟨o, _, t, rfl, rfl, hq, rfl, lookup_insert_self _ _ _, ?_, ?_⟩
  · rw [Saider.keys_insert, if_pos hin', List.append_nil]
    exact hk
  · intro k h1 h2
    rw [lookup_insert_ne _ _ h1]
    exact hcon.other k (by simp) h1 h2

/-- C43: a map without version field can be given a SAID in any of its fields with any digest code. -/
theorem C43_succeeds_plain (E : Env) (H : Hash) {o : List (Str × Value)} {code label : Str} {n : Nat} (ignore : Option (List Str))
    (hc : (code, n) ∈ digestSizes) (hl : label ∈ o.map Prod.fst) (hv : lit "v" ∉ o.map Prod.fst) :
    ∃ s sad', Saider.saidify E H (.obj o) (some code) none (some label) ignore = .ok (s, sad') := by
  obtain ⟨z, hz, _⟩ := digest_row hc
  have hlv : label ≠ lit "v" := by rintro rfl; exact hv hl
  have hp : Saider.prep none (Value.insert o label (Saider.dummy z.fs)) = .ok (Value.insert o label (Saider.dummy z.fs)) := by
    rw [Saider.prep, if_neg, if_pos (show (none : Option Str).getD (lit "JSON") = lit "JSON" from rfl)]
    rw [Saider.hasKey_eq_isSome, lookup_insert_ne _ _ (Ne.symm hlv), lookup_none_iff.mpr hv]
    simp
  exact Saider.saidify_of E H hc hz hl hp

/-- C43: a map with a current version string in front can be given a SAID in any other field with any digest code, as long as its
serialization with the dummied field stays below 16 MiB. -/
theorem C43_succeeds_versioned (E : Env) (H : Hash) {o : List (Str × Value)} {code label vs i : Str} {n m : Nat} (ignore : Option (List Str))
    (hc : (code, n) ∈ digestSizes) (hl : label ∈ o.map Prod.fst) (hlv : label ≠ lit "v") (ht : VersionText vs i 1 0 (lit "JSON") m) (hi : i ∈ protocols)
    (hsize : ∀ k ≤ 88, (Value.obj ((lit "v", .str vs) :: Value.insert o label (.str (List.replicate k (ch '#'))))).toJson.length < 2 ^ 24) :
    ∃ s sad', Saider.saidify E H (.obj ((lit "v", .str vs) :: o)) (some code) none (some label) ignore = .ok (s, sad') := by
  obtain ⟨z, hz, _, _, hfs, _⟩ := digest_row hc
  have hfs' : z.fs ≤ 88 := by rw [hfs]; split <;> omega
  obtain ⟨r, hr, _⟩ := C41_version_first ht hi (hsize _ hfs')
  have e : Value.insert ((lit "v", .str vs) :: o) label (Saider.dummy z.fs) = (lit "v", .str vs) :: Value.insert o label (Saider.dummy z.fs) := by
    rw [Value.insert, if_neg (Ne.symm hlv)]
  obtain ⟨o0, vs', _, _, hk, _⟩ := C41_size hr
  refine Saider.saidify_of E H (o' := Value.insert o0 (lit "v") (.str vs')) hc hz (by simp [hl]) (o := (lit "v", .str vs) :: o) ?_
  rw [e, Saider.prep, if_pos (by rw [Saider.hasKey_eq_isSome, List.lookup_cons_self]; rfl)]
  rw [show Saider.dummy z.fs = Value.str (List.replicate z.fs (ch '#')) from rfl, hr]
  simp only [Res.ok_bind, hk]
  rfl

/-- C43: the label `v` is refused. -/
theorem C43_label_v (E : Env) (H : Hash) (sad : Value) (code kind : Option Str) (ignore : Option (List Str)) (r : Matter × Value) :
    Saider.saidify E H sad code kind (some (lit "v")) ignore ≠ .ok r := by
  intro h
  obtain ⟨s, sad'⟩ := r
  obtain ⟨n, z, o, o', t, hc, hz, rfl, hin, hp, _⟩ := Saider.saidify_ok h
  exact Saider.prep_label_v hp

/-! ## C44 -/

/-- The SAIDs a caller can obtain. -/
def IsSaid (E : Env) (H : Hash) (s : Matter) : Prop :=
  ∃ sad label kind ignore code raw qb64b qb64 qb2, Saider.new E H sad label kind ignore code raw qb64b qb64 qb2 = .ok s

/-- C44: a SAID verifies against a map exactly when its raw is the digest of the content of the map (and the version string has the
right size, and the field holds the SAID, if that is to be checked). -/
theorem C44_content {E : Env} {H : Hash} {s : Matter} (hs : IsSaid E H s) {sad : Value} {prefixed versioned : Option Bool}
    {kind label : Option Str} {ignore : Option (List Str)} (h : Saider.verify E H s sad prefixed versioned kind label ignore = .ok true) :
    ∃ o c t, sad = .obj o ∧ s.qb64 E = .ok t ∧ SaidContent t.length (label.getD (lit "d")) (ignore.getD []) o c ∧
      s.raw = H.digest s.code (Value.obj c).toJson ∧
      (versioned.getD true = true → lit "v" ∉ ignore.getD [] → c.lookup (lit "v") = o.lookup (lit "v")) ∧
      (prefixed.getD false = true → o.lookup (label.getD (lit "d")) = some (.str t)) := by
  obtain ⟨_, _, _, _, _, _, _, _, _, hs⟩ := hs
  obtain ⟨⟨_, _, _, _, _, hm⟩, _⟩ := Saider.new_matter hs
  obtain ⟨t, ht⟩ := Saider.verify_text h
  obtain ⟨z, w⟩ := Matter.new_text_wf hm ht
  obtain ⟨n, o, o', t', hc, rfl, hp, hd, hq, hv, hx⟩ := (Saider.verify_true w).mp h
  have htt : t' = t := by rw [ht] at hq; injection hq with hq; exact hq.symm
  subst htt
  have hfs : z.fs = t'.length := by
    have : s.qb64 E = .ok (Matter.text s z) := w.infil E
    rw [ht] at this
    injection this with this
    rw [this, w.text_length, Matter.total]
    obtain ⟨z2, hz2, hf, _⟩ := digest_row hc
    have : z2 = z := by have := w.szg; rw [hz2] at this; injection this
    subst this
    rw [if_neg hf]
  rw [hfs] at hp
  refine ⟨o, _, t', rfl, ht, Saider.prep_content hp, hd, ?_, hx⟩
  intro h1 h2
  rw [Saider.lookup_removeKeys, if_neg h2, hv h1]

theorem plainFields_iff {o : List (Str × Value)} : PlainFields o ↔ ∀ e ∈ o, Plain e.2 := by
  induction o with
  | nil => simp [PlainFields]
  | cons e o ih => obtain ⟨k, v⟩ := e; simp [PlainFields, ih]

theorem lookup_mem_value {o : List (Str × Value)} {k : Str} {v : Value} (h : o.lookup k = some v) : (k, v) ∈ o := by
  obtain ⟨o1, o2, e, _⟩ := lookup_split h
  rw [e]; simp

theorem lookup_of_mem_nodup {o : List (Str × Value)} {k : Str} {v : Value} (h : (k, v) ∈ o) (hn : (o.map Prod.fst).Nodup) : o.lookup k = some v := by
  obtain ⟨o1, o2, e⟩ := List.append_of_mem h
  subst e
  apply lookup_of_split
  simp only [List.map_append, List.map_cons, List.nodup_append] at hn
  intro hk
  exact hn.2.2 k hk k (by simp) rfl

/-- The content of a plain map is plain. -/
theorem saidContent_plain {n : Nat} {label : Str} {ignore : List Str} {o c : List (Str × Value)} (h : SaidContent n label ignore o c)
    (ho : Plain (.obj o)) : Plain (.obj c) := by
  obtain ⟨hf, hn⟩ := ho
  have hnc : (c.map Prod.fst).Nodup := by
    rw [h.keys]
    refine List.Nodup.sublist List.filter_sublist ?_
    split
    · simpa using hn
    · rename_i hl
      rw [List.nodup_append]
      refine ⟨hn, by simp, ?_⟩
      intro a ha b hb
      simp only [List.mem_singleton] at hb
      rintro rfl
      rw [hb] at ha
      exact hl ha
  refine ⟨plainFields_iff.mpr ?_, hnc⟩
  rintro ⟨k, v⟩ he
  have hlook := lookup_of_mem_nodup he hnc
  have hk : k ∉ ignore := by
    have : k ∈ c.map Prod.fst := List.mem_map_of_mem (f := Prod.fst) he
    rw [h.keys, List.mem_filter] at this
    simpa using this.2
  by_cases h1 : k = label
  · subst h1
    rw [h.field hk] at hlook
    injection hlook with hlook
    rw [← hlook]; trivial
  by_cases h2 : k = lit "v"
  · subst h2
    have hin : lit "v" ∈ o.map Prod.fst := by
      have : lit "v" ∈ c.map Prod.fst := List.mem_map_of_mem (f := Prod.fst) he
      rw [h.keys, List.mem_filter, List.mem_append] at this
      rcases this.1 with a | a
      · exact a
      · split at a
        · cases a
        · simp only [List.mem_singleton] at a
          exact absurd a h1
    obtain ⟨x, hx⟩ := Option.isSome_iff_exists.mp (Saider.hasKey_iff.mpr hin)
    obtain ⟨vs, vs', _, _, _, _, hc, _⟩ := h.version hk x hx
    rw [hc] at hlook
    injection hlook with hlook
    rw [← hlook]; trivial
  · rw [h.other k hk h1 h2] at hlook
    exact plainFields_iff.mp hf _ (lookup_mem_value hlook)

theorem filter_label {l : List Str} {label : Str} {ignore : List Str} :
    ((l ++ if label ∈ l then [] else [label]).filter (fun k => k ∉ ignore)).filter (fun k => k ≠ label) = l.filter (fun k => k ∉ label :: ignore) := by
  rw [List.filter_filter, List.filter_append]
  have : (if label ∈ l then [] else [label]).filter (fun a => decide (a ≠ label) && decide (a ∉ ignore)) = [] := by
    split <;> simp
  rw [this, List.append_nil]
  congr 1
  funext a
  simp [List.mem_cons]

theorem VersionText_ident {s i i' k k' : Str} {a b n a' b' n' : Nat} (h : VersionText s i a b k n) (h' : VersionText s i' a' b' k' n') : i = i' := by
  obtain ⟨x, y, z, e, hw, _⟩ := h
  obtain ⟨x', y', z', e', hw', _⟩ := h'
  rw [e] at e'
  simp only [List.append_assoc] at e'
  exact (List.append_inj e' (by rw [hw.1, hw'.1])).1

/-- Maps with the same content agree. -/
theorem saidContent_same {n : Nat} {label : Str} {ignore : List Str} {a b c : List (Str × Value)} (ha : SaidContent n label ignore a c)
    (hb : SaidContent n label ignore b c) (hl : label ≠ lit "v") : SameContent label ignore a b := by
  have hkeys : (a.map Prod.fst).filter (fun k => k ∉ label :: ignore) = (b.map Prod.fst).filter (fun k => k ∉ label :: ignore) := by
    rw [← filter_label (l := a.map Prod.fst), ← filter_label (l := b.map Prod.fst), ← ha.keys, ← hb.keys]
  refine ⟨hkeys, ?_, ?_⟩
  · intro k h1 h2 h3
    rw [← ha.other k h1 h2 h3, hb.other k h1 h2 h3]
  · intro h1 x hx
    have hin : lit "v" ∈ b.map Prod.fst := by
      have h2 : lit "v" ∈ (a.map Prod.fst).filter (fun k => k ∉ label :: ignore) := by
        rw [List.mem_filter]
        refine ⟨Saider.hasKey_iff.mp (by rw [Saider.hasKey_eq_isSome, hx]; rfl), ?_⟩
        simp [Ne.symm hl, h1]
      rw [hkeys, List.mem_filter] at h2
      exact h2.1
    obtain ⟨y, hy⟩ := Option.isSome_iff_exists.mp (Saider.hasKey_iff.mpr hin)
    obtain ⟨vs, vs', i, m, m', rfl, hc, _, ht, ht', _⟩ := ha.version h1 x hx
    obtain ⟨ws, ws', j, k, k', rfl, hc', _, hu, hu', _⟩ := hb.version h1 y hy
    rw [hc] at hc'
    injection hc' with e
    injection e with e
    subst e
    have : i = j := VersionText_ident ht' hu'
    subst this
    exact ⟨vs, ws, i, m, k, rfl, hy, ht, hu⟩

/-- C44: if a SAID verifies against two maps (same label and ignored fields), the maps agree except for the label field, ignored
fields and the size in the version string - or two different serializations have the same digest. The two serializations are
those of the contents of the maps. -/
theorem C44_binds {E : Env} {H : Hash} {s : Matter} (hs : IsSaid E H s) {a b : Value} (ha : Plain a) (hb : Plain b)
    {prefixed versioned prefixed' versioned' : Option Bool} {kind kind' label : Option Str} {ignore : Option (List Str)}
    (h1 : Saider.verify E H s a prefixed versioned kind label ignore = .ok true)
    (h2 : Saider.verify E H s b prefixed' versioned' kind' label ignore = .ok true) :
    ∃ oa ob ca cb n, a = .obj oa ∧ b = .obj ob ∧ SaidContent n (label.getD (lit "d")) (ignore.getD []) oa ca ∧
      SaidContent n (label.getD (lit "d")) (ignore.getD []) ob cb ∧
      (((Value.obj ca).toJson ≠ (Value.obj cb).toJson ∧ H.digest s.code (Value.obj ca).toJson = H.digest s.code (Value.obj cb).toJson) ∨
       (SameContent (label.getD (lit "d")) (ignore.getD []) oa ob ∧
        (versioned.getD true = true → versioned'.getD true = true → lit "v" ∉ ignore.getD [] → oa.lookup (lit "v") = ob.lookup (lit "v")))) := by
  obtain ⟨oa, ca, t, rfl, ht, hca, hra, hva, _⟩ := C44_content hs h1
  obtain ⟨ob, cb, t', rfl, ht', hcb, hrb, hvb, _⟩ := C44_content hs h2
  have htt : t' = t := by rw [ht] at ht'; injection ht' with ht'; exact ht'.symm
  subst htt
  refine ⟨oa, ob, ca, cb, t'.length, rfl, rfl, hca, hcb, ?_⟩
  by_cases he : (Value.obj ca).toJson = (Value.obj cb).toJson
  · right
    have hcc : Value.obj ca = Value.obj cb := C39_injective (saidContent_plain hca ha) (saidContent_plain hcb hb) he
    injection hcc with hcc
    subst hcc
    have hl : label.getD (lit "d") ≠ lit "v" := by
      intro e
      obtain ⟨_, _, _, _, _, _, _, _, _, hs'⟩ := hs
      obtain ⟨⟨_, _, _, _, _, hm⟩, _⟩ := Saider.new_matter hs'
      obtain ⟨z, w⟩ := Matter.new_text_wf hm ht
      obtain ⟨_, _, _, _, _, _, hp, _⟩ := (Saider.verify_true w).mp h1
      rw [e] at hp
      exact Saider.prep_label_v hp
    exact ⟨saidContent_same hca hcb hl, fun g1 g2 g3 => by rw [← hva g1 g3, hvb g2 g3]⟩
  · left
    exact ⟨he, by rw [← hra, ← hrb]⟩

end Cesride
