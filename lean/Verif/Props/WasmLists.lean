import Verif.Props.Wasm
import Verif.Props.Saider2
import Verif.Props.Prefixer3
import Verif.Props.Diger
import Verif.Props.Salter

/-! # C79: which names in an ignore list matter; C80: lists in the JavaScript bindings -/

namespace Cesride
open Common Spec Wasm

namespace Saider

/-- The digest only depends on which of the map's fields (and the SAID field) are named in the ignore list. -/
theorem derive_ignore {H : Hash} {o : List (Str × Value)} {code kind : Option Str} {label : Str} {l1 l2 : List Str}
    (h : ∀ k, k ∈ o.map Prod.fst ∨ k = label → (k ∈ l1 ↔ k ∈ l2)) :
    derive H (.obj o) code kind (some label) (some l1) = derive H (.obj o) code kind (some label) (some l2) := by
  have hmap : ∀ m, (Value.obj m).toMap = .ok m := fun _ => rfl
  have hrem : ∀ m : List (Str × Value), (∀ k ∈ m.map Prod.fst, k ∈ o.map Prod.fst ∨ k = label) → removeKeys l1 m = removeKeys l2 m := by
    intro m hm
    rw [removeKeys_eq, removeKeys_eq]
    apply List.filter_congr
    intro e he
    have := h e.1 (hm _ (List.mem_map_of_mem he))
    by_cases h1 : e.1 ∈ l1
    · simp [h1, this.mp h1]
    · simp [h1, mt this.mpr h1]
  unfold derive
  dsimp only
  cases validateDigestCode (code.getD (lit "E")) with
  | panic => rfl
  | err e => rfl
  | ok u =>
    simp only [Res.ok_bind]
    cases Matter.sizage (code.getD (lit "E")) with
    | panic => rfl
    | err e => rfl
    | ok szg =>
      simp only [Res.ok_bind, Value.set, Option.getD_some, hmap]
      have hins : ∀ k ∈ (Value.insert o label (dummy szg.fs)).map Prod.fst, k ∈ o.map Prod.fst ∨ k = label := by
        intro k hk
        rw [keys_insert] at hk
        rcases List.mem_append.mp hk with hk | hk
        · exact .inl hk
        · split at hk
          · cases hk
          · exact .inr (List.mem_singleton.mp hk)
      by_cases hv : Value.hasKey (Value.insert o label (dummy szg.fs)) (lit "v") = true
      · rw [if_pos hv]
        cases hs : sizeify (.obj (Value.insert o label (dummy szg.fs))) kind with
        | panic => rfl
        | err e => rfl
        | ok r =>
          obtain ⟨o', vs, e1, e3, e2, _⟩ := C41_size hs
          simp only [Res.ok_bind, e2, hmap]
          injection e1 with e1
          subst e1
          rw [hrem]
          intro k hk
          apply hins
          rw [keys_insert, if_pos (hasKey_iff.mp hv), List.append_nil] at hk
          exact hk
      · rw [if_neg hv]
        simp only [Res.ok_bind, hmap]
        rw [hrem _ hins]

/-- The map that `derive` returns has no other fields than the given one and the SAID field. -/
theorem derive_keys {H : Hash} {o : List (Str × Value)} {code : Str} {kind : Option Str} {label : Str} {ignore : Option (List Str)} {raw : List UInt8} {sad : Value}
    (h : derive H (.obj o) (some code) kind (some label) ignore = .ok (raw, sad)) :
    ∃ o', sad = .obj o' ∧ ∀ k ∈ o'.map Prod.fst, k ∈ o.map Prod.fst ∨ k = label := by
  obtain ⟨n, z, o1, o', hc, hz, e, hp, e3, _⟩ := derive_ok h
  injection e with e
  subst e
  have hins : ∀ k ∈ (Value.insert o label (dummy z.fs)).map Prod.fst, k ∈ o.map Prod.fst ∨ k = label := by
    intro k hk
    rw [keys_insert] at hk
    rcases List.mem_append.mp hk with hk | hk
    · exact .inl hk
    · split at hk
      · cases hk
      · exact .inr (List.mem_singleton.mp hk)
  refine ⟨o', e3, ?_⟩
  by_cases hv : Value.hasKey (Value.insert o label (dummy z.fs)) (lit "v") = true
  · obtain ⟨r, hr, hk, _⟩ := prep_versioned hp hv
    obtain ⟨o2, vs, e1, _, e2, _⟩ := C41_size hr
    injection e1 with e1
    subst e1
    rw [hk] at e2
    injection e2 with e2
    subst e2
    intro k hk
    rw [keys_insert, if_pos (hasKey_iff.mp hv), List.append_nil] at hk
    exact hins k hk
  · rw [prep, if_neg hv] at hp
    split at hp
    · injection hp with hp
      subst hp
      exact hins
    · cases hp

end Saider

/-- C79 (ignored names). What a map's SAID is, whether `saidify` succeeds and whether a SAID verifies depends on the ignore list only through the question which fields
of the map it names: order, repetition and names that are no fields have no influence. -/
theorem C79_ignore (E : Env) (H : Hash) (o : List (Str × Value)) (code kind label : Option Str) {l1 l2 : List Str}
    (h : ∀ k, k ∈ o.map Prod.fst ∨ k = label.getD (lit "d") → (k ∈ l1 ↔ k ∈ l2)) :
    Saider.newWithSad E H (.obj o) label kind (some l1) code = Saider.newWithSad E H (.obj o) label kind (some l2) code ∧
    Saider.saidify E H (.obj o) code kind label (some l1) = Saider.saidify E H (.obj o) code kind label (some l2) ∧
    ∀ m prefixed versioned, Saider.verify E H m (.obj o) prefixed versioned kind label (some l1) =
      Saider.verify E H m (.obj o) prefixed versioned kind label (some l2) := by
  have hd : ∀ c, Saider.derive H (.obj o) c kind (some (label.getD (lit "d"))) (some l1) = Saider.derive H (.obj o) c kind (some (label.getD (lit "d"))) (some l2) :=
    fun c => Saider.derive_ignore h
  have hnew : ∀ (o' : List (Str × Value)) lab code, (∀ k ∈ o'.map Prod.fst, k ∈ o.map Prod.fst ∨ k = label.getD (lit "d")) → lab.getD (lit "d") = label.getD (lit "d") →
      Saider.newWithSad E H (.obj o') lab kind (some l1) code = Saider.newWithSad E H (.obj o') lab kind (some l2) code := by
    intro o' lab code hk hlab
    have hd : ∀ c, Saider.derive H (.obj o') c kind (some (label.getD (lit "d"))) (some l1) =
        Saider.derive H (.obj o') c kind (some (label.getD (lit "d"))) (some l2) :=
      fun c => Saider.derive_ignore fun k hk' => h k (hk'.elim (hk k) .inr)
    unfold Saider.newWithSad Saider.new
    simp only [hlab, hd]
  refine ⟨hnew o label code (fun k hk => .inl hk) rfl, ?_, ?_⟩
  · unfold Saider.saidify
    simp only [hd]
    have hm : (Value.obj o).toMap = .ok o := rfl
    rw [hm]
    simp only [Res.ok_bind]
    cases hk : Value.hasKey o (label.getD (lit "d")) with
    | false => rfl
    | true =>
      simp only [Bool.not_true, Bool.false_eq_true, if_false]
      cases hdd : Saider.derive H (.obj o) (some (code.getD (lit "E"))) kind (some (label.getD (lit "d"))) (some l2) with
      | panic => rfl
      | err e => rfl
      | ok p =>
        obtain ⟨raw, sad⟩ := p
        obtain ⟨o', rfl, hkeys⟩ := Saider.derive_keys hdd
        simp only [Res.ok_bind]
        have := hnew o' (some (label.getD (lit "d"))) (some (code.getD (lit "E"))) hkeys rfl
        unfold Saider.newWithSad at this
        rw [this]
  · intro m p v
    unfold Saider.verify
    simp only [hd]

/-- C80 (lists of texts). Called with a document's text and a list of texts, the JavaScript functions do what the library does with the document and the list. -/
theorem C80_texts (E : Env) (F : Str → Option Str) (H : Hash) {t : Str} {v : Value} (hv : Json.fromStr F t = .ok v) (l : List Str) (code kind label : Option Str) :
    (∀ raw qb64b qb64 qb2, saiderNew E F H (some t) label kind (some (l.map .text)) code raw qb64b qb64 qb2 =
      Saider.new E H (some v) label kind (some l) code raw qb64b qb64 qb2) ∧
    saiderNewWithSad E F H t label kind (some (l.map .text)) code = Saider.newWithSad E H v label kind (some l) code ∧
    (∀ m prefixed versioned, saiderVerify E F H m t prefixed versioned kind label (some (l.map .text)) =
      Saider.verify E H m v prefixed versioned kind label (some l)) ∧
    (∀ raw qb64b qb64 qb2, prefixerNew E F H (some t) (some (l.map .text)) code raw qb64b qb64 qb2 =
      Prefixer.new E H (some v) (some l) code raw qb64b qb64 qb2) ∧
    prefixerNewWithKed E F H t (some (l.map .text)) code = Prefixer.newWithKed E H v (some l) code := by
  have hn : names (some (l.map .text)) = some l := by
    rw [names, List.map_map]
    exact congrArg some (List.map_id l)
  have ht := ((C69_document F).1 t v).mpr hv
  refine ⟨?_, ?_, ?_, ?_, ?_⟩
  · intros; rw [saiderNew, toValueOpt, ht, hn]; rfl
  · rw [saiderNewWithSad, ht, hn]; rfl
  · intros; rw [saiderVerify, ht, hn]; rfl
  · intros; rw [prefixerNew, toValueOpt, ht, hn]; rfl
  · rw [prefixerNewWithKed, ht, hn]; rfl

/-- C80 (no lists, no documents). Without list and document the JavaScript functions do what the library does; a text that is no document panics. -/
theorem C80_absent (E : Env) (F : Str → Option Str) (H : Hash) (code kind label : Option Str) :
    (∀ ignore raw qb64b qb64 qb2, saiderNew E F H none label kind ignore code raw qb64b qb64 qb2 =
      Saider.new E H none label kind none code raw qb64b qb64 qb2) ∧
    (∀ allows raw qb64b qb64 qb2, prefixerNew E F H none allows code raw qb64b qb64 qb2 = Prefixer.new E H none none code raw qb64b qb64 qb2) ∧
    (∀ t v, Json.fromStr F t = .ok v → (∀ raw qb64b qb64 qb2, saiderNew E F H (some t) label kind none code raw qb64b qb64 qb2 =
        Saider.new E H (some v) label kind none code raw qb64b qb64 qb2) ∧
      saiderNewWithSad E F H t label kind none code = Saider.newWithSad E H v label kind none code ∧
      (∀ m prefixed versioned, saiderVerify E F H m t prefixed versioned kind label none = Saider.verify E H m v prefixed versioned kind label none) ∧
      (∀ raw qb64b qb64 qb2, prefixerNew E F H (some t) none code raw qb64b qb64 qb2 = Prefixer.new E H (some v) none code raw qb64b qb64 qb2) ∧
      prefixerNewWithKed E F H t none code = Prefixer.newWithKed E H v none code ∧
      serderNewWithKed E F H t code kind = Serder.newWithKed E F H v code kind) ∧
    (∀ t, (∀ v, Json.fromStr F t ≠ .ok v) → (∀ ignore raw qb64b qb64 qb2, saiderNew E F H (some t) label kind ignore code raw qb64b qb64 qb2 = .panic) ∧
      (∀ ignore, saiderNewWithSad E F H t label kind ignore code = .panic) ∧
      (∀ m prefixed versioned ignore, saiderVerify E F H m t prefixed versioned kind label ignore = .panic) ∧
      (∀ allows raw qb64b qb64 qb2, prefixerNew E F H (some t) allows code raw qb64b qb64 qb2 = .panic) ∧
      (∀ allows, prefixerNewWithKed E F H t allows code = .panic) ∧ serderNewWithKed E F H t code kind = .panic) := by
  refine ⟨?_, ?_, ?_, ?_⟩
  · intro ignore raw qb64b qb64 qb2
    show Saider.new E H none label kind (names ignore) code raw qb64b qb64 qb2 = _
    unfold Saider.new
    cases raw <;> cases code <;> rfl
  · intro allows raw qb64b qb64 qb2
    show Prefixer.new E H none (names allows) code raw qb64b qb64 qb2 = _
    rfl
  · intro t v hv
    have ht := ((C69_document F).1 t v).mpr hv
    refine ⟨?_, ?_, ?_, ?_, ?_, ?_⟩
    · intros; rw [saiderNew, toValueOpt, ht]; rfl
    · rw [saiderNewWithSad, ht]; rfl
    · intros; rw [saiderVerify, ht]; rfl
    · intros; rw [prefixerNew, toValueOpt, ht]; rfl
    · rw [prefixerNewWithKed, ht]; rfl
    · rw [serderNewWithKed, ht]; rfl
  · intro t hv
    have ht := (C69_document F).2.1 t hv
    refine ⟨?_, ?_, ?_, ?_, ?_, ?_⟩
    · intros; rw [saiderNew, toValueOpt, ht]; rfl
    · intros; rw [saiderNewWithSad, ht]; rfl
    · intros; rw [saiderVerify, ht]; rfl
    · intros; rw [prefixerNew, toValueOpt, ht]; rfl
    · intros; rw [prefixerNewWithKed, ht]; rfl
    · rw [serderNewWithKed, ht]; rfl

/-- C80 (other entries in an ignore list). Entries that are no texts have no influence, unless the map has a field with the empty name. -/
theorem C80_other_ignored (E : Env) (F : Str → Option Str) (H : Hash) {t : Str} {o : List (Str × Value)} (hv : Json.fromStr F t = .ok (.obj o)) (l : List JsVal)
    (he : [] ∉ o.map Prod.fst) (code kind label : Option Str) (hl : label ≠ some []) :
    saiderNewWithSad E F H t label kind (some l) code = saiderNewWithSad E F H t label kind (some (l.filter (· ≠ .other))) code ∧
    ∀ m prefixed versioned, saiderVerify E F H m t prefixed versioned kind label (some l) =
      saiderVerify E F H m t prefixed versioned kind label (some (l.filter (· ≠ .other))) := by
  have ht := ((C69_document F).1 t _).mpr hv
  have hlab : label.getD (lit "d") ≠ [] := by
    cases label with
    | none => decide +kernel
    | some s => intro h; exact hl (by rw [← h]; rfl)
  have key : ∀ k, k ∈ o.map Prod.fst ∨ k = label.getD (lit "d") →
      (k ∈ (l.map fun v => match v with | .text s => s | .other => []) ↔ k ∈ ((l.filter (· ≠ .other)).map fun v => match v with | .text s => s | .other => [])) := by
    intro k hk
    have hk0 : k ≠ [] := by
      rintro rfl
      rcases hk with hk | hk
      · exact he hk
      · exact hlab hk.symm
    simp only [List.mem_map, List.mem_filter]
    constructor
    · rintro ⟨v, hv, rfl⟩
      refine ⟨v, ⟨hv, ?_⟩, rfl⟩
      cases v with
      | text s => simp
      | other => exact absurd rfl hk0
    · rintro ⟨v, ⟨hv, _⟩, rfl⟩
      exact ⟨v, hv, rfl⟩
  obtain ⟨h1, _, h3⟩ := C79_ignore E H o code kind label key
  constructor
  · rw [saiderNewWithSad, saiderNewWithSad, ht]
    exact h1
  · intro m p v
    rw [saiderVerify, saiderVerify, ht]
    exact h3 m p v

/-- C80 (other entries in an allow list). A non-empty list without texts allows nothing; an empty one allows everything. -/
theorem C80_other_allowed (E : Env) (F : Str → Option Str) (H : Hash) {t : Str} {v : Value} (hv : Json.fromStr F t = .ok v) (c : Str) :
    (∀ l : List JsVal, l ≠ [] → (∀ x ∈ l, x = .other) → prefixerNewWithKed E F H t (some l) (some c) = .err .unexpectedCode) ∧
    prefixerNewWithKed E F H t (some []) (some c) = Prefixer.newWithKed E H v none (some c) := by
  have ht := ((C69_document F).1 t v).mpr hv
  constructor
  · intro l hl hx
    have : prefixerNewWithKed E F H t (some l) (some c) = Prefixer.newWithKed E H v (names (some l)) (some c) := by
      rw [prefixerNewWithKed, ht]; rfl
    rw [this, C74_allow, if_pos]
    by_cases hc : c ∈ Spec.Typed.prefixCodes
    · refine .inr ⟨_, rfl, ?_, ?_⟩
      · simpa [names] using hl
      · intro hm
        obtain ⟨x, hxl, hxc⟩ := List.mem_map.mp hm
        rw [hx x hxl] at hxc
        have : ([] : Str) ∉ Spec.Typed.prefixCodes := by decide +kernel
        exact this (by rw [show ([] : Str) = c from hxc]; exact hc)
    · exact .inl hc
  · have : prefixerNewWithKed E F H t (some []) (some c) = Prefixer.newWithKed E H v (some []) (some c) := by
      rw [prefixerNewWithKed, ht]; rfl
    rw [this, C74_allow]
    by_cases hc : c ∈ Spec.Typed.prefixCodes
    · rw [if_neg]
      rintro (h | ⟨l, h1, h2, _⟩)
      · exact h hc
      · injection h1 with h1
        exact h2 h1.symm
    · rw [if_pos (.inl hc), C74_allow, if_pos (.inl hc)]

theorem Wasm.toArray_eq {α : Type} (l : List α) : toArray l = l.map some := by
  have key : ∀ n ≤ l.length, (List.range n).foldl (fun arr i => arr.set i l[i]?) (List.replicate l.length none) =
      (l.take n).map some ++ List.replicate (l.length - n) none := by
    intro n
    induction n with
    | zero => intro _; simp
    | succ n ih =>
      intro hn
      rw [List.range_succ, List.foldl_append, ih (by omega)]
      simp only [List.foldl_cons, List.foldl_nil]
      rw [List.set_append, if_neg (by simp)]
      have e1 : l.length - n = (l.length - (n + 1)) + 1 := by omega
      rw [e1, List.replicate_succ]
      have e2 : n - (List.map some (List.take n l)).length = 0 := by simp; omega
      rw [e2, List.set_cons_zero, List.take_add_one, List.map_append]
      have : l[n]? = some l[n] := List.getElem?_eq_getElem (by omega)
      rw [this]
      simp only [Option.toList_some, List.map_cons, List.map_nil, List.append_assoc, List.cons_append, List.nil_append]
  have := key l.length (Nat.le_refl _)
  simpa [toArray] using this

/-- C80 (results). The arrays of keys and digests of an event have exactly the library's entries, in order, without gaps. -/
theorem C80_arrays (E : Env) (H : Hash) (s : Sadder) :
    serderVerfers E s = (do
      let l ← Serder.verfers E s
      .ok (l.map some)) ∧ serderDigers E H s = (do
      let l ← Serder.digers E H s
      .ok (l.map some)) ∧
    serderWerfers E s = (do
      let l ← Serder.werfers E s
      .ok (l.map some)) := by
  refine ⟨?_, ?_, ?_⟩
  · rw [serderVerfers]; cases Serder.verfers E s <;> simp [toArray_eq]
  · rw [serderDigers]; cases Serder.digers E H s <;> simp [toArray_eq]
  · rw [serderWerfers]; cases Serder.werfers E s <;> simp [toArray_eq]

/-- C80 (results). A list of signers made in JavaScript has the library's length and entries; beyond the end there is none. -/
theorem C80_signers (E : Env) (C : Crypto) (s : Salter) (count start : Option Nat) (path code : Option Str) (tr : Option Bool) (tier : Option Str) (temp : Option Bool) :
    (∀ x, salterSigners E C s count start path code tr tier temp = .ok x → ∃ l, Salter.signers E C s count start path code tr tier temp = .ok l ∧
      x.len = l.length ∧ x.isEmpty = decide (l = []) ∧ ∀ i, x.get i = l[i]?) ∧
    (∀ l, Salter.signers E C s count start path code tr tier temp = .ok l → ∃ x, salterSigners E C s count start path code tr tier temp = .ok x) ∧
    (∀ e, Salter.signers E C s count start path code tr tier temp = .err e → salterSigners E C s count start path code tr tier temp = .err e) := by
  refine ⟨?_, ?_, ?_⟩
  · intro x h
    rw [salterSigners] at h
    obtain ⟨l, hl, h⟩ := Res.bind_eq_ok.mp h
    injection h with h
    subst h
    refine ⟨l, hl, rfl, ?_, ?_⟩
    · cases l <;> simp [Signers.isEmpty]
    · intro i
      rw [Signers.get]
      split
      · rfl
      · rename_i hi
        exact (List.getElem?_eq_none (by simpa using hi)).symm
  · intro l hl
    exact ⟨⟨l⟩, by rw [salterSigners, hl]; rfl⟩
  · intro e he
    rw [salterSigners, he]; rfl

/-- C80 (digests). Comparing digests in JavaScript: with a digest object, true exactly when code and raw agree or both are digests of the data under different codes;
with a text, true for the own text and otherwise what the text's parse says. -/
theorem C80_compare {E : Env} {H : Hash} {d : Matter} (hd : IsDiger E H d) (ser : List UInt8) {s : Str} (hs : d.qb64 E = .ok s) :
    (∀ e t, IsDiger E H e → e.qb64 E = .ok t → digerCompareDiger E H d ser e =
      .ok (decide ((d.code = e.code ∧ d.raw = e.raw) ∨ (d.code ≠ e.code ∧ H.digest d.code ser = d.raw ∧ H.digest e.code ser = e.raw)))) ∧
    digerCompareDig E H d ser s = .ok true ∧
    (∀ dig err, dig ≠ s → Matter.new E none none (some dig) none none = .err err → digerCompareDig E H d ser dig = .err err) ∧
    (∀ dig m, dig ≠ s → Matter.new E none none (some dig) none none = .ok m → (∃ n, (m.code, n) ∈ digestSizes) → digerCompareDig E H d ser dig =
      .ok (decide (d.code ≠ m.code ∧ H.digest d.code ser = d.raw ∧ H.digest m.code ser = m.raw))) := by
  refine ⟨?_, ?_, ?_, ?_⟩
  · intro e t he ht
    rw [digerCompareDiger, C55_compare hd he ser hs ht]
    congr 1
    rw [decide_eq_decide, C55_compare_same hd he hs ht]
  · exact (C55_compare_text hd ser s none hs).1 rfl
  · intro dig err h1 h2
    exact (C55_compare_text hd ser dig none hs).2.1 h1 err h2
  · intro dig m h1 h2 h3
    exact ((C55_compare_text hd ser dig none hs).2.2 h1 m h2).1 h3

/-- C79: the field `zz` does not exist and repeats have no influence. -/
example (E : Env) (H : Hash) : ∃ s sad', Saider.saidify E H (.obj sampleSad) none none none (some [lit "x", lit "zz", lit "x"]) = .ok (s, sad') ∧
    Saider.saidify E H (.obj sampleSad) none none none (some [lit "x"]) = .ok (s, sad') := by
  obtain ⟨s, sad', h⟩ := C43_succeeds_plain E H (o := sampleSad) (code := lit "E") (label := lit "d") (n := 32) (some [lit "x"]) (by decide +kernel) (by decide +kernel)
    (by decide +kernel)
  have h : Saider.saidify E H (.obj sampleSad) none none none (some [lit "x"]) = .ok (s, sad') := h
  have e := (C79_ignore E H sampleSad none none none (l1 := [lit "x", lit "zz", lit "x"]) (l2 := [lit "x"]) (by
    intro k hk
    have : k ∈ [lit "d", lit "a", lit "x"] := by
      rcases hk with hk | hk
      · exact hk
      · rw [hk]; decide +kernel
    simp only [List.mem_cons, List.not_mem_nil, or_false] at this ⊢
    rcases this with rfl | rfl | rfl <;> decide +kernel)).2.1
  exact ⟨s, sad', e.trans h, h⟩

/-- C80: a list with a number in it, for a document. -/
example (E : Env) (F : Str → Option Str) (H : Hash) (code : Option Str) :
    saiderNewWithSad E F H (lit "{\"d\":\"\",\"x\":1}") none none (some [.text (lit "x"), .other]) code =
      saiderNewWithSad E F H (lit "{\"d\":\"\",\"x\":1}") none none (some [.text (lit "x")]) code := by
  have h0 : Json.fromStr F (lit "{\"d\":\"\",\"x\":1}") = .ok (.obj [(lit "d", .str []), (lit "x", .int 1)]) := by kernel_rfl
  have := (C80_other_ignored E F H h0 [.text (lit "x"), .other] (by decide +kernel) code none none (by simp)).1
  rw [this]
  rfl

end Cesride
