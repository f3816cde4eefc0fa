import Verif.Lemmas.JsonRead2
import Verif.Props.Sadder
import Verif.Model.Wasm
import Verif.Model.Short
import Verif.Lemmas.KernelRfl

/-! # C81: the reader accepts exactly JSON; C82: which bytes are a message -/

namespace Cesride
open Spec Spec.JsonText

mutual
theorem convertible_iff : ∀ v : Value, Json.convertible v = true ↔ ∀ x, Inside x v → ¬ Awkward x
  | .null => by
    refine ⟨fun _ x hx ha => ?_, fun _ => rfl⟩
    cases hx; rcases ha with ⟨_, h, _⟩ | ⟨_, h, _⟩ <;> cases h
  | .bool _ => by
    refine ⟨fun _ x hx ha => ?_, fun _ => rfl⟩
    cases hx; rcases ha with ⟨_, h, _⟩ | ⟨_, h, _⟩ <;> cases h
  | .str _ => by
    refine ⟨fun _ x hx ha => ?_, fun _ => rfl⟩
    cases hx; rcases ha with ⟨_, h, _⟩ | ⟨_, h, _⟩ <;> cases h
  | .int i => by
    rw [Json.convertible, decide_eq_true_iff]
    refine ⟨fun h x hx ha => ?_, fun h => ?_⟩
    · cases hx
      rcases ha with ⟨j, hj, h'⟩ | ⟨_, hj, _⟩
      · cases hj; omega
      · cases hj
    · exact Int.not_le.mp fun h' => h _ (.self _) (.inl ⟨i, rfl, h'⟩)
  | .float t => by
    rw [Json.convertible, List.contains_iff_mem]
    refine ⟨fun h x hx ha => ?_, fun h => ?_⟩
    · cases hx
      rcases ha with ⟨j, hj, h'⟩ | ⟨_, hj, h'⟩
      · cases hj
      · cases hj; exact h' h
    · exact Classical.byContradiction fun h' => h _ (.self _) (.inr ⟨t, rfl, h'⟩)
  | .arr a => by
    rw [Json.convertible, convertibleElems_iff a]
    refine ⟨fun h x hx ha => ?_, fun h v hv x hx => h x (.elem hv hx)⟩
    cases hx with
    | self => rcases ha with ⟨_, h, _⟩ | ⟨_, h, _⟩ <;> cases h
    | elem hv hx => exact h _ hv x hx ha
  | .obj o => by
    rw [Json.convertible, convertibleFields_iff o]
    refine ⟨fun h x hx ha => ?_, fun h k v hv x hx => h x (.entry hv hx)⟩
    cases hx with
    | self => rcases ha with ⟨_, h, _⟩ | ⟨_, h, _⟩ <;> cases h
    | entry hv hx => exact h _ _ hv x hx ha
theorem convertibleElems_iff : ∀ a : List Value, Json.convertibleElems a = true ↔ ∀ v ∈ a, ∀ x, Inside x v → ¬ Awkward x
  | [] => by simp [Json.convertibleElems]
  | v :: a => by
    rw [Json.convertibleElems, Bool.and_eq_true, convertible_iff v, convertibleElems_iff a, List.forall_mem_cons]
theorem convertibleFields_iff : ∀ o : List (Str × Value), Json.convertibleFields o = true ↔ ∀ k v, (k, v) ∈ o → ∀ x, Inside x v → ¬ Awkward x
  | [] => by simp [Json.convertibleFields]
  | (k', v') :: o => by
    rw [Json.convertibleFields, Bool.and_eq_true, convertible_iff v', convertibleFields_iff o]
    constructor
    · rintro ⟨h1, h2⟩ k v hm
      rcases List.mem_cons.mp hm with e | hm
      · cases e; exact h1
      · exact h2 k v hm
    · exact fun h => ⟨h k' v' (List.mem_cons_self ..), fun k v hm => h k v (List.mem_cons_of_mem _ hm)⟩
end

/-- C39, defect: a document with a float that prints without a point, like `1e300`, panics when its own text is read. -/
theorem C39_defect_float (F : Str → Option Str) {v : Value} (hv : Plain v) (hF : ∀ t, Inside (.float t) v → F t = some t) (hd : depth v < 128)
    {t : Str} (ht : Inside (.float t) v) (hp : ch '.' ∉ t) : Json.fromStr F v.toJson = .panic := by
  have h := Json.parse_value F v (rest := []) (fuel := 2 * v.toJson.length + 2) hv hF hd (by omega) (by intro c hc; simp at hc)
  rw [List.append_nil] at h
  have hc : Json.convertible v = false := by
    rw [← Bool.not_eq_true, convertible_iff]
    intro h
    exact h _ ht (.inr ⟨t, rfl, hp⟩)
  unfold Json.fromStr Json.parseDoc
  rw [h]
  simp [Json.skipWs, hc]

/-- C81. A text denotes at most one document. -/
theorem C81_unique {F : Str → Option Str} {s : Str} {v w : Value} (hv : Doc F s v) (hw : Doc F s w) : v = w := by
  have h1 := (Json.parseDoc_iff F s v).mpr hv
  have h2 := (Json.parseDoc_iff F s w).mpr hw
  rw [h1] at h2
  exact Option.some.inj h2

/-- C81. Reading gives the document that the text denotes, when it has no number the library cannot take; with such a number it panics; a
text that denotes none is refused. Nothing else happens. -/
theorem C81_read (F : Str → Option Str) (s : Str) :
    (∀ v, Json.fromStr F s = .ok v ↔ Doc F s v ∧ ∀ x, Inside x v → ¬ Awkward x) ∧
    (Json.fromStr F s = .panic ↔ ∃ v x, Doc F s v ∧ Inside x v ∧ Awkward x) ∧
    (∀ e, Json.fromStr F s = .err e ↔ e = .json ∧ ¬ ∃ v, Doc F s v) := by
  unfold Json.fromStr
  cases hp : Json.parseDoc F s with
  | none =>
    have hn : ∀ v, ¬ Doc F s v := fun v hv => by
      rw [(Json.parseDoc_iff F s v).mpr hv] at hp; cases hp
    refine ⟨fun v => ⟨fun h => (by cases h), fun h => absurd h.1 (hn v)⟩, ⟨fun h => (by cases h), fun ⟨v, _, h, _⟩ => absurd h (hn v)⟩, fun e => ?_⟩
    exact ⟨fun h => by cases h; exact ⟨rfl, fun ⟨v, hv⟩ => hn v hv⟩, fun h => by rw [h.1]⟩
  | some w =>
    have hw := (Json.parseDoc_iff F s w).mp hp
    dsimp only
    by_cases hc : Json.convertible w = true
    · rw [if_pos hc]
      have hc' := (convertible_iff w).mp hc
      refine ⟨fun v => ⟨fun h => ?_, fun h => ?_⟩, ⟨fun h => (by cases h), fun ⟨v, x, h, hx, ha⟩ => ?_⟩, fun e => ⟨fun h => (by cases h), fun h => absurd ⟨w, hw⟩ h.2⟩⟩
      · cases h; exact ⟨hw, hc'⟩
      · rw [C81_unique hw h.1]
      · rw [← C81_unique hw h] at hx
        exact absurd ha (hc' x hx)
    · rw [if_neg hc]
      rw [convertible_iff] at hc
      refine ⟨fun v => ⟨fun h => (by cases h), fun h => ?_⟩, ⟨fun _ => ?_, fun _ => rfl⟩, fun e => ⟨fun h => (by cases h), fun h => absurd ⟨w, hw⟩ h.2⟩⟩
      · rw [← C81_unique hw h.1] at h; exact absurd h.2 hc
      · by_contra hn
        exact hc fun x hx ha => hn ⟨w, x, hw, hx, ha⟩

/-- C81. Through the JavaScript bindings a document argument is what its text denotes, or an exception. -/
theorem C81_bindings (F : Str → Option Str) (s : Str) :
    (∀ v, Wasm.toValue F s = .ok v ↔ Doc F s v ∧ ∀ x, Inside x v → ¬ Awkward x) ∧
    (Wasm.toValue F s = .panic ↔ ¬ ∃ v, Doc F s v ∧ ∀ x, Inside x v → ¬ Awkward x) := by
  obtain ⟨h1, h2, h3⟩ := C81_read F s
  unfold Wasm.toValue
  cases h : Json.fromStr F s with
  | ok w =>
    rw [h] at h1 h2 h3
    refine ⟨h1, fun hh => (by cases hh), fun hn => absurd ⟨w, (h1 w).mp rfl⟩ hn⟩
  | err e =>
    rw [h] at h1 h2 h3
    refine ⟨fun v => ⟨fun hh => (by cases hh), fun hv => absurd ⟨v, hv.1⟩ ((h3 e).mp rfl).2⟩, fun _ ⟨v, hv⟩ => ((h3 e).mp rfl).2 ⟨v, hv.1⟩, fun _ => rfl⟩
  | panic =>
    rw [h] at h1 h2 h3
    refine ⟨fun v => ⟨fun hh => (by cases hh), fun hv => ?_⟩, fun _ ⟨v, hv⟩ => ?_, fun _ => rfl⟩
    · have := (h1 v).mpr hv; cases this
    · have := (h1 v).mpr hv; cases this

/-- Blanks, escapes, a surrogate pair, a repeated key (first place, last value) and both number kinds. -/
example : Doc (fun t => if t = lit "-0.50e+1" then some (lit "-5.0") else none)
      (lit " { \"a\" : 1 , \"b\\n\\u00e9\\ud83d\\ude00\":[ ] ,\r\n\"a\":[-0.50e+1,18446744073709551615,true] } ")
      (.obj [(lit "a", .arr [.float (lit "-5.0"), .int 18446744073709551615, .bool true]), (lit "b\n" ++ [0xC3, 0xA9, 0xF0, 0x9F, 0x98, 0x80], .arr [])]) := by
  rw [← Json.parseDoc_iff]
  kernel_rfl

/-- Texts that denote nothing: trailing text, trailing commas, leading zeros, control characters in a text, lone surrogates, a missing
digit, a key without quotes. -/
example : ∀ s ∈ [lit "{} x", lit "[1,]", lit "{\"a\":1,}", lit "01", lit "\"a\tb\"", lit "\"\\ud800\"", lit "\"\\ude00\\ud83d\"", lit "1.", lit ".5",
    lit "+1", lit "{a:1}", lit "'a'", lit "nul", lit "", lit "[1 2]", lit "NaN", lit "\"\\x41\"", lit "[1]]"], ¬ ∃ v, Doc some s v := by
  have key : ∀ s ∈ [lit "{} x", lit "[1,]", lit "{\"a\":1,}", lit "01", lit "\"a\tb\"", lit "\"\\ud800\"", lit "\"\\ude00\\ud83d\"", lit "1.", lit ".5",
    lit "+1", lit "{a:1}", lit "'a'", lit "nul", lit "", lit "[1 2]", lit "NaN", lit "\"\\x41\"", lit "[1]]"], (Json.parseDoc some s).isNone = true := by
    decide +kernel
  rintro s hs ⟨v, hv⟩
  have h1 := key s hs
  rw [(Json.parseDoc_iff some s v).mpr hv] at h1
  cases h1

/-! ## C82 -/

theorem doc_obj_split {F : Str → Option Str} {s : Str} {o : List (Str × Value)} (h : Doc F s (.obj o)) :
    ∃ a b, s = a ++ ch '}' :: b ∧ Blank b := by
  obtain ⟨w, t, w', rfl, -, hV, hw'⟩ := h
  cases hV with
  | @obj0 _ u _ => exact ⟨w ++ ch '{' :: u, w', by simp, hw'⟩
  | @obj _ u _ _ => exact ⟨w ++ ch '{' :: u, w', by simp, hw'⟩
  | num hN =>
    obtain ⟨sign, whole, frac, exp, -, -, hm⟩ := hN
    split at hm
    · cases hm
    · obtain ⟨x, _, hx⟩ := hm; cases hx

theorem blank_utf8 {b : Str} (h : Blank b) : utf8Valid b = true := by
  induction b with
  | nil => rfl
  | cons c b ih =>
    have hc : c < 0x80 := by
      rcases h c (List.mem_cons_self ..) with rfl | rfl | rfl | rfl <;> decide
    rw [utf8_cons hc]
    exact ih fun x hx => h x (List.mem_cons_of_mem _ hx)

/-- The part of a valid text that denotes an object is valid text: it ends with a bracket. -/
theorem doc_obj_utf8 {F : Str → Option Str} {raw : Str} {n : Nat} {o : List (Str × Value)} (hu : utf8Valid raw = true)
    (h : Doc F (raw.take n) (.obj o)) : utf8Valid (raw.take n) = true := by
  obtain ⟨a, b, hab, hb⟩ := doc_obj_split h
  have hr : raw = a ++ ch '}' :: (b ++ raw.drop n) := by
    conv => lhs; rw [← List.take_append_drop n raw, hab]
    simp
  rw [hr] at hu
  have ha := (utf8Valid_split hu (by decide)).1
  rw [hab, utf8Valid_append ha, utf8_cons (by decide)]
  exact blank_utf8 hb

/-- What the bytes of a message must be like, for protocol `ident` and digest code `code`; `size`, `o` and `m` are the declared size, the
entries of the document and the SAID object. -/
def IsMessage (E : Env) (F : Str → Option Str) (H : Hash) (ident code : Str) (raw : List UInt8) (size : Nat) (o : List (Str × Value)) (m : Matter) : Prop :=
  Announces raw ident 1 0 size ∧ size ≤ raw.length ∧ Doc F (raw.take size) (.obj o) ∧ (∀ x, Inside x (.obj o) → ¬ Awkward x) ∧
    ∃ t, o.lookup (lit "d") = some (.str t) ∧ Saider.newWithQb64 E H t = .ok m ∧ m.code = code

theorem sadder_message {E : Env} {F : Str → Option Str} {H : Hash} {dflt s : Sadder} {code kind : Option Str} {raw : List UInt8} {ked : Option Value} {sad : Option Sadder} {ident : Str} :
    Sadder.new E F H dflt code (some raw) kind ked sad = .ok s ∧ s.ident = ident ↔
    ∃ size o m, IsMessage E F H ident (code.getD (lit "E")) raw size o m ∧
      s = { code := code.getD (lit "E"), raw := raw.take size, ked := .obj o, ident := ident, kind := lit "JSON", size := size, version := ⟨1, 0⟩, saider := m } := by
  have hnew : ∀ t, Saider.newWithQb64 E H t = Saider.new E H none none none none none none none (some t) none := fun _ => rfl
  have hsa : ∀ k m, Sadder.saiderOf E H k = .ok m ↔ ∃ o t, k = .obj o ∧ o.lookup (lit "d") = some (.str t) ∧ Saider.newWithQb64 E H t = .ok m := by
    intro k m
    constructor
    · intro h
      have h' := h
      obtain ⟨o, t, n, rfl, hl, -⟩ := Sadder.saiderOf_ok.mp h
      refine ⟨o, t, rfl, hl, ?_⟩
      unfold Sadder.saiderOf at h'
      simp only [Value.index, hl, Res.ok_bind, Value.toStr] at h'
      exact h'
    · rintro ⟨o, t, rfl, hl, h⟩
      unfold Sadder.saiderOf
      simp only [Value.index, hl, Res.ok_bind, Value.toStr]
      exact h
  constructor
  · rintro ⟨h, hid⟩
    obtain ⟨v, k, m, hv, hver, hl, hu, hk, hm, hc, rfl⟩ := Sadder.new_raw_ok.mp h
    obtain ⟨ha, hj⟩ := announces_iff.mp hv
    dsimp only at hid
    subst hid
    obtain ⟨o, t, rfl, hd, hs⟩ := (hsa k m).mp hm
    obtain ⟨h1, h2⟩ := ((C81_read F _).1 _).mp hk
    rw [hver] at ha
    refine ⟨v.size, o, m, ⟨ha, hl, h1, h2, t, hd, hs, hc⟩, ?_⟩
    rw [hj, hver]
    rfl
  · rintro ⟨size, o, m, ⟨ha, hl, h1, h2, t, hd, hs, hc⟩, rfl⟩
    refine ⟨Sadder.new_raw_ok.mpr ⟨⟨ident, lit "JSON", ⟨1, 0⟩, size⟩, .obj o, m, announces_iff.mpr ⟨ha, rfl⟩, rfl, hl, ?_, ((C81_read F _).1 _).mpr ⟨h1, h2⟩,
      (hsa _ m).mpr ⟨o, t, rfl, hd, hs⟩, hc, rfl⟩, rfl⟩
    exact doc_obj_utf8 ha.2.1 h1

/-- C82. Bytes are read as an event exactly when they are a message of protocol KERI, and the event is the one they denote; other arguments
do not matter. -/
theorem C82_serder (E : Env) (F : Str → Option Str) (H : Hash) (code kind : Option Str) (raw : List UInt8) (ked : Option Value) (sad : Option Sadder) (s : Sadder) :
    Serder.new E F H code (some raw) kind ked sad = .ok s ↔
    ∃ size o m, IsMessage E F H (lit "KERI") (code.getD (lit "E")) raw size o m ∧
      s = { code := code.getD (lit "E"), raw := raw.take size, ked := .obj o, ident := lit "KERI", kind := lit "JSON", size := size, version := ⟨1, 0⟩, saider := m } := by
  rw [Serder.new_ok, sadder_message]
  rfl

/-- C82. The same for credentials and protocol ACDC. -/
theorem C82_creder (E : Env) (F : Str → Option Str) (H : Hash) (code kind : Option Str) (raw : List UInt8) (ked : Option Value) (sad : Option Sadder) (s : Sadder) :
    Creder.new E F H code (some raw) kind ked sad = .ok s ↔
    ∃ size o m, IsMessage E F H (lit "ACDC") (code.getD (lit "E")) raw size o m ∧
      s = { code := code.getD (lit "E"), raw := raw.take size, ked := .obj o, ident := lit "ACDC", kind := lit "JSON", size := size, version := ⟨1, 0⟩, saider := m } := by
  rw [Creder.new_ok, sadder_message]
  rfl

/-- C82. Size, document and SAID are determined by the bytes. -/
theorem C82_determined {E : Env} {F : Str → Option Str} {H : Hash} {ident ident' code code' : Str} {raw : List UInt8} {size size' : Nat}
    {o o' : List (Str × Value)} {m m' : Matter} (h : IsMessage E F H ident code raw size o m) (h' : IsMessage E F H ident' code' raw size' o' m') :
    ident = ident' ∧ code = code' ∧ size = size' ∧ o = o' ∧ m = m' := by
  obtain ⟨ha, hl, hd, hi, t, ht, hm, hc⟩ := h
  obtain ⟨ha', hl', hd', hi', t', ht', hm', hc'⟩ := h'
  have e1 := announces_iff (v := ⟨ident, lit "JSON", ⟨1, 0⟩, size⟩).mpr ⟨ha, rfl⟩
  have e2 := announces_iff (v := ⟨ident', lit "JSON", ⟨1, 0⟩, size'⟩).mpr ⟨ha', rfl⟩
  rw [e1] at e2
  cases e2
  have e3 := C81_unique hd hd'
  cases e3
  rw [ht] at ht'
  cases ht'
  rw [hm] at hm'
  cases hm'
  exact ⟨rfl, hc.symm.trans hc', rfl, rfl, rfl⟩

/-- A message of 99 bytes with more text after it. -/
example : ∃ o m, IsMessage Env.release (fun _ => none) zeroHash (lit "KERI") (lit "E")
    (lit "{\"v\":\"KERI10JSON000063_\",\"t\":\"icp\",\"d\":\"EAAAAAAAAAAAAAAAAAAAAAAAAAAAAAAAAAAAAAAAAAAA\",\"x\":[1,null]}-AAB") 99 o m := by
  obtain ⟨s, h, hr⟩ := sample_serder
  have h1 := C59_serder h (by simp [Plain, PlainFields, PlainElems, lit]) (floatsRead_of_noFloats _ (by decide +kernel)) (by simp [Utf8Value, Utf8Fields, Utf8Elems]; decide +kernel) (by decide +kernel) (by rw [hr]; decide +kernel) (lit "-AAB")
  rw [if_pos (by decide +kernel), hr] at h1
  obtain ⟨size, o, m, hm, he⟩ := (C82_serder _ _ _ _ _ _ _ _ _).mp h1
  rw [he] at hr
  dsimp only at hr
  have hs : size = 99 := by
    have := congrArg List.length hr
    rw [List.length_take, Nat.min_eq_left hm.2.1] at this
    rw [this]
    decide +kernel
  subst hs
  exact ⟨o, m, hm⟩

/-- The text of a float. -/
theorem floatText_of {t sign whole frac exp : Str} (h : t = sign ++ whole ++ frac ++ exp)
    (hs : sign = [] ∨ sign = lit "-") (hw : Digits whole) (hz : whole.head? = some (ch '0') → whole = lit "0")
    (hf : frac = [] ∨ ∃ d, Digits d ∧ frac = ch '.' :: d)
    (he : exp = [] ∨ ∃ e g d, (e = ch 'e' ∨ e = ch 'E') ∧ (g = [] ∨ g = lit "+" ∨ g = lit "-") ∧ Digits d ∧ exp = e :: (g ++ d))
    (hn : frac ≠ [] ∨ exp ≠ []) : FloatText t :=
  ⟨sign, whole, frac, exp, h, ⟨hs, ⟨hw, hz⟩, hf, he⟩, hn⟩

theorem float_one_half : FloatText (lit "-1.5") :=
  floatText_of (sign := lit "-") (whole := lit "1") (frac := lit ".5") (exp := []) (by decide) (.inr rfl) (by unfold Digits; decide) (by decide)
    (.inr ⟨lit "5", by unfold Digits; decide, by decide⟩) (.inl rfl) (.inl (by decide))

theorem float_big : FloatText (lit "1e300") :=
  floatText_of (sign := []) (whole := lit "1") (frac := []) (exp := lit "e300") (by decide) (.inl rfl) (by unfold Digits; decide) (by decide)
    (.inl rfl) (.inr ⟨ch 'e', [], lit "300", .inl rfl, .inl rfl, by unfold Digits; decide, by decide⟩) (.inr (by decide))

/-- Documents with floats: the first is read back, the second panics. -/
example : Plain (.arr [.float (lit "-1.5")]) ∧ FloatsRead some (.arr [.float (lit "-1.5")]) ∧
    Json.fromStr some (lit "[-1.5]") = .ok (.arr [.float (lit "-1.5")]) ∧
    Plain (.arr [.float (lit "1e300")]) ∧ Json.fromStr some (lit "[1e300]") = .panic := by
  have hF : FloatsRead some (.arr [.float (lit "-1.5")]) := by
    rw [floatsRead_arr]
    intro v hv t ht
    simp only [List.mem_singleton] at hv
    subst hv
    cases ht
    exact ⟨rfl, by decide⟩
  have hp : Plain (.arr [.float (lit "-1.5")]) := by simp only [Plain, PlainElems]; exact ⟨float_one_half, trivial⟩
  have hq : Plain (.arr [.float (lit "1e300")]) := by simp only [Plain, PlainElems]; exact ⟨float_big, trivial⟩
  refine ⟨hp, hF, ?_, hq, ?_⟩
  · have := C39_roundtrip some hp hF
    rw [if_pos (by decide +kernel)] at this
    exact this
  · exact C39_defect_float some hq (fun _ _ => rfl) (by decide +kernel) (t := lit "1e300") (.elem (List.mem_singleton.mpr rfl) (.self _)) (by decide)

end Cesride
