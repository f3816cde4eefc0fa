import Verif.Model.JsPlain
import Verif.Spec.JsPlain
import Verif.Lemmas.Text
import Verif.Props.Signer

/-! # C114: numbers and texts handed to the JavaScript bindings -/

namespace Cesride
open Spec Js Json

theorem u16_ofNat {n : Nat} (h : n < 65536) : (UInt16.ofNat n).toNat = n := by simp; omega

theorem isHigh_iff {a : UInt16} : isHigh a = true ↔ 0xD800 ≤ a.toNat ∧ a.toNat < 0xDC00 := by simp [isHigh]
theorem isLow_iff {a : UInt16} : isLow a = true ↔ 0xDC00 ≤ a.toNat ∧ a.toNat < 0xE000 := by simp [isLow]

/-- One character that is no half of a pair. -/
theorem encode_plain {a : UInt16} (h : isHigh a = false) (l : isLow a = false) (r : List UInt16) : encodeText (a :: r) = Json.utf8Encode a.toNat ++ encodeText r := by
  cases r with
  | nil => simp [encodeText, h, l]
  | cons b r => rw [encodeText]; simp [h, l]

/-- A pair. -/
theorem encode_pair {a b : UInt16} (h : isHigh a = true) (l : isLow b = true) (r : List UInt16) :
    encodeText (a :: b :: r) = Json.utf8Encode ((a.toNat - 0xD800) * 1024 + (b.toNat - 0xDC00) + 0x10000) ++ encodeText r := by
  rw [encodeText]; simp [h, l]

/-- A half without its other half. -/
theorem encode_low {a : UInt16} (l : isLow a = true) (r : List UInt16) : encodeText (a :: r) = Json.utf8Encode 0xFFFD ++ encodeText r := by
  have h : isHigh a = false := by
    cases e : isHigh a with
    | false => rfl
    | true => have := isHigh_iff.mp e; have := isLow_iff.mp l; omega
  cases r with
  | nil => simp [encodeText, l]
  | cons b r => rw [encodeText]; simp [h, l]

theorem encode_high {a : UInt16} (h : isHigh a = true) (r : List UInt16) (hr : ∀ b q, r = b :: q → isLow b = false) :
    encodeText (a :: r) = Json.utf8Encode 0xFFFD ++ encodeText r := by
  cases r with
  | nil => simp [encodeText, h]
  | cons b r => rw [encodeText]; simp [h, hr b r rfl]

theorem enc8_eq {m n : Nat} (h : m = n) (r : Str) : Json.utf8Encode m ++ r = Json.utf8Encode n ++ r := by rw [h]
theorem enc16_eq {m n : Nat} (h : m = n) (r : List UInt16) : utf16Encode m ++ r = utf16Encode n ++ r := by rw [h]

theorem encode_char (c : Char) (r : List UInt16) : encodeText (utf16 c ++ r) = String.utf8EncodeChar c ++ encodeText r := by
  have hc := char_range c
  rw [← utf8Encode_char]
  unfold utf16
  split
  · rename_i h
    have e := u16_ofNat h
    have h1 : isHigh (UInt16.ofNat c.toNat) = false := by
      rw [Bool.eq_false_iff]; intro k; have := isHigh_iff.mp k; omega
    have h2 : isLow (UInt16.ofNat c.toNat) = false := by
      rw [Bool.eq_false_iff]; intro k; have := isLow_iff.mp k; omega
    show encodeText (_ :: r) = _
    rw [encode_plain h1 h2, e]
  · rename_i h
    have e1 := u16_ofNat (n := 0xD800 + (c.toNat - 0x10000) / 1024) (by omega)
    have e2 := u16_ofNat (n := 0xDC00 + (c.toNat - 0x10000) % 1024) (by omega)
    show encodeText (_ :: _ :: r) = _
    rw [encode_pair (isHigh_iff.mpr (by omega)) (isLow_iff.mpr (by omega)), e1, e2]
    exact enc8_eq (by omega) _

theorem utf16Encode_char (c : Char) : utf16Encode c.toNat = utf16 c := rfl

theorem decode_char (c : Char) (r : Str) : decodeText (String.utf8EncodeChar c ++ r) = utf16 c ++ decodeText r := by
  have hc := char_range c
  rw [← utf8Encode_char, ← utf16Encode_char]
  unfold Json.utf8Encode
  split
  · rename_i h
    show decodeText (_ :: r) = _
    rw [decodeText.eq_def]
    dsimp only
    rw [u8_toNat_ofNat (by omega), if_pos h]
  rename_i h1
  split
  · rename_i h
    show decodeText (_ :: _ :: r) = _
    rw [decodeText.eq_def]
    dsimp only
    rw [u8_toNat_ofNat (by omega), u8_toNat_ofNat (by omega), if_neg (by omega), if_pos (by omega)]
    exact enc16_eq (by omega) _
  rename_i h2
  split
  · rename_i h
    show decodeText (_ :: _ :: _ :: r) = _
    rw [decodeText.eq_def]
    dsimp only
    rw [u8_toNat_ofNat (by omega), u8_toNat_ofNat (by omega), u8_toNat_ofNat (by omega), if_neg (by omega), if_neg (by omega), if_pos (by omega)]
    exact enc16_eq (by omega) _
  · rename_i h
    show decodeText (_ :: _ :: _ :: _ :: r) = _
    rw [decodeText.eq_def]
    dsimp only
    rw [u8_toNat_ofNat (by omega), u8_toNat_ofNat (by omega), u8_toNat_ofNat (by omega), u8_toNat_ofNat (by omega), if_neg (by omega), if_neg (by omega),
      if_neg (by omega)]
    exact enc16_eq (by omega) _

/-- C114, texts in: the library gets the characters of the JavaScript text. -/
theorem C114_text_in (cs : List Char) : encodeText (jsText cs) = rustText cs := by
  induction cs with
  | nil => rfl
  | cons c cs ih =>
    show encodeText (utf16 c ++ jsText cs) = String.utf8EncodeChar c ++ rustText cs
    rw [encode_char, ih]

/-- C114, texts out: JavaScript gets the characters of the text of the library. -/
theorem C114_text_out (cs : List Char) : decodeText (rustText cs) = jsText cs := by
  induction cs with
  | nil => rfl
  | cons c cs ih =>
    show decodeText (String.utf8EncodeChar c ++ rustText cs) = utf16 c ++ jsText cs
    rw [decode_char, ih]

theorem jsText_cons (c : Char) (cs : List Char) : jsText (c :: cs) = utf16 c ++ jsText cs := rfl
theorem rustText_cons (c : Char) (cs : List Char) : rustText (c :: cs) = String.utf8EncodeChar c ++ rustText cs := rfl

theorem utf16_low (c : Char) (h : c.toNat < 0x10000) : utf16 c = [UInt16.ofNat c.toNat] := by unfold utf16; rw [if_pos h]

/-- Whether a position is a lone half does not depend on what stands before, as long as that is complete. -/
theorem lone_step {p u : List UInt16} (hp : p ≠ []) (h : ∀ a b q, p.getLast? = some a → u = b :: q → ¬ (isHigh a = true ∧ isLow b = true)) (i : Nat) :
    Lone (p ++ u) (p.length + i) ↔ Lone u i := by
  have hpos := List.length_pos_iff.mpr hp
  have e1 : (p ++ u)[p.length + i]? = u[i]? := by rw [List.getElem?_append_right (by omega)]; congr 1; omega
  have e2 : (p ++ u)[p.length + i + 1]? = u[i + 1]? := by rw [List.getElem?_append_right (by omega)]; congr 1; omega
  unfold Lone
  rw [e1, e2]
  refine exists_congr fun a => and_congr_right fun ha => or_congr Iff.rfl ?_
  refine and_congr_right fun l1 => and_congr_right fun l2 => not_congr ?_
  cases i with
  | zero =>
    cases u with
    | nil => simp at ha
    | cons x q =>
      obtain rfl : x = a := by simpa using ha
      constructor
      · rintro ⟨b, _, hb, hh⟩
        rw [List.getElem?_append_left (by omega)] at hb
        refine absurd ⟨isHigh_iff.mpr hh, isLow_iff.mpr ⟨l1, l2⟩⟩ (h b x q ?_ rfl)
        rw [List.getLast?_eq_getElem?]
        simpa using hb
      · rintro ⟨b, h0, _⟩
        omega
  | succ i =>
    have e3 : (p ++ u)[p.length + (i + 1) - 1]? = u[i + 1 - 1]? := by rw [List.getElem?_append_right (by omega)]; congr 1; omega
    rw [e3]
    constructor
    · rintro ⟨b, _, hb⟩
      exact ⟨b, by omega, hb⟩
    · rintro ⟨b, _, hb⟩
      exact ⟨b, by omega, hb⟩

/-- C114, what the library gets: a text whose characters are those of the JavaScript text, with U+FFFD in the place of every half of a pair that stands alone. -/
theorem C114_mended (u : List UInt16) : ∃ cs : List Char, encodeText u = rustText cs ∧ (jsText cs).length = u.length ∧
    ∀ i, (Lone u i → (jsText cs)[i]? = some 0xFFFD) ∧ (¬ Lone u i → (jsText cs)[i]? = u[i]?) := by
  generalize hn : u.length = n
  induction n using Nat.strongRecOn generalizing u with
  | _ n ih =>
    -- one step: a head `p` is written as the character `c`
    have step : ∀ (p r : List UInt16) (c : Char), u = p ++ r → p ≠ [] → encodeText u = String.utf8EncodeChar c ++ encodeText r → (utf16 c).length = p.length →
        (∀ i, i < p.length → (Lone u i → (utf16 c)[i]? = some 0xFFFD) ∧ (¬ Lone u i → (utf16 c)[i]? = p[i]?)) →
        (∀ a b q, p.getLast? = some a → r = b :: q → ¬ (isHigh a = true ∧ isLow b = true)) →
        ∃ cs : List Char, encodeText u = rustText cs ∧ (jsText cs).length = n ∧
          ∀ i, (Lone u i → (jsText cs)[i]? = some 0xFFFD) ∧ (¬ Lone u i → (jsText cs)[i]? = u[i]?) := by
      intro p r c hu hp he hl h0 hb
      have hpos := List.length_pos_iff.mpr hp
      have hlen : u.length = p.length + r.length := by rw [hu, List.length_append]
      obtain ⟨cs, h1, h2, h3⟩ := ih r.length (by omega) r rfl
      refine ⟨c :: cs, by rw [he, h1, rustText_cons], by rw [jsText_cons, List.length_append, hl, h2]; omega, fun i => ?_⟩
      rw [jsText_cons]
      by_cases hi : i < p.length
      · rw [List.getElem?_append_left (by omega)]
        refine ⟨(h0 i hi).1, fun k => ?_⟩
        rw [(h0 i hi).2 k, hu, List.getElem?_append_left hi]
      · have ei : i = p.length + (i - p.length) := by omega
        rw [List.getElem?_append_right (by omega), hl]
        have := lone_step hp hb (i - p.length)
        rw [← hu, ← ei] at this
        rw [this]
        refine ⟨(h3 _).1, fun k => ?_⟩
        rw [(h3 _).2 k, hu, List.getElem?_append_right (by omega)]
    have repl : ∃ c : Char, c.toNat = 0xFFFD ∧ utf16 c = [0xFFFD] := by
      obtain ⟨c, hc⟩ := exists_char (n := 0xFFFD) (by omega)
      exact ⟨c, hc, by rw [utf16_low c (by omega), hc]; rfl⟩
    obtain ⟨x, hx, hxu⟩ := repl
    cases u with
    | nil =>
      refine ⟨[], rfl, hn, fun i => ⟨?_, fun _ => rfl⟩⟩
      rintro ⟨a, ha, _⟩
      simp at ha
    | cons a r =>
      cases hh : isHigh a with
      | true =>
        have ha := isHigh_iff.mp hh
        by_cases hr : ∃ b q, r = b :: q ∧ isLow b = true
        · obtain ⟨b, q, rfl, hb⟩ := hr
          have hb' := isLow_iff.mp hb
          obtain ⟨c, hc⟩ := exists_char (n := (a.toNat - 0xD800) * 1024 + (b.toNat - 0xDC00) + 0x10000) (by omega)
          have hcu : utf16 c = [a, b] := by
            unfold utf16
            rw [if_neg (by omega), hc]
            have e1 : 0xD800 + ((a.toNat - 0xD800) * 1024 + (b.toNat - 0xDC00) + 0x10000 - 0x10000) / 1024 = a.toNat := by omega
            have e2 : 0xDC00 + ((a.toNat - 0xD800) * 1024 + (b.toNat - 0xDC00) + 0x10000 - 0x10000) % 1024 = b.toNat := by omega
            rw [e1, e2]; simp
          refine step [a, b] q c rfl (by simp) (by rw [encode_pair hh hb, ← hc, utf8Encode_char]) (by rw [hcu]) ?_ ?_
          · intro i hi
            rw [hcu]
            refine ⟨fun k => ?_, fun _ => rfl⟩
            exfalso
            obtain ⟨y, hy, k⟩ := k
            have : i = 0 ∨ i = 1 := by simp at hi; omega
            rcases this with rfl | rfl
            · obtain rfl : a = y := by simpa using hy
              rcases k with ⟨_, _, k⟩ | ⟨_, _, k⟩
              · exact k ⟨b, by simp, hb'⟩
              · omega
            · obtain rfl : b = y := by simpa using hy
              rcases k with ⟨_, _, k⟩ | ⟨_, _, k⟩
              · omega
              · exact k ⟨a, by omega, by simp, ha⟩
          · intro y z _ hy _ hn
            obtain rfl : b = y := by simpa using hy
            have := isHigh_iff.mp hn.1
            omega
        · have hr' : ∀ b q, r = b :: q → isLow b = false := by
            intro b q e
            cases hl : isLow b with
            | false => rfl
            | true => exact absurd ⟨b, q, e, hl⟩ hr
          refine step [a] r x rfl (by simp) (by rw [encode_high hh r hr', ← hx, utf8Encode_char]) (by rw [hxu]; rfl) ?_ ?_
          · intro i hi
            obtain rfl : i = 0 := by simpa using hi
            rw [hxu]
            refine ⟨fun _ => rfl, fun k => absurd ⟨a, by simp, .inl ⟨ha.1, ha.2, ?_⟩⟩ k⟩
            rintro ⟨b, hb, hl⟩
            cases r with
            | nil => simp at hb
            | cons z q =>
              obtain rfl : z = b := by simpa using hb
              have := hr' z q rfl
              rw [isLow_iff.mpr hl] at this
              cases this
          · intro y z q _ e hn
            rw [hr' z q e] at hn
            exact Bool.noConfusion hn.2
      | false =>
        have hlast : ∀ y z q, [a].getLast? = some y → r = z :: q → ¬ (isHigh y = true ∧ isLow z = true) := by
          intro y z q hy _ hn
          obtain rfl : a = y := by simpa using hy
          rw [hh] at hn
          exact Bool.noConfusion hn.1
        cases hl : isLow a with
        | true =>
          have ha := isLow_iff.mp hl
          refine step [a] r x rfl (by simp) (by rw [encode_low hl, ← hx, utf8Encode_char]) (by rw [hxu]; rfl) ?_ hlast
          intro i hi
          obtain rfl : i = 0 := by simpa using hi
          rw [hxu]
          refine ⟨fun _ => rfl, fun k => absurd ⟨a, by simp, .inr ⟨ha.1, ha.2, ?_⟩⟩ k⟩
          rintro ⟨_, h0, _⟩
          omega
        | false =>
          have n1 : ¬ (0xD800 ≤ a.toNat ∧ a.toNat < 0xDC00) := fun k => by rw [isHigh_iff.mpr k] at hh; cases hh
          have n2 : ¬ (0xDC00 ≤ a.toNat ∧ a.toNat < 0xE000) := fun k => by rw [isLow_iff.mpr k] at hl; cases hl
          have lt := a.toNat_lt
          obtain ⟨c, hc⟩ := exists_char (n := a.toNat) (by omega)
          have hcu : utf16 c = [a] := by rw [utf16_low c (by omega), hc]; simp
          refine step [a] r c rfl (by simp) (by rw [encode_plain hh hl, ← hc, utf8Encode_char]) (by rw [hcu]) ?_ hlast
          intro i hi
          obtain rfl : i = 0 := by simpa using hi
          rw [hcu]
          refine ⟨fun k => ?_, fun _ => rfl⟩
          exfalso
          obtain ⟨y, hy, k⟩ := k
          obtain rfl : a = y := by simpa using hy
          rcases k with ⟨k1, k2, _⟩ | ⟨k1, k2, _⟩
          · exact n1 ⟨k1, k2⟩
          · exact n2 ⟨k1, k2⟩

/-- C114: the texts that are complete are those of characters. -/
theorem C114_complete (u : List UInt16) : (∃ cs, u = jsText cs) ↔ ∀ i, ¬ Lone u i := by
  obtain ⟨ds, h1, h2, h3⟩ := C114_mended u
  constructor
  · rintro ⟨cs, rfl⟩ i k
    rw [C114_text_in] at h1
    have e : jsText cs = jsText ds := by rw [← C114_text_out, h1, C114_text_out]
    have := (h3 i).1 k
    rw [← e] at this
    obtain ⟨a, ha, hs⟩ := k
    rw [this] at ha
    obtain rfl := (Option.some.inj ha)
    rcases hs with ⟨_, hs, _⟩ | ⟨_, hs, _⟩ <;> exact absurd hs (by decide)
  · intro h
    refine ⟨ds, List.ext_getElem? fun i => ((h3 i).2 (h i)).symm⟩

/-- C114: the library always gets a valid text. -/
theorem C114_valid (u : List UInt16) : utf8Valid (encodeText u) = true := by
  obtain ⟨cs, h, _⟩ := C114_mended u
  exact (utf8Valid_iff_chars _).mpr ⟨cs, h⟩

/-- C114: a text handed over comes back unchanged exactly if no half of a pair stands alone in it. -/
theorem C114_back (u : List UInt16) : valueText u = u ↔ ∀ i, ¬ Lone u i := by
  obtain ⟨cs, h, _⟩ := C114_mended u
  have e : valueText u = jsText cs := by unfold valueText; rw [h, C114_text_out]
  rw [← C114_complete, e]
  constructor
  · exact fun k => ⟨cs, k.symm⟩
  · rintro ⟨ds, rfl⟩
    rw [C114_text_in] at h
    rw [← C114_text_out, ← h, C114_text_out]

/-- C114: different texts are different for the library, if no half of a pair stands alone. -/
theorem C114_distinct {u v : List UInt16} (hu : ∀ i, ¬ Lone u i) (hv : ∀ i, ¬ Lone v i) (h : encodeText u = encodeText v) : u = v := by
  rw [← (C114_back u).mpr hu, ← (C114_back v).mpr hv, valueText, valueText, h]

/-- C114, the defect with texts: a text with a lone half is silently taken for another one. -/
theorem C114_lone_defect {u : List UInt16} {i : Nat} (h : Lone u i) : ∃ v, v ≠ u ∧ v.length = u.length ∧ v[i]? = some 0xFFFD ∧ encodeText v = encodeText u := by
  obtain ⟨cs, h1, h2, h3⟩ := C114_mended u
  refine ⟨jsText cs, fun e => ?_, h2, (h3 i).1 h, by rw [C114_text_in, h1]⟩
  exact (C114_complete u).mp ⟨cs, e.symm⟩ i h

/-- A pair of halves, a lone half, a plain letter. -/
example : encodeText [0xD83D, 0xDE00, 0xDE00, 0x61] = [0xF0, 0x9F, 0x98, 0x80, 0xEF, 0xBF, 0xBD, 0x61] := by decide +kernel
example : Lone [0xD83D, 0xDE00, 0xDE00, 0x61] 2 := ⟨0xDE00, rfl, .inr ⟨by decide, by decide, by rintro ⟨b, _, e, h⟩; obtain rfl := Option.some.inj e; revert h; decide⟩⟩

theorem truncate_spec (q : Rat) : IntegerPart q (truncate q) := by
  unfold truncate IntegerPart
  constructor
  · intro h
    rw [if_pos h]
    exact ⟨Rat.floor_le q, Rat.lt_floor_add_one q⟩
  · intro h
    rw [if_neg (Rat.not_le.mpr h)]
    have h1 := Rat.floor_le (-q)
    have h2 := Rat.lt_floor_add_one (-q)
    simp only [Rat.intCast_neg, Rat.intCast_sub, Rat.intCast_add] at *
    constructor <;> grind

theorem integerPart_unique {q : Rat} {y z : Int} (hy : IntegerPart q y) (hz : IntegerPart q z) : y = z := by
  by_cases h : 0 ≤ q
  · have a := hy.1 h
    have b := hz.1 h
    have h1 : y < z + 1 := Rat.intCast_lt_intCast.mp (Std.lt_of_le_of_lt a.1 b.2)
    have h2 : z < y + 1 := Rat.intCast_lt_intCast.mp (Std.lt_of_le_of_lt b.1 a.2)
    omega
  · have h := Rat.not_le.mp h
    have a := hy.2 h
    have b := hz.2 h
    have h1 : y - 1 < z := Rat.intCast_lt_intCast.mp (Std.lt_of_lt_of_le a.2 b.1)
    have h2 : z - 1 < y := Rat.intCast_lt_intCast.mp (Std.lt_of_lt_of_le b.2 a.1)
    omega

/-- C114, numbers: a finite number reaches the library as its integer part, modulo 2^32. -/
theorem C114_number (q : Rat) (n : Nat) : toUint32 (.finite q) = n ↔ n < 2 ^ 32 ∧ ∃ z k : Int, IntegerPart q z ∧ z = n + k * 2 ^ 32 := by
  show (truncate q % 2 ^ 32).toNat = n ↔ _
  constructor
  · intro h
    refine ⟨by omega, truncate q, truncate q / 2 ^ 32, truncate_spec q, by omega⟩
  · rintro ⟨hn, z, k, hz, e⟩
    rw [integerPart_unique (truncate_spec q) hz, e]
    omega

theorem integerPart_int (z : Int) : IntegerPart (z : Rat) z := by
  constructor
  · exact fun _ => ⟨Rat.le_refl, Rat.intCast_lt_intCast.mpr (by omega)⟩
  · exact fun _ => ⟨Rat.le_refl, Rat.intCast_lt_intCast.mpr (by omega)⟩

/-- A whole number. -/
def Js.Num.int (z : Int) : Js.Num := .finite (z : Rat)

theorem toUint32_int (z : Int) : (toUint32 (.int z) : Int) = z % 2 ^ 32 := by
  obtain ⟨h, y, k, hy, e⟩ := (C114_number (z : Rat) _).mp rfl
  rw [integerPart_unique hy (integerPart_int z)] at e
  unfold Num.int
  omega

theorem toUint32_nat {n : Nat} (h : n < 2 ^ 32) : toUint32 (.int n) = n := by
  have := toUint32_int n
  omega

/-- The numbers that reach the library as they are. -/
def Js.nums (l : List Nat) : List Js.Num := l.map fun n => Js.Num.int n

theorem map_nums {l : List Nat} (h : ∀ n ∈ l, n < 2 ^ 32) : (nums l).map toUint32 = l := by
  induction l with
  | nil => rfl
  | cons a l ih =>
    show toUint32 (.int a) :: (nums l).map toUint32 = _
    rw [toUint32_nat (h a (by simp)), ih fun n hn => h n (by simp [hn])]

theorem map_num? {o : Option Nat} (h : ∀ n ∈ o, n < 2 ^ 32) : (o.map fun n => toUint32 (.int n)) = o := by
  cases o with
  | none => rfl
  | some n => exact congrArg some (toUint32_nat (h n rfl))

/-- C114, numbers: with whole numbers below 2^32 every binding does what the library does with them. -/
theorem C114_whole (E : Env) (C : Crypto) {i n : Nat} {j o : Option Nat} (hi : i < 2 ^ 32) (hj : ∀ n ∈ j, n < 2 ^ 32) (ho : ∀ n ∈ o, n < 2 ^ 32) {l : List Nat}
    (hl : ∀ n ∈ l, n < 2 ^ 32) (s : Signer) (t : Tholder) (a : Salter) (ser raw : List UInt8) (only : Bool) (verfer : Option Matter) (code path tier : Option Str)
    (tr temp : Option Bool) (x : Wasm.Signers) :
    Js.signIndexed E C s ser only (.int i) (o.map fun n => .int n) n = Signer.signIndexed E C s ser only i o n ∧
    Js.sigerOfRaw E raw verfer (j.map fun n => .int n) (o.map fun n => .int n) code = Siger.newWithRaw E raw verfer j o code ∧
    (∀ raw qb64b qb64 qb2, Js.sigerOf E verfer (j.map fun n => .int n) (o.map fun n => .int n) code raw qb64b qb64 qb2 = Siger.new E verfer j o code raw qb64b qb64 qb2) ∧
    Js.satisfy E t (nums l) = Tholder.satisfy E t l ∧
    Js.stretch C a (j.map fun n => .int n) path tier temp = Salter.stretch C a j path tier temp ∧
    Js.signers E C a (j.map fun n => .int n) (o.map fun n => .int n) path code tr tier temp = (do let l ← Salter.signers E C a j o path code tr tier temp; .ok ⟨l⟩) ∧
    Js.signersGet x (.int i) = x.list[i]? := by
  have ej := map_num? hj
  have eo := map_num? ho
  unfold Js.signIndexed Js.sigerOfRaw Js.sigerOf Js.satisfy Js.stretch Js.signers Js.signersGet
  rw [toUint32_nat hi, map_nums hl]
  simp only [Option.map_map, Function.comp_def, ej, eo, Wasm.salterSigners, Wasm.Signers.get, true_and, implies_true]
  split
  · rfl
  · rename_i h
    rw [List.getElem?_eq_none (by omega)]

/-- C114, the defect with numbers: no number is refused. One that is 2^32 too large, or negative by as much, counts as the position, or as the amount, that is left. -/
theorem C114_wrapped_defect (E : Env) (C : Crypto) (z k : Int) (s : Signer) (t : Tholder) (a : Salter) (ser : List UInt8) (only : Bool) (path tier : Option Str) (temp : Option Bool)
    (x : Wasm.Signers) (r : Nat) :
    Js.signIndexed E C s ser only (.int (z + k * 2 ^ 32)) none r = Js.signIndexed E C s ser only (.int z) none r ∧
    (∀ l m, Js.satisfy E t (l ++ .int (z + k * 2 ^ 32) :: m) = Js.satisfy E t (l ++ .int z :: m)) ∧
    Js.stretch C a (some (.int (z + k * 2 ^ 32))) path tier temp = Js.stretch C a (some (.int z)) path tier temp ∧
    Js.signersGet x (.int (z + k * 2 ^ 32)) = Js.signersGet x (.int z) ∧
    Js.satisfy E t [.notFinite] = Tholder.satisfy E t [0] := by
  have e : toUint32 (.int (z + k * 2 ^ 32)) = toUint32 (.int z) := by
    have h1 := toUint32_int (z + k * 2 ^ 32)
    have h2 := toUint32_int z
    omega
  unfold Js.signIndexed Js.satisfy Js.stretch Js.signersGet
  refine ⟨by rw [e], fun l m => by simp only [List.map_append, List.map_cons, e], by simp only [Option.map_some, e], by rw [e], rfl⟩

example : toUint32 (.int (-1)) = 4294967295 ∧ toUint32 (.finite (7 / 2)) = 3 ∧ toUint32 (.finite (-7 / 2)) = 4294967293 ∧ toUint32 (.int 4294967299) = 3 := by decide +kernel

/-- C114: a signature made with any number for the position is one for the position that is left of it: it says so and verifies. -/
theorem C114_sign (E : Env) (C : Crypto) {r₀ : Nat} {t : Option Bool} {code : Option Str} {raw qb64b : Option (List UInt8)} {qb64 : Option Str}
    {qb2 : Option (List UInt8)} {s : Signer} (h : Signer.new E C r₀ t code raw qb64b qb64 qb2 = .ok s) (ser : List UInt8) (only : Bool) (q : Rat) (ondex : Option Num) (r : Nat)
    {sig : Siger} (hs : Js.signIndexed E C s ser only (.finite q) ondex r = .ok sig) :
    (∃ z k : Int, IntegerPart q z ∧ z = sig.indexer.index + k * 2 ^ 32) ∧ Verfer.verify C s.verfer sig.indexer.raw ser = .ok true := by
  refine ⟨?_, (C53_indexed_verifies E C h ser r hs).2.1⟩
  have : sig.indexer.index = toUint32 (.finite q) := by
    obtain ⟨c, ok, _⟩ := Signer.new_ok h
    obtain ⟨S, hS, hc⟩ : ∃ S ∈ Spec.schemes, s.matter.code = S.seed := ⟨schemeOf c, schemeOf_mem c, ok.code⟩
    · obtain ⟨h1, h2⟩ := C52_signing_code E C h hS hc ser only (toUint32 (.finite q)) (ondex.map toUint32) r
      by_cases hk : ∃ k ∈ Spec.idxCodes, k.code ∈ S.indexed ∧ Spec.Carries k only (toUint32 (.finite q)) ((ondex.map toUint32).getD (toUint32 (.finite q)))
      · obtain ⟨_, x, _, _, _, _, e, _, hx, _⟩ := h1 hk
        rw [← Res.ok.inj (e.symm.trans hs)]
        exact hx
      · have := h2 hk
        rw [Js.signIndexed, this] at hs
        cases hs
  rw [this]
  exact ((C114_number q _).mp rfl).2

/-- The hypotheses are met: a signer that signs with the number 2^32 + 1/2. -/
example : (match Signer.new Env.wasm toy 0 none none none none none none with
    | .ok s => (match Js.signIndexed Env.wasm toy s [1, 2] false (.finite (4294967296 + 1 / 2)) none 0 with
      | .ok sig => decide (sig.indexer.index = 0)
      | _ => false)
    | _ => false) = true := by decide +kernel

end Cesride
