import Verif.Lemmas.Utf8
import Verif.Lemmas.JsonRead
import Verif.Spec.Text

/-! # Which bytes are text, and where text can be cut -/

namespace Cesride

open Spec Json

theorem textBytes_append (x y : String) : textBytes (x ++ y) = textBytes x ++ textBytes y := by
  simp [textBytes]

theorem u8_toNat_ofNat {n : Nat} (h : n < 256) : (UInt8.ofNat n).toNat = n := by simp; omega

theorem isCont_iff (b : UInt8) : isCont b = true ↔ 128 ≤ b.toNat ∧ b.toNat ≤ 191 := by
  unfold isCont
  simp
  omega

theorem utf8_two {a b : UInt8} {x : Str} (ha : 0xC2 ≤ a.toNat ∧ a.toNat ≤ 0xDF) : utf8Valid (a :: b :: x) = (isCont b && utf8Valid x) := by
  conv => lhs; unfold utf8Valid
  rw [if_neg (by rw [UInt8.lt_iff_toNat_lt]; simp; omega), if_pos (by
    simp only [Bool.and_eq_true, decide_eq_true_eq, UInt8.le_iff_toNat_le]; simpa using ha)]

theorem utf8_three {a b c : UInt8} {x : Str} (ha : 0xE0 ≤ a.toNat ∧ a.toNat ≤ 0xEF) :
    utf8Valid (a :: b :: c :: x) = ((isCont b && decide ((a.toNat = 0xE0 → 0xA0 ≤ b.toNat) ∧ (a.toNat = 0xED → b.toNat ≤ 0x9F))) && isCont c && utf8Valid x) := by
  conv => lhs; unfold utf8Valid
  rw [if_neg (by rw [UInt8.lt_iff_toNat_lt]; simp; omega), if_neg (by
    simp only [Bool.and_eq_true, decide_eq_true_eq, UInt8.le_iff_toNat_le]; simp; omega), if_pos (by
    simp only [Bool.and_eq_true, decide_eq_true_eq, UInt8.le_iff_toNat_le]; simpa using ha)]
  dsimp only
  congr 2
  rw [Bool.eq_iff_iff]
  simp only [Bool.and_eq_true, decide_eq_true_eq, isCont_iff]
  by_cases h1 : a = 0xE0
  · subst h1; simp [UInt8.le_iff_toNat_le]; omega
  · rw [if_neg h1]
    have h1' : a.toNat ≠ 0xE0 := fun e => h1 (UInt8.toNat_inj.mp e)
    by_cases h2 : a = 0xED
    · subst h2; simp [UInt8.le_iff_toNat_le]; omega
    · rw [if_neg h2]
      have h2' : a.toNat ≠ 0xED := fun e => h2 (UInt8.toNat_inj.mp e)
      simp [h1', h2', isCont_iff]

theorem utf8_four {a b c d : UInt8} {x : Str} (ha : 0xF0 ≤ a.toNat ∧ a.toNat ≤ 0xF4) :
    utf8Valid (a :: b :: c :: d :: x) =
      ((isCont b && decide ((a.toNat = 0xF0 → 0x90 ≤ b.toNat) ∧ (a.toNat = 0xF4 → b.toNat ≤ 0x8F))) && isCont c && isCont d && utf8Valid x) := by
  conv => lhs; unfold utf8Valid
  rw [if_neg (by rw [UInt8.lt_iff_toNat_lt]; simp; omega), if_neg (by
    simp only [Bool.and_eq_true, decide_eq_true_eq, UInt8.le_iff_toNat_le]; simp; omega), if_neg (by
    simp only [Bool.and_eq_true, decide_eq_true_eq, UInt8.le_iff_toNat_le]; simp; omega), if_pos (by
    simp only [Bool.and_eq_true, decide_eq_true_eq, UInt8.le_iff_toNat_le]; simpa using ha)]
  dsimp only
  congr 3
  rw [Bool.eq_iff_iff]
  simp only [Bool.and_eq_true, decide_eq_true_eq, isCont_iff]
  by_cases h1 : a = 0xF0
  · subst h1; simp [UInt8.le_iff_toNat_le]; omega
  · rw [if_neg h1]
    have h1' : a.toNat ≠ 0xF0 := fun e => h1 (UInt8.toNat_inj.mp e)
    by_cases h2 : a = 0xF4
    · subst h2; simp [UInt8.le_iff_toNat_le]; omega
    · rw [if_neg h2]
      have h2' : a.toNat ≠ 0xF4 := fun e => h2 (UInt8.toNat_inj.mp e)
      simp [h1', h2', isCont_iff]

theorem utf8Valid_encode {n : Nat} (h : n < 0xD800 ∨ (0xDFFF < n ∧ n < 0x110000)) (x : Str) : utf8Valid (Json.utf8Encode n ++ x) = utf8Valid x := by
  have cont : ∀ m, isCont (UInt8.ofNat (0x80 + m % 64)) = true := by
    intro m
    rw [isCont_iff, u8_toNat_ofNat (by omega)]
    omega
  unfold Json.utf8Encode
  split
  · rename_i h1
    exact utf8_cons (by rw [UInt8.lt_iff_toNat_lt, u8_toNat_ofNat (by omega)]; exact h1) x
  rename_i h1
  split
  · rename_i h2
    show utf8Valid (_ :: _ :: x) = _
    rw [utf8_two (by rw [u8_toNat_ofNat (by omega)]; omega), cont, Bool.true_and]
  rename_i h2
  split
  · rename_i h3
    show utf8Valid (_ :: _ :: _ :: x) = _
    rw [utf8_three (by rw [u8_toNat_ofNat (by omega)]; omega), cont, cont, decide_eq_true]
    · simp
    · rw [u8_toNat_ofNat (by omega), u8_toNat_ofNat (by omega)]; omega
  · rename_i h3
    show utf8Valid (_ :: _ :: _ :: _ :: x) = _
    rw [utf8_four (by rw [u8_toNat_ofNat (by omega)]; omega), cont, cont, cont, decide_eq_true]
    · simp
    · rw [u8_toNat_ofNat (by omega), u8_toNat_ofNat (by omega)]; omega

theorem encode_of {p : Str} {n : Nat} (h : n < 0xD800 ∨ (0xDFFF < n ∧ n < 0x110000)) (e : p = Json.utf8Encode n) : ∃ c : Char, p = String.utf8EncodeChar c := by
  obtain ⟨c, rfl⟩ := exists_char h
  exact ⟨c, by rw [e, utf8Encode_char]⟩

theorem u8_eq {a : UInt8} {n : Nat} (h : a.toNat = n) : a = UInt8.ofNat n := by rw [← h]; simp

/-- The first character of a valid text. -/
theorem utf8_firstChar {a : UInt8} {r : Str} (h : utf8Valid (a :: r) = true) : ∃ (c : Char) (q : Str), a :: r = String.utf8EncodeChar c ++ q ∧ utf8Valid q = true := by
  by_cases h1 : a < 0x80
  · rw [utf8_cons h1] at h
    obtain ⟨c, hc⟩ := encode_of (p := [a]) (n := a.toNat) (by have := UInt8.lt_iff_toNat_lt.mp h1; simp at this; omega) (by
      have := UInt8.lt_iff_toNat_lt.mp h1
      unfold Json.utf8Encode
      rw [if_pos (by simpa using this)]; simp)
    exact ⟨c, r, by rw [← hc]; rfl, h⟩
  have h1' : 0x80 ≤ a.toNat := by rw [UInt8.lt_iff_toNat_lt] at h1; simp at h1; omega
  by_cases h2 : 0xC2 ≤ a.toNat ∧ a.toNat ≤ 0xDF
  · match r, h with
    | b :: r, h =>
      rw [utf8_two h2, Bool.and_eq_true, isCont_iff] at h
      obtain ⟨c, hc⟩ := encode_of (p := [a, b]) (n := (a.toNat - 192) * 64 + (b.toNat - 128)) (by omega) (by
        unfold Json.utf8Encode
        rw [if_neg (by omega), if_pos (by omega)]
        rw [← u8_eq (a := a) (by omega), ← u8_eq (a := b) (by omega)])
      exact ⟨c, r, by rw [← hc]; rfl, h.2⟩
    | [], h =>
      unfold utf8Valid at h
      rw [if_neg h1] at h
      split at h
      · cases h
      · rename_i hn
        exact absurd (by simp only [Bool.and_eq_true, decide_eq_true_eq, UInt8.le_iff_toNat_le]; simpa using h2) hn
  by_cases h3 : 0xE0 ≤ a.toNat ∧ a.toNat ≤ 0xEF
  · match r, h with
    | b :: c :: r, h =>
      rw [utf8_three h3] at h
      simp only [Bool.and_eq_true, isCont_iff, decide_eq_true_eq] at h
      obtain ⟨⟨⟨hb, hr⟩, hc'⟩, hq⟩ := h
      obtain ⟨k, hk⟩ := encode_of (p := [a, b, c]) (n := (a.toNat - 224) * 4096 + (b.toNat - 128) * 64 + (c.toNat - 128)) (by omega) (by
        unfold Json.utf8Encode
        rw [if_neg (by omega), if_neg (by omega), if_pos (by omega)]
        rw [← u8_eq (a := a) (by omega), ← u8_eq (a := b) (by omega), ← u8_eq (a := c) (by omega)])
      exact ⟨k, r, by rw [← hk]; rfl, hq⟩
    | [], h | [_], h =>
      unfold utf8Valid at h
      rw [if_neg h1, if_neg (by simp only [Bool.and_eq_true, decide_eq_true_eq, UInt8.le_iff_toNat_le]; simp; omega),
        if_pos (by simp only [Bool.and_eq_true, decide_eq_true_eq, UInt8.le_iff_toNat_le]; simpa using h3)] at h
      cases h
  by_cases h4 : 0xF0 ≤ a.toNat ∧ a.toNat ≤ 0xF4
  · match r, h with
    | b :: c :: d :: r, h =>
      rw [utf8_four h4] at h
      simp only [Bool.and_eq_true, isCont_iff, decide_eq_true_eq] at h
      obtain ⟨⟨⟨⟨hb, hr⟩, hc'⟩, hd⟩, hq⟩ := h
      obtain ⟨k, hk⟩ := encode_of (p := [a, b, c, d]) (n := (a.toNat - 240) * 262144 + (b.toNat - 128) * 4096 + (c.toNat - 128) * 64 + (d.toNat - 128)) (by omega) (by
        unfold Json.utf8Encode
        rw [if_neg (by omega), if_neg (by omega), if_neg (by omega)]
        rw [← u8_eq (a := a) (by omega), ← u8_eq (a := b) (by omega), ← u8_eq (a := c) (by omega), ← u8_eq (a := d) (by omega)])
      exact ⟨k, r, by rw [← hk]; rfl, hq⟩
    | [], h | [_], h | [_, _], h =>
      unfold utf8Valid at h
      rw [if_neg h1, if_neg (by simp only [Bool.and_eq_true, decide_eq_true_eq, UInt8.le_iff_toNat_le]; simp; omega),
        if_neg (by simp only [Bool.and_eq_true, decide_eq_true_eq, UInt8.le_iff_toNat_le]; simp; omega),
        if_pos (by simp only [Bool.and_eq_true, decide_eq_true_eq, UInt8.le_iff_toNat_le]; simpa using h4)] at h
      cases h
  · unfold utf8Valid at h
    rw [if_neg h1, if_neg (by simp only [Bool.and_eq_true, decide_eq_true_eq, UInt8.le_iff_toNat_le]; simp; omega),
        if_neg (by simp only [Bool.and_eq_true, decide_eq_true_eq, UInt8.le_iff_toNat_le]; simp; omega),
        if_neg (by simp only [Bool.and_eq_true, decide_eq_true_eq, UInt8.le_iff_toNat_le]; simp; omega)] at h
    cases h

theorem utf8Valid_chars (cs : List Char) (x : Str) : utf8Valid (cs.flatMap String.utf8EncodeChar ++ x) = utf8Valid x := by
  induction cs with
  | nil => rfl
  | cons c cs ih =>
    rw [List.flatMap_cons, List.append_assoc, ← utf8Encode_char, utf8Valid_encode (char_range c), ih]

theorem utf8Valid_iff_chars (b : Str) : utf8Valid b = true ↔ ∃ cs : List Char, b = cs.flatMap String.utf8EncodeChar := by
  constructor
  · generalize hn : b.length = n
    induction n using Nat.strongRecOn generalizing b with
    | _ n ih =>
      intro h
      cases b with
      | nil => exact ⟨[], rfl⟩
      | cons a r =>
        obtain ⟨c, q, e, hq⟩ := utf8_firstChar h
        have hl := congrArg List.length e
        have hp : 0 < (String.utf8EncodeChar c).length := List.length_pos_iff.mpr String.utf8EncodeChar_ne_nil
        rw [List.length_append] at hl
        obtain ⟨cs, rfl⟩ := ih q.length (by omega) q rfl hq
        exact ⟨c :: cs, by rw [e, List.flatMap_cons]⟩
  · rintro ⟨cs, rfl⟩
    have := utf8Valid_chars cs []
    rw [List.append_nil] at this
    rw [this]; rfl

/-- The bytes accepted as text are exactly the UTF-8 encodings of Unicode texts. -/
theorem utf8Valid_iff (b : Str) : utf8Valid b = true ↔ ∃ s : String, b = textBytes s := by
  rw [utf8Valid_iff_chars]
  constructor
  · rintro ⟨cs, rfl⟩
    exact ⟨String.ofList cs, by simp [textBytes]⟩
  · rintro ⟨s, rfl⟩
    exact ⟨s.toList, rfl⟩

/-! ## Cutting -/

theorem encode_shape (c : Char) : ∃ a r, String.utf8EncodeChar c = a :: r ∧ isCont a = false ∧ ∀ b ∈ r, isCont b = true := by
  have cont : ∀ m, isCont (UInt8.ofNat (0x80 + m % 64)) = true := by
    intro m
    rw [isCont_iff, u8_toNat_ofNat (by omega)]
    omega
  have nc : ∀ {m : Nat}, m < 256 → (m < 128 ∨ 191 < m) → isCont (UInt8.ofNat m) = false := by
    intro m h h'
    rw [Bool.eq_false_iff, Ne, isCont_iff, u8_toNat_ofNat h]
    omega
  have hr := char_range c
  rw [← utf8Encode_char]
  generalize c.toNat = n at hr
  unfold utf8Encode
  split
  · exact ⟨_, _, rfl, nc (by omega) (by omega), by simp⟩
  split
  · refine ⟨_, _, rfl, nc (by omega) (by omega), ?_⟩
    simp only [List.mem_cons, List.not_mem_nil, or_false]
    rintro b rfl
    exact cont _
  split
  · refine ⟨_, _, rfl, nc (by omega) (by omega), ?_⟩
    simp only [List.mem_cons, List.not_mem_nil, or_false]
    rintro b (rfl | rfl) <;> exact cont _
  · refine ⟨_, _, rfl, nc (by omega) (by omega), ?_⟩
    simp only [List.mem_cons, List.not_mem_nil, or_false]
    rintro b (rfl | rfl | rfl) <;> exact cont _

theorem boundary_chars : ∀ (cs : List Char) (i : Nat), isBoundary (cs.flatMap String.utf8EncodeChar) i = true ↔
    ∃ k ≤ cs.length, ((cs.take k).flatMap String.utf8EncodeChar).length = i
  | [], i => by
    simp [isBoundary]
    exact eq_comm
  | c :: cs, i => by
    obtain ⟨a, r, e, ha, hr⟩ := encode_shape c
    rcases Nat.eq_zero_or_pos i with rfl | hi
    · simp only [isBoundary_zero, true_iff]
      exact ⟨0, by simp, by simp⟩
    by_cases hlt : i < (a :: r).length
    · have hb : isBoundary ((c :: cs).flatMap String.utf8EncodeChar) i = false := by
        rw [List.flatMap_cons, e]
        unfold isBoundary
        rw [List.getElem?_append_left hlt]
        obtain ⟨j, rfl⟩ : ∃ j, i = j + 1 := ⟨i - 1, by omega⟩
        rw [List.getElem?_cons_succ, List.getElem?_eq_getElem (by simpa using hlt)]
        simp [hr _ (List.getElem_mem _)]
      rw [hb]
      simp only [Bool.false_eq_true, false_iff, not_exists, not_and]
      intro k _ hk
      cases k with
      | zero => simp at hk; omega
      | succ k =>
        rw [List.take_succ_cons, List.flatMap_cons, e, List.length_append] at hk
        omega
    · have hb : isBoundary ((c :: cs).flatMap String.utf8EncodeChar) i = isBoundary (cs.flatMap String.utf8EncodeChar) (i - (a :: r).length) := by
        rw [List.flatMap_cons, e]
        unfold isBoundary
        rw [List.getElem?_append_right (by omega), List.length_append]
        cases hb : (cs.flatMap String.utf8EncodeChar)[i - (a :: r).length]? with
        | some b =>
          by_cases h0 : i - (a :: r).length = 0
          · rw [h0] at hb ⊢
            have hv : utf8Valid (cs.flatMap String.utf8EncodeChar) = true := (utf8Valid_iff_chars _).mpr ⟨cs, rfl⟩
            cases hf : cs.flatMap String.utf8EncodeChar with
            | nil => rw [hf] at hb; cases hb
            | cons d t =>
              rw [hf] at hb hv
              have hd := utf8_head hv
              have : d = b := by simpa using hb
              subst this
              simp [hd]
          · have : (i == 0) = false := by simp; omega
            have h2 : (i - (a :: r).length == 0) = false := by simp; omega
            rw [this, h2]
        | none =>
          rw [Bool.eq_iff_iff]
          have := List.getElem?_eq_none_iff.mp hb
          simp only [beq_iff_eq]
          omega
      rw [hb, boundary_chars cs]
      constructor
      · rintro ⟨k, hk, hl⟩
        refine ⟨k + 1, by simpa using hk, ?_⟩
        rw [List.take_succ_cons, List.flatMap_cons, e, List.length_append, hl]
        omega
      · rintro ⟨k, hk, hl⟩
        cases k with
        | zero => simp at hl; omega
        | succ k =>
          refine ⟨k, by simpa using hk, ?_⟩
          rw [List.take_succ_cons, List.flatMap_cons, e, List.length_append] at hl
          omega

/-- A text can be cut exactly between its characters. -/
theorem boundary_iff (s : String) (i : Nat) : isBoundary (textBytes s) i = true ↔ ∃ x y : String, s = x ++ y ∧ (textBytes x).length = i := by
  unfold textBytes
  rw [boundary_chars]
  constructor
  · rintro ⟨k, hk, hl⟩
    refine ⟨String.ofList (s.toList.take k), String.ofList (s.toList.drop k), ?_, by simpa using hl⟩
    rw [← String.toList_inj]
    simp
  · rintro ⟨x, y, rfl, hl⟩
    exact ⟨x.toList.length, by simp, by simpa using hl⟩

/-- Cutting a text gives the text between two places between characters, and panics everywhere else. -/
theorem cut_iff (s : String) (a b : Nat) : (∀ r, sliceStr (textBytes s) a b = .ok r ↔
      ∃ x y z : String, s = x ++ y ++ z ∧ (textBytes x).length = a ∧ (textBytes (x ++ y)).length = b ∧ r = textBytes y) ∧
    (sliceStr (textBytes s) a b = .panic ↔
      ¬ ∃ x y z : String, s = x ++ y ++ z ∧ (textBytes x).length = a ∧ (textBytes (x ++ y)).length = b) := by
  have key : (a ≤ b ∧ b ≤ (textBytes s).length ∧ isBoundary (textBytes s) a = true ∧ isBoundary (textBytes s) b = true) ↔
      ∃ x y z : String, s = x ++ y ++ z ∧ (textBytes x).length = a ∧ (textBytes (x ++ y)).length = b := by
    constructor
    · rintro ⟨hab, hb, h1, h2⟩
      obtain ⟨x, w, rfl, hx⟩ := (boundary_iff s a).mp h1
      obtain ⟨v, z, hs, hv⟩ := (boundary_iff _ b).mp h2
      rw [← String.toList_inj] at hs
      simp only [String.toList_append] at hs
      rcases List.append_eq_append_iff.mp hs with ⟨t, e1, e2⟩ | ⟨t, e1, e2⟩
      · refine ⟨x, String.ofList t, z, ?_, hx, ?_⟩
        · rw [← String.toList_inj]
          simp [e2]
        · rw [← hv]
          unfold textBytes
          simp [e1]
      · have hlen : (textBytes x).length = (textBytes v).length + (t.flatMap String.utf8EncodeChar).length := by
          unfold textBytes
          rw [e1, List.flatMap_append, List.length_append]
        have ht : t = [] := by
          cases t with
          | nil => rfl
          | cons c t =>
            have hp : 0 < (String.utf8EncodeChar c).length := List.length_pos_iff.mpr String.utf8EncodeChar_ne_nil
            rw [List.flatMap_cons, List.length_append] at hlen
            omega
        subst ht
        refine ⟨x, "", w, by simp, hx, ?_⟩
        rw [List.append_nil] at e1
        rw [← hv]
        unfold textBytes
        simp [e1]
    · rintro ⟨x, y, z, rfl, rfl, rfl⟩
      refine ⟨by rw [textBytes_append, List.length_append]; omega, by rw [textBytes_append (x ++ y), List.length_append]; omega,
        (boundary_iff _ _).mpr ⟨x, y ++ z, by rw [String.append_assoc], rfl⟩, (boundary_iff _ _).mpr ⟨x ++ y, z, rfl, rfl⟩⟩
  unfold sliceStr
  constructor
  · intro r
    constructor
    · intro h
      split at h
      · rename_i hc
        obtain ⟨x, y, z, rfl, rfl, rfl⟩ := key.mp hc
        refine ⟨x, y, z, rfl, rfl, rfl, ?_⟩
        rw [← Res.ok.inj h, textBytes_append (x ++ y) z, List.take_left, textBytes_append, List.drop_left]
      · cases h
    · rintro ⟨x, y, z, rfl, rfl, rfl, rfl⟩
      rw [if_pos (key.mpr ⟨x, y, z, rfl, rfl, rfl⟩), textBytes_append (x ++ y) z, List.take_left, textBytes_append, List.drop_left]
  · rw [← key]
    split
    · rename_i hc
      simp only [hc, and_self, not_true_eq_false, iff_false]
      intro h; cases h
    · rename_i hc
      simp only [hc, not_false_iff]

end Cesride
