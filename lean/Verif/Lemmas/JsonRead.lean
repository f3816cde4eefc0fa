import Verif.Lemmas.Json
import Verif.Spec.JsonText

/-! # The reader and the grammar of JSON: strings and numbers -/

namespace Cesride
namespace Json
open Spec.JsonText

/-! ## Strings -/

theorem hexDigit_sound (c : UInt8) : ∀ x, hexDigit c = some x → Digit16 c x := by
  have key : ∀ c : UInt8, ∀ x : Fin 16, hexDigit c = some x.val → Digit16 c x.val :=
    byte_forall (P := fun c => ∀ x : Fin 16, hexDigit c = some x.val → Digit16 c x.val) (by unfold Digit16; decide +kernel)
  have lt : ∀ c : UInt8, (hexDigit c).all (· < 16) = true :=
    byte_forall (P := fun c => (hexDigit c).all (· < 16) = true) (by decide +kernel)
  intro x h
  have := lt c
  rw [h] at this
  exact key c ⟨x, by simpa using this⟩ h

theorem digit16_lt {c : UInt8} {x : Nat} (h : Digit16 c x) : x < 16 := by
  unfold Digit16 at h
  by_cases hx : x < 16
  · exact hx
  · exfalso
    have e1 : (lit "0123456789abcdef").length = 16 := by decide
    have e2 : (lit "0123456789ABCDEF").length = 16 := by decide
    rw [List.getElem?_eq_none (by omega), List.getElem?_eq_none (by omega)] at h
    simp at h

theorem hexDigit_complete {c : UInt8} {x : Nat} (h : Digit16 c x) : hexDigit c = some x := by
  have key : ∀ c : UInt8, ∀ x : Fin 16, Digit16 c x.val → hexDigit c = some x.val :=
    byte_forall (P := fun c => ∀ x : Fin 16, Digit16 c x.val → hexDigit c = some x.val) (by unfold Digit16; decide +kernel)
  exact key c ⟨x, digit16_lt h⟩ h

theorem hex4_iff {a b c d : UInt8} {n : Nat} : hex4 a b c d = some n ↔ Unit4 [a, b, c, d] n := by
  constructor
  · intro h
    unfold hex4 at h
    cases ha : hexDigit a with
    | none => simp [ha] at h
    | some x =>
    cases hb : hexDigit b with
    | none => simp [ha, hb] at h
    | some y =>
    cases hc : hexDigit c with
    | none => simp [ha, hb, hc] at h
    | some z =>
    cases hd : hexDigit d with
    | none => simp [ha, hb, hc, hd] at h
    | some w =>
      simp only [ha, hb, hc, hd, Option.some.injEq] at h
      exact ⟨a, b, c, d, x, y, z, w, rfl, hexDigit_sound _ _ ha, hexDigit_sound _ _ hb, hexDigit_sound _ _ hc, hexDigit_sound _ _ hd, by omega⟩
  · rintro ⟨a', b', c', d', x, y, z, w, e, ha, hb, hc, hd, rfl⟩
    simp only [List.cons.injEq, and_true] at e
    obtain ⟨rfl, rfl, rfl, rfl⟩ := e
    unfold hex4
    simp only [hexDigit_complete ha, hexDigit_complete hb, hexDigit_complete hc, hexDigit_complete hd, Option.some.injEq]
    omega

theorem unit4_lt {h : Str} {n : Nat} (hu : Unit4 h n) : n < 65536 := by
  obtain ⟨a, b, c, d, x, y, z, w, -, ha, hb, hc, hd, rfl⟩ := hu
  have := digit16_lt ha; have := digit16_lt hb; have := digit16_lt hc; have := digit16_lt hd
  omega

theorem unit4_split {h : Str} {n : Nat} (hu : Unit4 h n) : ∃ a b c d, h = [a, b, c, d] := by
  obtain ⟨a, b, c, d, x, y, z, w, e, -⟩ := hu
  exact ⟨a, b, c, d, e⟩

theorem simpleEscape_iff (e b : UInt8) : simpleEscape e = some b ↔ (e, b) ∈ escapes := by
  constructor
  · have key : ∀ e : UInt8, (simpleEscape e).all (fun b => decide ((e, b) ∈ escapes)) = true :=
      byte_forall (P := fun e => (simpleEscape e).all (fun b => decide ((e, b) ∈ escapes)) = true) (by decide +kernel)
    intro h
    have := key e
    rw [h] at this
    simpa using this
  · have key : ∀ p ∈ escapes, simpleEscape p.1 = some p.2 := by decide +kernel
    exact fun h => key _ h

theorem utf8Encode_char (c : Char) : utf8Encode c.toNat = String.utf8EncodeChar c := by
  have hv : c.toNat < 0x110000 := by
    have := c.valid
    change Nat.isValidChar c.toNat at this
    rcases this with h | h <;> omega
  unfold utf8Encode String.utf8EncodeChar
  change _ = if c.toNat ≤ 127 then [UInt8.ofNat c.toNat]
    else if c.toNat ≤ 2047 then [UInt8.ofNat (c.toNat / 64 % 32 + 192), UInt8.ofNat (c.toNat % 64 + 128)]
    else if c.toNat ≤ 65535 then [UInt8.ofNat (c.toNat / 4096 % 16 + 224), UInt8.ofNat (c.toNat / 64 % 64 + 128), UInt8.ofNat (c.toNat % 64 + 128)]
    else [UInt8.ofNat (c.toNat / 262144 % 8 + 240), UInt8.ofNat (c.toNat / 4096 % 64 + 128), UInt8.ofNat (c.toNat / 64 % 64 + 128), UInt8.ofNat (c.toNat % 64 + 128)]
  generalize c.toNat = n at hv
  by_cases h1 : n < 0x80
  · rw [if_pos h1, if_pos (by omega)]
  by_cases h2 : n < 0x800
  · rw [if_neg h1, if_pos h2, if_neg (by omega), if_pos (by omega)]
    rw [show 0xC0 + n / 64 = n / 64 % 32 + 192 by omega, show 0x80 + n % 64 = n % 64 + 128 by omega]
  by_cases h3 : n < 0x10000
  · rw [if_neg h1, if_neg h2, if_pos h3, if_neg (by omega), if_neg (by omega), if_pos (by omega)]
    rw [show 0xE0 + n / 4096 = n / 4096 % 16 + 224 by omega, show 0x80 + n / 64 % 64 = n / 64 % 64 + 128 by omega,
      show 0x80 + n % 64 = n % 64 + 128 by omega]
  · rw [if_neg h1, if_neg h2, if_neg h3, if_neg (by omega), if_neg (by omega), if_neg (by omega)]
    rw [show 0xF0 + n / 262144 = n / 262144 % 8 + 240 by omega, show 0x80 + n / 4096 % 64 = n / 4096 % 64 + 128 by omega,
      show 0x80 + n / 64 % 64 = n / 64 % 64 + 128 by omega, show 0x80 + n % 64 = n % 64 + 128 by omega]

/-- Every code point outside the surrogates is a character. -/
theorem exists_char {n : Nat} (h : n < 0xD800 ∨ (0xDFFF < n ∧ n < 0x110000)) : ∃ c : Char, c.toNat = n := by
  have hv : n.isValidChar := h
  exact ⟨Char.ofNatAux n hv, rfl⟩

theorem char_range (c : Char) : c.toNat < 0xD800 ∨ (0xDFFF < c.toNat ∧ c.toNat < 0x110000) := by
  have := c.valid
  change Nat.isValidChar c.toNat at this
  exact this

theorem parseStr_sound : ∀ (fuel : Nat) (s : Str) {v r : Str}, parseStr fuel s = some (v, r) → ∃ t, s = t ++ ch '"' :: r ∧ Body t v := by
  intro fuel
  induction fuel with
  | zero => intro s v r h; simp [parseStr] at h
  | succ fuel ih =>
    intro s v r h
    cases s with
    | nil => simp [parseStr] at h
    | cons c rest =>
      unfold parseStr at h
      split at h
      · rename_i hc
        simp only [Option.some.injEq, Prod.mk.injEq] at h
        obtain ⟨rfl, rfl⟩ := h
        exact ⟨[], by simp [hc], .nil⟩
      · rename_i hq
        split at h
        · rename_i hb
          subst hb
          cases rest with
          | nil => simp at h
          | cons e rest =>
            dsimp only at h
            split at h
            · rename_i hu
              subst hu
              split at h
              · rename_i a b c d rest
                split at h
                · cases h
                · rename_i n hn
                  have hU := hex4_iff.mp hn
                  split at h
                  · cases h
                  · rename_i hlo
                    split at h
                    · rename_i hhi
                      split at h
                      · rename_i s u a' b' c' d' rest
                        split at h
                        · rename_i hsu
                          obtain ⟨rfl, rfl⟩ := hsu
                          split at h
                          · cases h
                          · rename_i m hm
                            have hL := hex4_iff.mp hm
                            split at h
                            · rename_i hml
                              simp only [Option.bind_eq_bind, Option.bind_eq_some_iff, Option.some.injEq, Prod.mk.injEq, Prod.exists] at h
                              obtain ⟨t, r', hp, rfl, rfl⟩ := h
                              obtain ⟨t', rfl, hB⟩ := ih _ hp
                              obtain ⟨ch', hc'⟩ := exists_char (n := (n - 0xD800) * 1024 + (m - 0xDC00) + 0x10000) (by omega)
                              rw [← hc', utf8Encode_char]
                              refine ⟨ch '\\' :: ch 'u' :: ([a, b, c, d] ++ ch '\\' :: ch 'u' :: ([a', b', c', d'] ++ t')), by simp, ?_⟩
                              refine Body.pair (by omega) ?_ ?_ hB
                              · rw [show 0xD800 + (ch'.toNat - 0x10000) / 1024 = n by omega]; exact hU
                              · rw [show 0xDC00 + (ch'.toNat - 0x10000) % 1024 = m by omega]; exact hL
                            · cases h
                        · cases h
                      · cases h
                    · rename_i hhi
                      simp only [Option.bind_eq_bind, Option.bind_eq_some_iff, Option.some.injEq, Prod.mk.injEq, Prod.exists] at h
                      obtain ⟨t, r', hp, rfl, rfl⟩ := h
                      obtain ⟨t', rfl, hB⟩ := ih _ hp
                      have := unit4_lt hU
                      obtain ⟨ch', hc'⟩ := exists_char (n := n) (by omega)
                      rw [← hc', utf8Encode_char]
                      refine ⟨ch '\\' :: ch 'u' :: ([a, b, c, d] ++ t'), by simp, ?_⟩
                      exact Body.unit (by omega) (by rw [hc']; exact hU) hB
              · cases h
            · rename_i hu
              split at h
              · cases h
              · rename_i b hb
                simp only [Option.bind_eq_bind, Option.bind_eq_some_iff, Option.some.injEq, Prod.mk.injEq, Prod.exists] at h
                obtain ⟨t, r', hp, rfl, rfl⟩ := h
                obtain ⟨t', rfl, hB⟩ := ih _ hp
                exact ⟨ch '\\' :: e :: t', by simp, Body.short ((simpleEscape_iff _ _).mp hb) hB⟩
        · rename_i hb
          split at h
          · cases h
          · rename_i h32
            simp only [Option.bind_eq_bind, Option.bind_eq_some_iff, Option.some.injEq, Prod.mk.injEq, Prod.exists] at h
            obtain ⟨t, r', hp, rfl, rfl⟩ := h
            obtain ⟨t', rfl, hB⟩ := ih _ hp
            exact ⟨c :: t', by simp, Body.plain (UInt8.not_lt.mp h32) hq hb hB⟩

theorem parseStr_complete {t v : Str} (h : Body t v) (r : Str) : ∀ fuel, t.length + 1 ≤ fuel → parseStr fuel (t ++ ch '"' :: r) = some (v, r) := by
  induction h with
  | nil =>
    intro fuel hf
    obtain ⟨f, rfl⟩ : ∃ f, fuel = f + 1 := ⟨fuel - 1, by omega⟩
    simp [parseStr]
  | @plain c t s h32 hq hb hB ih =>
    intro fuel hf
    obtain ⟨f, rfl⟩ : ∃ f, fuel = f + 1 := ⟨fuel - 1, by omega⟩
    rw [List.cons_append, parseStr.eq_def]
    dsimp only
    rw [if_neg hq, if_neg hb, if_neg (UInt8.not_lt.mpr h32), ih f (by simp at hf; omega)]
    rfl
  | @short e b t s he hB ih =>
    intro fuel hf
    obtain ⟨f, rfl⟩ : ∃ f, fuel = f + 1 := ⟨fuel - 1, by omega⟩
    have hu : e ≠ ch 'u' := by
      have : ∀ p ∈ escapes, p.1 ≠ ch 'u' := by decide +kernel
      exact this _ he
    rw [List.cons_append, List.cons_append, parseStr.eq_def]
    dsimp only
    rw [if_neg (by decide), if_pos rfl, if_neg hu, (simpleEscape_iff e b).mpr he]
    dsimp only
    rw [ih f (by simp at hf; omega)]
    rfl
  | @unit c h t s hc hU hB ih =>
    intro fuel hf
    obtain ⟨f, rfl⟩ : ∃ f, fuel = f + 1 := ⟨fuel - 1, by omega⟩
    obtain ⟨a, b, x, d, rfl⟩ := unit4_split hU
    have hr := char_range c
    rw [List.cons_append, List.cons_append, parseStr.eq_def]
    dsimp only
    rw [if_neg (by decide), if_pos rfl, if_pos rfl]
    dsimp only [List.cons_append, List.nil_append]
    rw [hex4_iff.mpr hU]
    dsimp only
    rw [if_neg (by omega), if_neg (by omega), ih f (by simp at hf; omega), utf8Encode_char]
    rfl
  | @pair c h l t s hc hU hL hB ih =>
    intro fuel hf
    obtain ⟨f, rfl⟩ : ∃ f, fuel = f + 1 := ⟨fuel - 1, by omega⟩
    obtain ⟨a, b, x, d, rfl⟩ := unit4_split hU
    obtain ⟨a', b', x', d', rfl⟩ := unit4_split hL
    have hr := char_range c
    rw [List.cons_append, List.cons_append, parseStr.eq_def]
    dsimp only
    rw [if_neg (by decide), if_pos rfl, if_pos rfl]
    dsimp only [List.cons_append, List.nil_append]
    rw [hex4_iff.mpr hU]
    dsimp only
    rw [if_neg (by omega), if_pos (by omega), if_pos ⟨rfl, rfl⟩, hex4_iff.mpr hL]
    dsimp only
    rw [if_pos (by omega), ih f (by simp at hf; omega)]
    rw [show (0xD800 + (c.toNat - 0x10000) / 1024 - 0xD800) * 1024 + (0xDC00 + (c.toNat - 0x10000) % 1024 - 0xDC00) + 0x10000 = c.toNat by omega,
      utf8Encode_char]
    rfl

/-! ## Numbers -/

theorem spanDigits_sound : ∀ {s d r : Str}, spanDigits s = (d, r) → s = d ++ r ∧ (∀ c ∈ d, isDig c)
  | [], d, r, h => by
    simp only [spanDigits, Prod.mk.injEq] at h
    obtain ⟨rfl, rfl⟩ := h
    simp
  | c :: rest, d, r, h => by
    rw [spanDigits] at h
    split at h
    · rename_i hc
      obtain ⟨h1, h2⟩ := spanDigits_sound (s := rest) (d := (spanDigits rest).1) (r := (spanDigits rest).2) rfl
      simp only [Prod.mk.injEq] at h
      obtain ⟨rfl, rfl⟩ := h
      refine ⟨by rw [List.cons_append, ← h1], ?_⟩
      intro x hx
      rcases List.mem_cons.mp hx with rfl | hx
      · exact hc
      · exact h2 x hx
    · simp only [Prod.mk.injEq] at h
      obtain ⟨rfl, rfl⟩ := h
      simp

theorem parseFrac_sound {s f r : Str} (h : parseFrac s = some (f, r)) : s = f ++ r ∧ (f = [] ∨ ∃ d, Digits d ∧ f = ch '.' :: d) := by
  unfold parseFrac at h
  split at h
  · rename_i c rest
    split at h
    · rename_i hc
      subst hc
      dsimp only at h
      split at h
      · cases h
      · rename_i hd
        simp only [Option.some.injEq, Prod.mk.injEq] at h
        obtain ⟨rfl, rfl⟩ := h
        obtain ⟨h1, h2⟩ := spanDigits_sound (s := rest) (d := (spanDigits rest).1) (r := (spanDigits rest).2) rfl
        exact ⟨by rw [List.cons_append, ← h1], .inr ⟨_, ⟨hd, h2⟩, rfl⟩⟩
    · simp only [Option.some.injEq, Prod.mk.injEq] at h
      obtain ⟨rfl, rfl⟩ := h
      exact ⟨rfl, .inl rfl⟩
  · simp only [Option.some.injEq, Prod.mk.injEq] at h
    obtain ⟨rfl, rfl⟩ := h
    exact ⟨rfl, .inl rfl⟩

theorem parseExp_sound {s x r : Str} (h : parseExp s = some (x, r)) : s = x ++ r ∧ (x = [] ∨
    ∃ e g d, (e = ch 'e' ∨ e = ch 'E') ∧ (g = [] ∨ g = lit "+" ∨ g = lit "-") ∧ Digits d ∧ x = e :: (g ++ d)) := by
  unfold parseExp at h
  split at h
  · rename_i c rest
    split at h
    · rename_i hc
      split at h
      · rename_i g rest'
        split at h
        · rename_i hg
          dsimp only at h
          split at h
          · cases h
          · rename_i hd
            simp only [Option.some.injEq, Prod.mk.injEq] at h
            obtain ⟨rfl, rfl⟩ := h
            obtain ⟨h1, h2⟩ := spanDigits_sound (s := rest') (d := (spanDigits rest').1) (r := (spanDigits rest').2) rfl
            refine ⟨by rw [List.cons_append, List.cons_append, ← h1], .inr ⟨c, [g], _, hc, ?_, ⟨hd, h2⟩, rfl⟩⟩
            rcases hg with rfl | rfl
            · exact .inr (.inl rfl)
            · exact .inr (.inr rfl)
        · dsimp only at h
          split at h
          · cases h
          · rename_i hd
            simp only [Option.some.injEq, Prod.mk.injEq] at h
            obtain ⟨rfl, rfl⟩ := h
            obtain ⟨h1, h2⟩ := spanDigits_sound (s := g :: rest') (d := (spanDigits (g :: rest')).1) (r := (spanDigits (g :: rest')).2) rfl
            exact ⟨by rw [List.cons_append, ← h1], .inr ⟨c, [], _, hc, .inl rfl, ⟨hd, h2⟩, rfl⟩⟩
      · cases h
    · simp only [Option.some.injEq, Prod.mk.injEq] at h
      obtain ⟨rfl, rfl⟩ := h
      exact ⟨rfl, .inl rfl⟩
  · simp only [Option.some.injEq, Prod.mk.injEq] at h
    obtain ⟨rfl, rfl⟩ := h
    exact ⟨rfl, .inl rfl⟩

theorem splitSign_sound (s : Str) : s = (if (splitSign s).1 then lit "-" else []) ++ (splitSign s).2 := by
  cases s with
  | nil => rfl
  | cons c r =>
    by_cases h : c = ch '-'
    · subst h; rfl
    · simp [splitSign, h]

theorem parseNum_sound (F : Str → Option Str) {s : Str} {v : Value} {r : Str} (h : parseNum F s = some (v, r)) :
    ∃ t, s = t ++ r ∧ Num F t v := by
  have hs := splitSign_sound s
  unfold parseNum at h
  generalize splitSign s = p at h hs
  obtain ⟨neg, s1⟩ := p
  dsimp only at h hs
  obtain ⟨h1, h2⟩ := spanDigits_sound (s := s1) (d := (spanDigits s1).1) (r := (spanDigits s1).2) rfl
  generalize spanDigits s1 = q at h h1 h2
  obtain ⟨d, s2⟩ := q
  dsimp only at h h1 h2
  split at h
  · cases h
  rename_i hd
  split at h
  · cases h
  rename_i hz
  simp only [Option.bind_eq_bind, Option.bind_eq_some_iff, Prod.exists] at h
  obtain ⟨frac, s3, hf, exp, s4, he, h⟩ := h
  obtain ⟨e1, f1⟩ := parseFrac_sound hf
  obtain ⟨e2, f2⟩ := parseExp_sound he
  have tok : Token (if neg then lit "-" else []) d frac exp := by
    refine ⟨by cases neg <;> simp, ⟨⟨hd, h2⟩, ?_⟩, f1, f2⟩
    intro h0
    have hl : d.length = 1 := by
      cases d with
      | nil => exact absurd rfl hd
      | cons a d =>
        have : ¬ 1 < (a :: d).length := fun h => hz ⟨h0, h⟩
        rw [List.length_cons] at this ⊢
        omega
    match d, hl, h0 with
    | [a], _, h0 => simp only [List.head?_cons, Option.some.injEq] at h0; subst h0; rfl
  have key : ∀ r', r' = s4 → s = ((if neg then lit "-" else []) ++ d ++ frac ++ exp) ++ r' := by
    intro r' hr; subst hr
    rw [hs, h1, e1, e2]; simp
  split at h
  · rename_i hc
    obtain ⟨rfl, rfl, rfl, hn⟩ := hc
    simp only [Option.some.injEq, Prod.mk.injEq] at h
    obtain ⟨rfl, rfl⟩ := h
    refine ⟨_, key _ rfl, _, _, _, _, rfl, tok, ?_⟩
    rw [if_pos ⟨rfl, rfl⟩]
    simp [whole64, decimal_eq, hn]
  · rename_i hc1
    split at h
    · rename_i hc
      obtain ⟨rfl, rfl, rfl, hn, hn2⟩ := hc
      simp only [Option.some.injEq, Prod.mk.injEq] at h
      obtain ⟨rfl, rfl⟩ := h
      refine ⟨_, key _ rfl, _, _, _, _, rfl, tok, ?_⟩
      rw [if_pos ⟨rfl, rfl⟩]
      have hl : lit "-" ≠ [] := by decide
      simp only [whole64, if_true, if_neg hl, decimal_eq, if_neg (show ¬ digitsVal d = 0 by omega), if_pos hn2]
    · rename_i hc2
      simp only [Option.bind_eq_some_iff, Option.some.injEq, Prod.mk.injEq] at h
      obtain ⟨x, hx, rfl, rfl⟩ := h
      have hsg : (if neg then lit "-" else ([] : Str)) = (if neg then [ch '-'] else []) := by cases neg <;> rfl
      refine ⟨_, key _ rfl, _, _, _, _, rfl, tok, ?_⟩
      have : (if frac = [] ∧ exp = [] then whole64 (if neg then lit "-" else []) d else none) = none := by
        split
        · rename_i hfe
          obtain ⟨rfl, rfl⟩ := hfe
          have hl : lit "-" ≠ [] := by decide
          cases neg
          · have hn : ¬ digitsVal d < 2 ^ 64 := fun hn => hc1 ⟨rfl, rfl, rfl, hn⟩
            simp only [whole64, decimal_eq, if_neg hn, Bool.false_eq_true, if_false, if_true]
          · simp only [whole64, decimal_eq, if_true, if_neg hl]
            by_cases h0 : digitsVal d = 0
            · rw [if_pos h0]
            · rw [if_neg h0, if_neg (fun hn => hc2 ⟨rfl, rfl, rfl, by omega, hn⟩)]
        · rfl
      rw [this]
      exact ⟨x, by rw [hsg]; exact hx, rfl⟩

end Json
end Cesride
