import Verif.Model.Json
import Verif.Spec.JsonText
import Verif.Lemmas.Prims

/-! # The JSON parser on printed strings and on number tokens -/

namespace Cesride
namespace Json

/-! ## Strings -/

theorem hex4_control : ∀ n : Fin 32, hex4 (ch '0') (ch '0') (hexChar (n.val / 16)) (hexChar (n.val % 16)) = some n.val := by
  decide +kernel

theorem parseStr_byte (c : UInt8) (tail : Str) (fuel : Nat) :
    parseStr (fuel + 1) (escapeByte c ++ tail) = (do let (t, r) ← parseStr fuel tail; some (c :: t, r)) := by
  unfold escapeByte
  by_cases h1 : c = ch '"'
  · subst h1; rfl
  rw [if_neg h1]
  by_cases h2 : c = ch '\\'
  · subst h2; rfl
  rw [if_neg h2]
  by_cases h3 : c = 8
  · subst h3; rfl
  rw [if_neg h3]
  by_cases h4 : c = 9
  · subst h4; rfl
  rw [if_neg h4]
  by_cases h5 : c = 10
  · subst h5; rfl
  rw [if_neg h5]
  by_cases h6 : c = 12
  · subst h6; rfl
  rw [if_neg h6]
  by_cases h7 : c = 13
  · subst h7; rfl
  rw [if_neg h7]
  by_cases h8 : c < 32
  · rw [if_pos h8]
    have hn : c.toNat < 32 := by rw [UInt8.lt_iff_toNat_lt] at h8; exact h8
    have hx := hex4_control ⟨c.toNat, hn⟩
    simp only at hx
    show parseStr (fuel + 1) (ch '\\' :: ch 'u' :: ch '0' :: ch '0' :: hexChar (c.toNat / 16) :: hexChar (c.toNat % 16) :: tail) = _
    rw [parseStr]
    rw [if_neg (by decide), if_pos rfl]
    dsimp only
    rw [if_pos rfl, hx]
    dsimp only
    rw [if_neg (by omega), if_neg (by omega)]
    have : utf8Encode c.toNat = [c] := by
      unfold utf8Encode
      rw [if_pos (by omega)]
      simp
    rw [this]
    rfl
  · rw [if_neg h8]
    show parseStr (fuel + 1) (c :: tail) = _
    simp only [parseStr, if_neg h1, if_neg h2, if_neg h8]

theorem escapeByte_length (c : UInt8) : 1 ≤ (escapeByte c).length := by
  unfold escapeByte
  repeat' split
  all_goals simp [lit]

theorem parseStr_jsonStr (s rest : Str) : ∀ fuel, (s.flatMap escapeByte ++ ch '"' :: rest).length + 1 ≤ fuel →
    parseStr fuel (s.flatMap escapeByte ++ ch '"' :: rest) = some (s, rest) := by
  induction s with
  | nil =>
    intro fuel h
    cases fuel with
    | zero => simp at h
    | succ fuel => rfl
  | cons c s ih =>
    intro fuel h
    cases fuel with
    | zero => simp at h
    | succ fuel =>
      rw [List.flatMap_cons, List.append_assoc] at h ⊢
      have := escapeByte_length c
      rw [List.length_append] at h
      rw [parseStr_byte, ih fuel (by omega)]
      rfl

/-- After the opening quote, the parser reads back the string. -/
theorem parse_jsonStr (s rest : Str) : ∃ body, jsonStr s ++ rest = ch '"' :: body ∧
    parseStr (body.length + 1) body = some (s, rest) ∧ rest.length < body.length := by
  refine ⟨s.flatMap escapeByte ++ ch '"' :: rest, by simp [jsonStr], parseStr_jsonStr s rest _ (Nat.le_refl _), ?_⟩
  simp; omega

/-! ## Numbers -/

theorem natDec_lt {n : Nat} (h : n < 10) : natDec n = [UInt8.ofNat (48 + n)] := by rw [natDec]; simp [h]
theorem natDec_ge {n : Nat} (h : 10 ≤ n) : natDec n = natDec (n / 10) ++ [UInt8.ofNat (48 + n % 10)] := by
  rw [natDec]; simp [show ¬ n < 10 by omega]

theorem natDec_ne_nil (n : Nat) : natDec n ≠ [] := by rw [natDec]; split <;> simp

/-- Is a decimal digit. -/
def isDig (c : UInt8) : Prop := ch '0' ≤ c ∧ c ≤ ch '9'

theorem dig_facts : ∀ d : Nat, d < 10 → isDig (UInt8.ofNat (48 + d)) ∧ (UInt8.ofNat (48 + d)).toNat - 48 = d ∧
    (UInt8.ofNat (48 + d) = ch '0' → d = 0) := by
  have : ∀ d : Fin 10, isDig (UInt8.ofNat (48 + d.val)) ∧ (UInt8.ofNat (48 + d.val)).toNat - 48 = d.val ∧
    (UInt8.ofNat (48 + d.val) = ch '0' → d.val = 0) := by unfold isDig; decide +kernel
  exact fun d h => this ⟨d, h⟩

theorem natDec_digits (n : Nat) : ∀ c ∈ natDec n, isDig c := by
  induction n using Nat.strongRecOn with
  | _ n ih =>
    by_cases h : n < 10
    · rw [natDec_lt h]; intro c hc; rw [List.mem_singleton] at hc; subst hc; exact (dig_facts n h).1
    · rw [natDec_ge (by omega)]
      intro c hc
      rcases List.mem_append.mp hc with hc | hc
      · exact ih _ (by omega) c hc
      · rw [List.mem_singleton] at hc; subst hc; exact (dig_facts (n % 10) (by omega)).1

theorem natDec_val (n : Nat) : digitsVal (natDec n) = n := by
  induction n using Nat.strongRecOn with
  | _ n ih =>
    by_cases h : n < 10
    · rw [natDec_lt h]; simp only [digitsVal, List.foldl_cons, List.foldl_nil, (dig_facts n h).2.1]; omega
    · rw [natDec_ge (by omega), digitsVal, List.foldl_append, ← digitsVal, ih _ (by omega)]
      simp only [List.foldl_cons, List.foldl_nil, (dig_facts (n % 10) (by omega)).2.1]
      omega

theorem natDec_no_lead (n : Nat) : ¬ ((natDec n).head? = some (ch '0') ∧ 1 < (natDec n).length) := by
  have key : ∀ n, 0 < n → (natDec n).head? ≠ some (ch '0') := by
    intro n
    induction n using Nat.strongRecOn with
    | _ n ih =>
      intro hp
      by_cases h : n < 10
      · rw [natDec_lt h]
        simp only [List.head?_cons, ne_eq, Option.some.injEq]
        intro hc; have := (dig_facts n h).2.2 hc; omega
      · rw [natDec_ge (by omega)]
        have := ih (n / 10) (by omega) (by omega)
        cases hs : natDec (n / 10) with
        | nil => exact absurd hs (natDec_ne_nil _)
        | cons a t => rw [hs] at this; simpa using this
  rintro ⟨h1, h2⟩
  by_cases h : n = 0
  · subst h; rw [natDec_lt (by omega)] at h2; simp at h2
  · exact key n (by omega) h1

/-- The text after a value: nothing, or a character that cannot continue a number. -/
def Delim (rest : Str) : Prop := ∀ c, rest.head? = some c → ¬ isDig c ∧ c ≠ ch '.' ∧ c ≠ ch 'e' ∧ c ≠ ch 'E'

theorem spanDigits_append {d rest : Str} (hd : ∀ c ∈ d, isDig c) (hr : ∀ c, rest.head? = some c → ¬ isDig c) :
    spanDigits (d ++ rest) = (d, rest) := by
  induction d with
  | nil =>
    cases rest with
    | nil => rfl
    | cons c r =>
      have := hr c rfl
      simp only [isDig] at this
      simp [spanDigits, this]
  | cons c d ih =>
    have h1 := hd c (by simp)
    simp only [isDig] at h1
    have h2 := ih (fun c hc => hd c (by simp [hc]))
    rw [List.cons_append, spanDigits, if_pos h1, h2]

theorem parseFrac_delim {rest : Str} (h : Delim rest) : parseFrac rest = some ([], rest) := by
  cases rest with
  | nil => rfl
  | cons c r => rw [parseFrac, if_neg (h c rfl).2.1]

theorem parseExp_delim {rest : Str} (h : Delim rest) : parseExp rest = some ([], rest) := by
  cases rest with
  | nil => rfl
  | cons c r =>
    simp only [parseExp]
    rw [if_neg (by intro hc; rcases hc with hc | hc; exact (h c rfl).2.2.1 hc; exact (h c rfl).2.2.2 hc)]

theorem parseNum_intDec (F : Str → Option Str) {i : Int} (h1 : -2 ^ 63 ≤ i) (h2 : i < 2 ^ 63) {rest : Str} (hr : Delim rest) :
    parseNum F (intDec i ++ rest) = some (.int i, rest) := by
  have hspan : ∀ n, spanDigits (natDec n ++ rest) = (natDec n, rest) := fun n =>
    spanDigits_append (natDec_digits n) (fun c hc => (hr c hc).1)
  cases i with
  | ofNat n =>
    have hn : n < 2 ^ 63 := by
      have : ((n : Int)) < 2 ^ 63 := h2
      omega
    have hneg : splitSign (natDec n ++ rest) = (false, natDec n ++ rest) := by
      cases hs : natDec n with
      | nil => exact absurd hs (natDec_ne_nil n)
      | cons c t =>
        have hc := natDec_digits n c (by simp [hs])
        have : c ≠ ch '-' := by intro he; subst he; simp only [isDig] at hc; revert hc; decide
        simp [splitSign, this]
    show parseNum F (natDec n ++ rest) = _
    unfold parseNum
    rw [hneg]
    dsimp only
    rw [hspan]
    dsimp only
    rw [if_neg (natDec_ne_nil n), if_neg (natDec_no_lead n), parseFrac_delim hr]
    simp only [Option.bind_eq_bind, Option.bind_some]
    rw [parseExp_delim hr]
    simp only [Option.bind_some, natDec_val]
    rw [if_pos ⟨trivial, trivial, trivial, by omega⟩]
    rfl
  | negSucc n =>
    have hn : n + 1 ≤ 2 ^ 63 := by
      have : -2 ^ 63 ≤ (Int.negSucc n) := h1
      rw [Int.negSucc_eq] at this
      omega
    show parseNum F (ch '-' :: natDec (n + 1) ++ rest) = _
    unfold parseNum
    rw [List.cons_append, splitSign, if_pos rfl]
    dsimp only
    rw [hspan]
    dsimp only
    rw [if_neg (natDec_ne_nil _), if_neg (natDec_no_lead _), parseFrac_delim hr]
    simp only [Option.bind_eq_bind, Option.bind_some]
    rw [parseExp_delim hr]
    simp only [Option.bind_some, natDec_val]
    rw [if_neg (by simp), if_pos ⟨trivial, trivial, trivial, by omega, hn⟩]
    rfl

/-! ## Number tokens -/

open Spec.JsonText

theorem decimal_eq (d : Str) : decimal d = digitsVal d := by rw [decimal, digitsVal]

theorem dot_not_dig : ¬ isDig (ch '.') := by unfold isDig; decide
theorem e_not_dig : ¬ isDig (ch 'e') ∧ ¬ isDig (ch 'E') ∧ ¬ isDig (ch '+') ∧ ¬ isDig (ch '-') := by unfold isDig; decide

theorem parseExp_complete {x r : Str} (hx : x = [] ∨
    ∃ e g d, (e = ch 'e' ∨ e = ch 'E') ∧ (g = [] ∨ g = lit "+" ∨ g = lit "-") ∧ Digits d ∧ x = e :: (g ++ d)) (hr : Delim r) :
    parseExp (x ++ r) = some (x, r) := by
  have hr' : ∀ c, r.head? = some c → ¬ isDig c := fun c hc => (hr c hc).1
  rcases hx with rfl | ⟨e, g, d, he, hg, ⟨hd, hdd⟩, rfl⟩
  · exact parseExp_delim hr
  · have hsp := spanDigits_append (d := d) (rest := r) hdd hr'
    have hg2 : g = [] ∨ ∃ y, (y = ch '+' ∨ y = ch '-') ∧ g = [y] := by
      rcases hg with rfl | rfl | rfl
      · exact .inl rfl
      · exact .inr ⟨_, .inl rfl, rfl⟩
      · exact .inr ⟨_, .inr rfl, rfl⟩
    rcases hg2 with rfl | ⟨y, hy, rfl⟩
    · cases d with
      | nil => exact absurd rfl hd
      | cons a d =>
        have ha := hdd a (List.mem_cons_self ..)
        have hna : ¬ (a = ch '+' ∨ a = ch '-') := by
          rintro (rfl | rfl)
          · exact e_not_dig.2.2.1 ha
          · exact e_not_dig.2.2.2 ha
        simp only [List.nil_append, List.cons_append, parseExp, if_pos he, if_neg hna]
        rw [List.cons_append] at hsp
        rw [hsp]
        simp
    · simp only [List.cons_append, List.nil_append, parseExp, if_pos he, if_pos hy]
      rw [hsp]
      simp [hd]

theorem exp_head {x r : Str} (hx : x = [] ∨
    ∃ e g d, (e = ch 'e' ∨ e = ch 'E') ∧ (g = [] ∨ g = lit "+" ∨ g = lit "-") ∧ Digits d ∧ x = e :: (g ++ d)) (hr : Delim r) :
    ∀ c, (x ++ r).head? = some c → ¬ isDig c ∧ c ≠ ch '.' := by
  intro c hc
  rcases hx with rfl | ⟨e, g, d, he, -, -, rfl⟩
  · exact ⟨(hr c hc).1, (hr c hc).2.1⟩
  · simp only [List.cons_append, List.head?_cons, Option.some.injEq] at hc
    subst hc
    rcases he with rfl | rfl
    · exact ⟨e_not_dig.1, by decide⟩
    · exact ⟨e_not_dig.2.1, by decide⟩

theorem parseFrac_complete {f r : Str} (hf : f = [] ∨ ∃ d, Digits d ∧ f = ch '.' :: d)
    (hr : ∀ c, r.head? = some c → ¬ isDig c ∧ c ≠ ch '.') : parseFrac (f ++ r) = some (f, r) := by
  rcases hf with rfl | ⟨d, ⟨hd, hdd⟩, rfl⟩
  · cases r with
    | nil => rfl
    | cons c r => rw [List.nil_append, parseFrac, if_neg (hr c rfl).2]
  · have hsp := spanDigits_append (d := d) (rest := r) hdd (fun c hc => (hr c hc).1)
    simp only [List.cons_append, parseFrac, if_true]
    rw [hsp]
    simp [hd]

theorem frac_head {f r : Str} (hf : f = [] ∨ ∃ d, Digits d ∧ f = ch '.' :: d)
    (hr : ∀ c, r.head? = some c → ¬ isDig c ∧ c ≠ ch '.') : ∀ c, (f ++ r).head? = some c → ¬ isDig c := by
  intro c hc
  rcases hf with rfl | ⟨d, -, rfl⟩
  · exact (hr c hc).1
  · simp only [List.cons_append, List.head?_cons, Option.some.injEq] at hc
    subst hc
    exact dot_not_dig

theorem splitSign_complete {sign rest : Str} (hs : sign = [] ∨ sign = lit "-") (hr : ∀ c, rest.head? = some c → isDig c) :
    splitSign (sign ++ rest) = (decide (sign = lit "-"), rest) := by
  rcases hs with rfl | rfl
  · cases rest with
    | nil => rfl
    | cons c r =>
      have : c ≠ ch '-' := by
        rintro rfl
        exact e_not_dig.2.2.2 (hr _ rfl)
      simp only [List.nil_append, splitSign, if_neg this]
      rfl
  · rfl

theorem parseNum_complete (F : Str → Option Str) {t : Str} {v : Value} (h : Num F t v) {r : Str} (hr : Delim r) :
    parseNum F (t ++ r) = some (v, r) := by
  obtain ⟨sign, whole, frac, exp, rfl, ⟨hsign, ⟨⟨hw, hwd⟩, hw0⟩, hfrac, hexp⟩, hv⟩ := h
  have h1 := exp_head (r := r) hexp hr
  have h2 := frac_head hfrac h1
  have hsp := spanDigits_append (d := whole) hwd h2
  have hsg := splitSign_complete (rest := whole ++ (frac ++ (exp ++ r))) hsign (by
    intro c hc
    cases whole with
    | nil => exact absurd rfl hw
    | cons a w => simp only [List.cons_append, List.head?_cons, Option.some.injEq] at hc; subst hc; exact hwd _ (List.mem_cons_self ..))
  unfold parseNum
  rw [show sign ++ whole ++ frac ++ exp ++ r = sign ++ (whole ++ (frac ++ (exp ++ r))) by simp, hsg]
  dsimp only
  rw [hsp]
  dsimp only
  rw [if_neg hw, if_neg (fun hz => by have := hw0 hz.1; subst this; exact absurd hz.2 (by decide)), parseFrac_complete hfrac h1]
  simp only [Option.bind_eq_bind, Option.bind_some, parseExp_complete hexp hr, decide_eq_true_eq, decide_eq_false_iff_not]
  have hl : lit "-" ≠ [] := by decide
  by_cases hfe : frac = [] ∧ exp = []
  · rw [if_pos hfe] at hv
    obtain ⟨rfl, rfl⟩ := hfe
    rcases hsign with rfl | rfl
    · simp only [whole64, if_true, decimal_eq] at hv
      by_cases hn : digitsVal whole < 2 ^ 64
      · rw [if_pos hn] at hv
        dsimp only at hv
        rw [if_pos ⟨rfl, rfl, hl.symm, hn⟩, hv]
      · rw [if_neg hn] at hv
        dsimp only at hv
        obtain ⟨x, hx, rfl⟩ := hv
        rw [if_neg (fun h => hn h.2.2.2), if_neg (fun h => hl h.2.2.1.symm), if_neg hl.symm, hx]
        rfl
    · simp only [whole64, if_neg hl, decimal_eq] at hv
      rw [if_neg (fun h => h.2.2.1 rfl)]
      by_cases h0 : digitsVal whole = 0
      · rw [if_pos h0] at hv
        obtain ⟨x, hx, rfl⟩ := hv
        rw [if_neg (fun h => by omega), if_pos rfl, show [ch '-'] = lit "-" from rfl, hx]
        rfl
      · rw [if_neg h0] at hv
        by_cases hn : digitsVal whole ≤ 2 ^ 63
        · rw [if_pos hn] at hv
          dsimp only at hv
          rw [if_pos ⟨rfl, rfl, rfl, by omega, hn⟩, hv]
        · rw [if_neg hn] at hv
          obtain ⟨x, hx, rfl⟩ := hv
          rw [if_neg (fun h => hn h.2.2.2.2), if_pos rfl, show [ch '-'] = lit "-" from rfl, hx]
          rfl
  · rw [if_neg hfe] at hv
    obtain ⟨x, hx, rfl⟩ := hv
    rw [if_neg (fun h => hfe ⟨h.1, h.2.1⟩), if_neg (fun h => hfe ⟨h.1, h.2.1⟩)]
    have : (if sign = lit "-" then [ch '-'] else []) = sign := by
      rcases hsign with rfl | rfl
      · rw [if_neg hl.symm]
      · rw [if_pos rfl]; rfl
    rw [this, hx]
    rfl

end Json
end Cesride
