import Verif.Lemmas.Sizeify
import Verif.Lemmas.Matter6

/-! # UTF-8 validity of concatenations and of JSON texts -/

namespace Cesride

theorem utf8_cons {c : UInt8} (h : c < 0x80) (x : Str) : utf8Valid (c :: x) = utf8Valid x := by
  conv => lhs; unfold utf8Valid
  rw [if_pos h]

/-- The first character of a non-empty text: its bytes, such that validity of the rest is what remains. -/
theorem utf8_step {a : UInt8} {r : Str} (h : utf8Valid (a :: r) = true) :
    ∃ p q, a :: r = p ++ q ∧ p ≠ [] ∧ utf8Valid q = true ∧ (∀ x, utf8Valid (p ++ x) = utf8Valid x) ∧ (∀ c ∈ p, c < 0x80 → p = [c]) := by
  have ge : ∀ b : UInt8, isCont b = true → ¬ b < 0x80 := byte_forall (P := fun b => isCont b = true → ¬ b < 0x80) (by decide +kernel)
  unfold utf8Valid at h
  split at h
  · rename_i ha
    refine ⟨[a], r, rfl, by simp, h, ?_, by simp⟩
    intro x
    exact utf8_cons ha x
  · rename_i ha
    split at h
    · rename_i hb
      split at h
      · rename_i b r'
        rw [Bool.and_eq_true] at h
        refine ⟨[a, b], r', rfl, by simp, h.2, ?_, ?_⟩
        · intro x
          show utf8Valid (a :: b :: x) = _
          conv => lhs; unfold utf8Valid
          rw [if_neg ha, if_pos hb]
          simp [h.1]
        · intro c hc hlt
          simp only [List.mem_cons, List.not_mem_nil, or_false] at hc
          rcases hc with rfl | rfl
          · exact absurd hlt ha
          · exact absurd hlt (ge _ h.1)
      · cases h
    · rename_i hb
      split at h
      · rename_i hc
        split at h
        · rename_i b c r'
          simp only [Bool.and_eq_true] at h
          refine ⟨[a, b, c], r', rfl, by simp, h.2, ?_, ?_⟩
          · intro x
            show utf8Valid (a :: b :: c :: x) = _
            conv => lhs; unfold utf8Valid
            rw [if_neg ha, if_neg hb, if_pos hc]
            dsimp only
            rw [h.1.1, h.1.2]
            simp
          · intro d hd hlt
            simp only [List.mem_cons, List.not_mem_nil, or_false] at hd
            have hbb : ¬ b < 0x80 := by
              have h1 := h.1.1
              split at h1
              · have : ∀ b : UInt8, (0xA0 ≤ b && b ≤ 0xBF) = true → ¬ b < 0x80 := byte_forall (P := fun b => (0xA0 ≤ b && b ≤ 0xBF) = true → ¬ b < 0x80) (by decide +kernel)
                exact this b h1
              · split at h1
                · have : ∀ b : UInt8, (0x80 ≤ b && b ≤ 0x9F) = true → ¬ b < 0x80 := byte_forall (P := fun b => (0x80 ≤ b && b ≤ 0x9F) = true → ¬ b < 0x80) (by decide +kernel)
                  exact this b h1
                · exact ge _ h1
            rcases hd with rfl | rfl | rfl
            · exact absurd hlt ha
            · exact absurd hlt hbb
            · exact absurd hlt (ge _ h.1.2)
        · cases h
      · rename_i hc
        split at h
        · rename_i hd
          split at h
          · rename_i b c d r'
            simp only [Bool.and_eq_true] at h
            refine ⟨[a, b, c, d], r', rfl, by simp, h.2, ?_, ?_⟩
            · intro x
              show utf8Valid (a :: b :: c :: d :: x) = _
              conv => lhs; unfold utf8Valid
              rw [if_neg ha, if_neg hb, if_neg hc, if_pos hd]
              dsimp only
              rw [h.1.1.1, h.1.1.2, h.1.2]
              simp
            · intro e he hlt
              simp only [List.mem_cons, List.not_mem_nil, or_false] at he
              have hbb : ¬ b < 0x80 := by
                have h1 := h.1.1.1
                split at h1
                · have : ∀ b : UInt8, (0x90 ≤ b && b ≤ 0xBF) = true → ¬ b < 0x80 := byte_forall (P := fun b => (0x90 ≤ b && b ≤ 0xBF) = true → ¬ b < 0x80) (by decide +kernel)
                  exact this b h1
                · split at h1
                  · have : ∀ b : UInt8, (0x80 ≤ b && b ≤ 0x8F) = true → ¬ b < 0x80 := byte_forall (P := fun b => (0x80 ≤ b && b ≤ 0x8F) = true → ¬ b < 0x80) (by decide +kernel)
                    exact this b h1
                  · exact ge _ h1
              rcases he with rfl | rfl | rfl | rfl
              · exact absurd hlt ha
              · exact absurd hlt hbb
              · exact absurd hlt (ge _ h.1.1.2)
              · exact absurd hlt (ge _ h.1.2)
          · cases h
        · cases h

/-- Appending to a valid text. -/
theorem utf8Valid_append {a : Str} (h : utf8Valid a = true) (b : Str) : utf8Valid (a ++ b) = utf8Valid b := by
  generalize hn : a.length = n
  induction n using Nat.strongRecOn generalizing a with
  | _ n ih =>
    cases a with
    | nil => rfl
    | cons c r =>
      obtain ⟨p, q, e, hp, hq, hx, _⟩ := utf8_step h
      rw [e, List.append_assoc, hx]
      have : 0 < p.length := List.length_pos_iff.mpr hp
      have hl := congrArg List.length e
      rw [List.length_append] at hl
      exact ih q.length (by omega) hq rfl

/-- A valid text splits at an ASCII character into valid texts. -/
theorem utf8Valid_split {a b : Str} {c : UInt8} (h : utf8Valid (a ++ c :: b) = true) (hc : c < 0x80) : utf8Valid a = true ∧ utf8Valid b = true := by
  generalize hn : a.length = n
  induction n using Nat.strongRecOn generalizing a with
  | _ n ih =>
    cases a with
    | nil =>
      rw [List.nil_append, utf8_cons hc] at h
      exact ⟨rfl, h⟩
    | cons d r =>
      rw [List.cons_append] at h
      obtain ⟨p, q, e, hp, hq, hx, hasc⟩ := utf8_step h
      have hpl : 0 < p.length := List.length_pos_iff.mpr hp
      rw [← List.cons_append] at e
      rcases List.append_eq_append_iff.mp e with ⟨s, hs1, hs2⟩ | ⟨s, hs1, hs2⟩
      · -- `p = (d :: r) ++ s`
        cases s with
        | nil =>
          rw [List.append_nil] at hs1
          rw [List.nil_append] at hs2
          have hv : utf8Valid (d :: r) = true := by
            have := hx []
            rw [List.append_nil] at this
            rw [← hs1, this]; rfl
          refine ⟨hv, ?_⟩
          rw [← hs2, utf8_cons hc] at hq
          exact hq
        | cons s0 s =>
          rw [List.cons_append] at hs2
          injection hs2 with e1 e2
          subst e1
          have hm : c ∈ p := by rw [hs1]; simp
          have := hasc c hm hc
          rw [hs1] at this
          simp at this
      · -- `d :: r = p ++ s`
        rw [hs2] at hq
        have hl := congrArg List.length hs1
        rw [List.length_append] at hl
        obtain ⟨h1, h2⟩ := ih s.length (by omega) hq rfl
        refine ⟨?_, h2⟩
        rw [hs1, hx]
        exact h1

theorem escape_ascii : ∀ c : UInt8, c < 0x80 → ∀ b ∈ escapeByte c, b < 0x80 :=
  byte_forall (P := fun c => c < 0x80 → ∀ b ∈ escapeByte c, b < 0x80) (by decide +kernel)
theorem escape_high : ∀ c : UInt8, ¬ c < 0x80 → escapeByte c = [c] :=
  byte_forall (P := fun c => ¬ c < 0x80 → escapeByte c = [c]) (by decide +kernel)

theorem flatMap_escape_high {p : Str} (h : ∀ c ∈ p, ¬ c < 0x80) : p.flatMap escapeByte = p := by
  induction p with
  | nil => rfl
  | cons c p ih => rw [List.flatMap_cons, escape_high c (h c (by simp)), ih (fun c hc => h c (by simp [hc]))]; rfl

theorem utf8_lt_ascii {a : Str} (h : ∀ c ∈ a, c < 0x80) : Ascii a := by
  intro c hc
  exact h c hc

theorem utf8_escape {s : Str} (h : utf8Valid s = true) (x : Str) : utf8Valid (s.flatMap escapeByte ++ x) = utf8Valid x := by
  generalize hn : s.length = n
  induction n using Nat.strongRecOn generalizing s with
  | _ n ih =>
    cases s with
    | nil => rfl
    | cons c r =>
      obtain ⟨p, q, e, hp, hq, hx, hasc⟩ := utf8_step h
      have : 0 < p.length := List.length_pos_iff.mpr hp
      have hl := congrArg List.length e
      rw [List.length_append] at hl
      rw [e, List.flatMap_append, List.append_assoc]
      have hrest := ih q.length (by omega) hq rfl
      by_cases hp1 : ∃ d ∈ p, d < 0x80
      · obtain ⟨d, hd, hlt⟩ := hp1
        have := hasc d hd hlt
        subst this
        rw [List.flatMap_cons, List.flatMap_nil, List.append_nil, utf8Valid_ascii_append (utf8_lt_ascii (escape_ascii d hlt)), hrest]
      · rw [flatMap_escape_high (fun c hc hlt => hp1 ⟨c, hc, hlt⟩), hx, hrest]

theorem utf8_jsonStr {s : Str} (h : utf8Valid s = true) (x : Str) : utf8Valid (jsonStr s ++ x) = utf8Valid x := by
  rw [jsonStr, List.cons_append, utf8_cons (by decide), List.append_assoc, utf8_escape h, List.singleton_append, utf8_cons (by decide)]

theorem intDec_ascii (i : Int) : Ascii (intDec i) := by
  have hd : ∀ n, ∀ c ∈ natDec n, c < 0x80 := by
    intro n c hc
    have := Json.natDec_digits n c hc
    have key : ∀ c : UInt8, Json.isDig c → c < 0x80 := byte_forall (P := fun c => Json.isDig c → c < 0x80) (by unfold Json.isDig; decide +kernel)
    exact key c this
  cases i with
  | ofNat n => exact utf8_lt_ascii (hd n)
  | negSucc n =>
    apply utf8_lt_ascii
    intro c hc
    rw [intDec, List.mem_cons] at hc
    rcases hc with rfl | hc
    · decide
    · exact hd _ c hc

mutual
theorem utf8_toJson : ∀ (v : Value), Spec.Utf8Value v → ∀ x, utf8Valid (v.toJson ++ x) = utf8Valid x
  | .null, _, x => utf8Valid_ascii_append (a := lit "null") (utf8_lt_ascii (by decide +kernel))
  | .bool true, _, x => utf8Valid_ascii_append (a := lit "true") (utf8_lt_ascii (by decide +kernel))
  | .bool false, _, x => utf8Valid_ascii_append (a := lit "false") (utf8_lt_ascii (by decide +kernel))
  | .int i, _, x => utf8Valid_ascii_append (intDec_ascii i)
  | .float t, h, x => by
    rw [Value.toJson]
    exact utf8Valid_append (by simpa [Spec.Utf8Value] using h) x
  | .str s, h, x => by
    rw [Value.toJson]
    exact utf8_jsonStr (by simpa [Spec.Utf8Value] using h) x
  | .arr a, h, x => by
    rw [Value.toJson, List.cons_append, utf8_cons (by decide), List.append_assoc, utf8_elems a (by simpa [Spec.Utf8Value] using h), List.singleton_append, utf8_cons (by decide)]
  | .obj o, h, x => by
    rw [Value.toJson, List.cons_append, utf8_cons (by decide), List.append_assoc, utf8_fields o (by simpa [Spec.Utf8Value] using h), List.singleton_append, utf8_cons (by decide)]
theorem utf8_elems : ∀ (a : List Value), Spec.Utf8Elems a → ∀ x, utf8Valid (elemsJson a ++ x) = utf8Valid x
  | [], _, x => rfl
  | [v], h, x => by
    rw [elemsJson, List.append_nil]
    exact utf8_toJson v h.1 x
  | v :: w :: a, h, x => by
    rw [elemsJson, List.append_assoc, utf8_toJson v h.1, List.cons_append, utf8_cons (by decide)]
    exact utf8_elems (w :: a) h.2 x
theorem utf8_fields : ∀ (o : List (Str × Value)), Spec.Utf8Fields o → ∀ x, utf8Valid (fieldsJson o ++ x) = utf8Valid x
  | [], _, x => rfl
  | [(k, v)], h, x => by
    rw [fieldsJson, List.append_nil, List.append_assoc, utf8_jsonStr h.1, List.cons_append, utf8_cons (by decide)]
    exact utf8_toJson v h.2.1 x
  | (k, v) :: e :: o, h, x => by
    rw [fieldsJson, List.append_assoc, utf8_jsonStr h.1, List.cons_append, utf8_cons (by decide), List.append_assoc, utf8_toJson v h.2.1, List.cons_append, utf8_cons (by decide)]
    exact utf8_fields (e :: o) h.2.2 x
end

end Cesride
