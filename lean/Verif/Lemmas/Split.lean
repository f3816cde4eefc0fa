import Verif.Model.Counter
import Verif.Spec.Counted
import Verif.Lemmas.B64

/-! # Splitting and joining, decimal numerals -/

namespace Cesride

theorem splitOn_ne_nil (c : UInt8) (s : Str) : splitOn c s ≠ [] := by
  induction s with
  | nil => simp [splitOn]
  | cons x xs ih =>
    unfold splitOn
    split
    · simp
    · split <;> simp

theorem join_splitOn (c : UInt8) (s : Str) : Spec.joinWith c (splitOn c s) = s := by
  induction s with
  | nil => rfl
  | cons x xs ih =>
    unfold splitOn
    split
    · rename_i h
      subst h
      match hs : splitOn x xs, splitOn_ne_nil x xs with
      | p :: ps, _ => rw [hs] at ih; simp [Spec.joinWith, ih]
    · match hs : splitOn c xs, splitOn_ne_nil c xs with
      | [p], _ => rw [hs] at ih; simp only [Spec.joinWith] at ih ⊢; rw [ih]
      | p :: q :: ps, _ => rw [hs] at ih; simp only [Spec.joinWith] at ih ⊢; rw [← ih]; rfl

theorem splitOn_no_sep (c : UInt8) (s : Str) : ∀ p ∈ splitOn c s, c ∉ p := by
  induction s with
  | nil => simp [splitOn]
  | cons x xs ih =>
    unfold splitOn
    split
    · intro p hp
      rcases List.mem_cons.mp hp with h | h
      · subst h; simp
      · exact ih p h
    · rename_i hx
      match hs : splitOn c xs, splitOn_ne_nil c xs with
      | q :: ps, _ =>
        rw [hs] at ih
        intro p hp
        rcases List.mem_cons.mp hp with h | h
        · subst h
          intro hc
          rcases List.mem_cons.mp hc with h | h
          · exact hx h.symm
          · exact ih q (by simp) h
        · exact ih p (by simp [h])

theorem splitOn_cons_sep (c : UInt8) (s t : Str) (h : c ∉ s) : splitOn c (s ++ c :: t) = s :: splitOn c t := by
  induction s with
  | nil => simp [splitOn]
  | cons x xs ih =>
    have hx : x ≠ c := by intro he; subst he; exact h (by simp)
    have := ih (by intro hc; exact h (by simp [hc]))
    simp only [List.cons_append]
    rw [splitOn, if_neg hx, this]

theorem splitOn_self (c : UInt8) (s : Str) (h : c ∉ s) : splitOn c s = [s] := by
  induction s with
  | nil => rfl
  | cons x xs ih =>
    have hx : x ≠ c := by intro he; subst he; exact h (by simp)
    rw [splitOn, if_neg hx, ih (by intro hc; exact h (by simp [hc]))]

theorem splitOn_join (c : UInt8) : ∀ {l : List Str}, l ≠ [] → (∀ s ∈ l, c ∉ s) → splitOn c (Spec.joinWith c l) = l
  | [], h, _ => absurd rfl h
  | [s], _, h => splitOn_self c s (h s (by simp))
  | s :: t :: rest, _, h => by
    rw [Spec.joinWith]
    · rw [splitOn_cons_sep c _ _ (h s (by simp)), splitOn_join c (by simp) (fun p hp => h p (by simp [hp]))]
    · simp

/-! ## decimal numerals -/

theorem decDigit_some {c : UInt8} (h : ch '0' ≤ c ∧ c ≤ ch '9') : decDigit c = some (c.toNat - 48) := by
  simp [decDigit, h]

theorem foldl_dec_ge (s : Str) (a : Nat) : a ≤ s.foldl (fun a c => a * 10 + (c.toNat - 48)) a := by
  induction s generalizing a with
  | nil => exact Nat.le_refl _
  | cons c s ih => exact Nat.le_trans (by omega) (ih (a * 10 + (c.toNat - 48)))

theorem decLoop_eq (max : Nat) (s : Str) (acc n : Nat) (hacc : acc ≤ max) :
    decLoop max acc s = some n ↔ Spec.IsDigits s ∧ s.foldl (fun a c => a * 10 + (c.toNat - 48)) acc = n ∧ n ≤ max := by
  induction s generalizing acc with
  | nil =>
    simp only [decLoop, List.foldl_nil, Option.some.injEq, Spec.IsDigits]
    constructor
    · intro h; subst h; simp [hacc]
    · intro h; exact h.2.1
  | cons c s ih =>
    rw [decLoop]
    by_cases hc : ch '0' ≤ c ∧ c ≤ ch '9'
    · simp only [decDigit_some hc, List.foldl_cons]
      by_cases hm : max < acc * 10 + (c.toNat - 48)
      · rw [if_pos hm]
        simp only [reduceCtorEq, false_iff]
        rintro ⟨_, h2, h3⟩
        have := foldl_dec_ge s (acc * 10 + (c.toNat - 48))
        omega
      · rw [if_neg hm, ih _ (by omega)]
        constructor
        · rintro ⟨h1, h2⟩
          exact ⟨by intro d hd; rcases List.mem_cons.mp hd with h | h; (· subst h; exact hc); exact h1 d h, h2⟩
        · rintro ⟨h1, h2⟩
          exact ⟨fun d hd => h1 d (by simp [hd]), h2⟩
    · have : decDigit c = none := by simp only [decDigit, if_neg hc]
      simp only [this, reduceCtorEq, false_iff]
      rintro ⟨h, _⟩
      exact hc (h c (by simp))

theorem decLoop_zero (max : Nat) (s : Str) (n : Nat) :
    decLoop max 0 s = some n ↔ Spec.IsDigits s ∧ Spec.decNum s = n ∧ n ≤ max := decLoop_eq max s 0 n (Nat.zero_le _)

namespace Counter

/-- One component: what is accepted, up to the range of `i8`. -/
theorem semVerPart_ok (s : Str) (n : Nat) : semVerPart s = .ok n ↔ Spec.IsComponent s n ∧ n ≤ 127 := by
  have hplus : ¬ (ch '0' ≤ ch '+' ∧ ch '+' ≤ ch '9') := by decide
  have hminus : ¬ (ch '0' ≤ ch '-' ∧ ch '-' ≤ ch '9') := by decide
  unfold semVerPart Spec.IsComponent
  cases s with
  | nil =>
    simp only [parseI8, if_true]
    constructor
    · intro h; injection h with h; subst h; simp
    · rintro ⟨(⟨_, h⟩ | ⟨sg, d, h1, h2, _⟩), _⟩
      · rw [h]
      · have := congrArg List.length h1
        simp only [List.length_nil, List.length_append] at this
        have : d = [] := List.eq_nil_of_length_eq_zero (by omega)
        exact absurd this h2
  | cons c rest =>
    simp only [parseI8, reduceCtorEq, false_and, false_or, if_false]
    by_cases hp : c = ch '+'
    · subst hp
      simp only [if_true]
      constructor
      · intro h
        by_cases hr : rest = []
        · simp [hr] at h
        · rw [if_neg hr] at h
          cases hd : decLoop 127 0 rest with
          | none => simp [hd] at h
          | some m =>
            simp [hd] at h
            subst h
            obtain ⟨h1, h2, h3⟩ := (decLoop_zero _ _ _).mp hd
            exact ⟨⟨lit "+", rest, rfl, hr, h1, h2, .inr (.inl rfl)⟩, h3⟩
      · rintro ⟨⟨sg, d, h1, h2, h3, h4, hs⟩, hn⟩
        rcases hs with hs | hs | ⟨hs, _⟩
        · subst hs
          rw [List.nil_append] at h1
          exact absurd (h3 (ch '+') (by rw [← h1]; simp)) hplus
        · subst hs
          have : rest = d := by simpa [lit, ch] using h1
          subst this
          rw [if_neg h2, (decLoop_zero 127 rest n).mpr ⟨h3, h4, hn⟩]
          simp
        · subst hs
          rw [show lit "-" = [ch '-'] by rfl] at h1
          have := (List.cons.inj h1).1
          exact absurd this (by decide)
    · rw [if_neg hp]
      by_cases hm : c = ch '-'
      · subst hm
        simp only [if_true]
        constructor
        · intro h
          by_cases hr : rest = []
          · simp [hr] at h
          · rw [if_neg hr] at h
            cases hd : decLoop 128 0 rest with
            | none => simp [hd] at h
            | some m =>
              simp [hd] at h
              obtain ⟨h1, h2, h3⟩ := (decLoop_zero _ _ _).mp hd
              by_cases hm0 : 0 < m
              · simp [hm0] at h
              · simp [hm0] at h
                subst h
                exact ⟨⟨lit "-", rest, rfl, hr, h1, h2, .inr (.inr ⟨rfl, by omega⟩)⟩, by omega⟩
        · rintro ⟨⟨sg, d, h1, h2, h3, h4, hs⟩, hn⟩
          rcases hs with hs | hs | ⟨hs, hz⟩
          · subst hs
            rw [List.nil_append] at h1
            exact absurd (h3 (ch '-') (by rw [← h1]; simp)) hminus
          · subst hs
            rw [show lit "+" = [ch '+'] by rfl] at h1
            have := (List.cons.inj h1).1
            exact absurd this (by decide)
          · subst hs
            have : rest = d := by simpa [lit, ch] using h1
            subst this
            rw [if_neg h2, (decLoop_zero 128 rest n).mpr ⟨h3, h4, by omega⟩]
            simp [hz]
      · rw [if_neg hm]
        constructor
        · intro h
          cases hd : decLoop 127 0 (c :: rest) with
          | none => simp [hd] at h
          | some m =>
            simp [hd] at h
            subst h
            obtain ⟨h1, h2, h3⟩ := (decLoop_zero _ _ _).mp hd
            exact ⟨⟨[], c :: rest, rfl, by simp, h1, h2, .inl rfl⟩, h3⟩
        · rintro ⟨⟨sg, d, h1, h2, h3, h4, hs⟩, hn⟩
          rcases hs with hs | hs | ⟨hs, _⟩
          · subst hs
            rw [List.nil_append] at h1
            subst h1
            rw [(decLoop_zero 127 _ n).mpr ⟨h3, h4, hn⟩]
            simp
          · subst hs
            rw [show lit "+" = [ch '+'] by rfl] at h1
            exact absurd (List.cons.inj h1).1 hp
          · subst hs
            rw [show lit "-" = [ch '-'] by rfl] at h1
            exact absurd (List.cons.inj h1).1 hm

theorem semVerPart_ne_panic (s : Str) : semVerPart s ≠ .panic := by
  unfold semVerPart
  split
  · split <;> simp
  · split <;> simp

theorem semVerParts_ok (l : List Str) (ns : List Nat) :
    semVerParts l = .ok ns ↔ Spec.Components l ns ∧ ∀ n ∈ ns, n ≤ 127 := by
  induction l generalizing ns with
  | nil =>
    simp only [semVerParts]
    constructor
    · intro h; injection h with h; subst h; simp [Spec.Components]
    · intro h
      cases ns with
      | nil => rfl
      | cons a b => simp [Spec.Components] at h
  | cons s l ih =>
    simp only [semVerParts]
    constructor
    · intro h
      obtain ⟨n, h1, h⟩ := Res.bind_eq_ok.mp h
      obtain ⟨ms, h2, h⟩ := Res.bind_eq_ok.mp h
      injection h with h
      subst h
      obtain ⟨h3, h4⟩ := (semVerPart_ok _ _).mp h1
      obtain ⟨h5, h6⟩ := (ih _).mp h2
      exact ⟨⟨h3, h5⟩, by intro m hm; rcases List.mem_cons.mp hm with h | h; (· subst h; exact h4); exact h6 m h⟩
    · rintro ⟨h1, h2⟩
      cases ns with
      | nil => simp [Spec.Components] at h1
      | cons n ms =>
        rw [(semVerPart_ok s n).mpr ⟨h1.1, h2 n (by simp)⟩, Res.ok_bind, (ih ms).mpr ⟨h1.2, fun m hm => h2 m (by simp [hm])⟩]
        rfl

theorem semVerParts_ne_panic (l : List Str) : semVerParts l ≠ .panic := by
  induction l with
  | nil => simp [semVerParts]
  | cons s l ih =>
    simp only [semVerParts]
    intro h
    rcases Res.bind_eq_panic.mp h with h | ⟨n, _, h⟩
    · exact semVerPart_ne_panic s h
    rcases Res.bind_eq_panic.mp h with h | ⟨n, _, h⟩
    · exact ih h
    · cases h

theorem semVerGo_eq (E : Env) {ns : List Nat} (h : ∀ n ∈ ns, n ≤ 63) : semVerPartsToB64.go E ns = .ok (encD ns) := by
  induction ns with
  | nil => rfl
  | cons n ns ih =>
    have hn := h n (by simp)
    simp only [semVerPartsToB64.go]
    rw [uintToB64_eq E (len := 1) (by omega) (by omega), ih (fun m hm => h m (by simp [hm]))]
    simp only [Res.ok_bind, digitsB, List.nil_append, Nat.mod_eq_of_lt (show n < 64 by omega)]
    rfl

theorem semVerPartsToB64_eq (E : Env) (ns : List Nat) :
    semVerPartsToB64 E ns = if ∀ n ∈ ns, n ≤ 63 then .ok (encD ns) else .err .parsing := by
  unfold semVerPartsToB64
  by_cases h : ∀ n ∈ ns, n ≤ 63
  · rw [if_pos h, if_neg, semVerGo_eq E h]
    simp only [List.any_eq_true, decide_eq_true_eq, not_exists, not_and]
    intro n hn
    have := h n hn
    omega
  · rw [if_neg h, if_pos]
    simp only [List.any_eq_true, decide_eq_true_eq]
    apply Classical.byContradiction
    intro hno
    apply h
    intro n hn
    apply Classical.byContradiction
    intro h63
    exact hno ⟨n, hn, by omega⟩

end Counter
end Cesride
