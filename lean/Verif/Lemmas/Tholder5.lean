import Verif.Lemmas.Tholder4

/-! # Thresholds: the texts of a threshold -/

namespace Cesride

theorem Matter.exfil_hard {s : Str} {m : Matter} (h : Matter.exfil s = .ok m) :
    ∃ c r hs, s = c :: r ∧ Matter.hardage c = .ok hs ∧ sliceStr s 0 hs = .ok m.code := by
  unfold Matter.exfil at h
  split at h
  · simp at h
  rename_i c r
  refine ⟨c, r, ?_⟩
  obtain ⟨hs, h1, h⟩ := Res.bind_eq_ok.mp h
  split at h
  · simp at h
  obtain ⟨hard, h2, h⟩ := Res.bind_eq_ok.mp h
  refine ⟨hs, rfl, h1, ?_⟩
  rw [h2]
  congr 1
  obtain ⟨szg, _, h⟩ := Res.bind_eq_ok.mp h
  obtain ⟨⟨fs, size⟩, _, h⟩ := Res.bind_eq_ok.mp h
  dsimp only at h
  split at h
  · simp at h
  obtain ⟨_, _, h⟩ := Res.bind_eq_ok.mp h
  obtain ⟨_, _, h⟩ := Res.bind_eq_ok.mp h
  split at h
  · obtain ⟨_, _, h⟩ := Res.bind_eq_ok.mp h
    obtain ⟨_, _, h⟩ := Res.bind_eq_ok.mp h
    split at h
    · simp at h
    · obtain ⟨_, _, h⟩ := Res.bind_eq_ok.mp h
      injection h with h; rw [← h]
  · obtain ⟨_, _, h⟩ := Res.bind_eq_ok.mp h
    obtain ⟨_, _, h⟩ := Res.bind_eq_ok.mp h
    split at h
    · split at h <;> simp at h
    · obtain ⟨_, _, h⟩ := Res.bind_eq_ok.mp h
      injection h with h; rw [← h]

namespace Tholder
open R32

theorem join_eq (sep : UInt8) : ∀ l : List Str, join sep l = Spec.joinWith sep l
  | [] => rfl
  | [s] => by simp [join, Spec.joinWith]
  | s :: t :: rest => by
    have ih := join_eq sep (t :: rest)
    simp only [join] at ih ⊢
    rw [Spec.joinWith, ← ih]
    intro h; cases h

theorem mem_join {sep c : UInt8} : ∀ {l : List Str}, c ∈ join sep l → c = sep ∨ ∃ s ∈ l, c ∈ s
  | [], h => by simp [join] at h
  | [s], h => by right; exact ⟨s, by simp, by simpa [join] using h⟩
  | s :: t :: rest, h => by
    have ih := mem_join (sep := sep) (c := c) (l := t :: rest)
    rw [join] at h
    rcases List.mem_append.mp h with h | h
    · exact .inr ⟨s, by simp, h⟩
    · rcases List.mem_cons.mp h with h | h
      · exact .inl h
      · rcases ih h with h | ⟨x, hx, hc⟩
        · exact .inl h
        · exact .inr ⟨x, by simp [List.mem_cons.mp hx], hc⟩

theorem map_join (f : UInt8 → UInt8) (sep : UInt8) : ∀ l : List Str, (join sep l).map f = join (f sep) (l.map (List.map f))
  | [] => rfl
  | [s] => by simp [join]
  | s :: t :: rest => by
    have ih := map_join f sep (t :: rest)
    simp only [join, List.map_append, List.map_cons] at ih ⊢
    rw [ih]

theorem intDec_nat (n : Nat) : intDec (n : Int) = natDec n := rfl

theorem rep_dec {q : Rat} (h : Small q) : (∃ n : Nat, q.num = n ∧ (rep q).numer = n ∧ n < 2 ^ 31) ∧ (rep q).denom = (q.den : Int) := by
  obtain ⟨h1, h2, h3⟩ := h
  have := num_nonneg h1
  exact ⟨⟨q.num.toNat, by omega, by show q.num = _; omega, by omega⟩, rfl⟩

/-- The characters of a weight text are digits and the separator. -/
theorem weightText_chars {q : Rat} (h : Small q) (sep : UInt8) : ∀ c ∈ weightText sep (rep q), (ch '0' ≤ c ∧ c ≤ ch '9') ∨ c = sep := by
  obtain ⟨⟨n, _, hn, _⟩, hd⟩ := rep_dec h
  intro c hc
  unfold weightText at hc
  rw [hn, hd] at hc
  split at hc
  · exact .inl (Json.natDec_digits n c hc)
  · rcases List.mem_append.mp hc with hc | hc
    · exact .inl (Json.natDec_digits n c hc)
    · rcases List.mem_cons.mp hc with hc | hc
      · exact .inr hc
      · exact .inl (Json.natDec_digits _ c hc)

theorem weightText_head {q : Rat} (h : Small q) (sep : UInt8) : ∃ c r, weightText sep (rep q) = c :: r ∧ ch '0' ≤ c ∧ c ≤ ch '9' := by
  obtain ⟨⟨n, _, hn, _⟩, hd⟩ := rep_dec h
  have hne := Json.natDec_ne_nil n
  obtain ⟨c, r, hcr⟩ : ∃ c r, natDec n = c :: r := by
    cases hx : natDec n with
    | nil => exact absurd hx hne
    | cons c r => exact ⟨c, r, rfl⟩
  have hdig := Json.natDec_digits n c (by simp [hcr])
  unfold weightText
  rw [hn, hd, intDec_nat, intDec_nat, hcr]
  split
  · exact ⟨c, r, rfl, hdig⟩
  · exact ⟨c, _, rfl, hdig⟩

theorem natDec_length : ∀ (k n : Nat), n < 10 ^ (k + 1) → (natDec n).length ≤ k + 1
  | 0, n, h => by rw [Json.natDec_lt (by omega)]; simp
  | k + 1, n, h => by
    by_cases hn : n < 10
    · rw [Json.natDec_lt hn]; simp
    · rw [Json.natDec_ge (by omega)]
      have := natDec_length k (n / 10) (by rw [Nat.div_lt_iff_lt_mul (by decide)]; rw [Nat.pow_succ] at h; exact h)
      simp; omega

theorem weightText_length {q : Rat} (h : Small q) (sep : UInt8) : (weightText sep (rep q)).length ≤ 21 := by
  obtain ⟨⟨n, _, hn, hlt⟩, hd⟩ := rep_dec h
  have h1 := natDec_length 9 n (by omega)
  have h2 := natDec_length 9 q.den (by have := h.2.2; omega)
  unfold weightText
  rw [hn, hd, intDec_nat, intDec_nat]
  split
  · omega
  · simp; omega

theorem join_length {sep : UInt8} {k : Nat} : ∀ {l : List Str}, l ≠ [] → (∀ s ∈ l, s.length ≤ k) → (join sep l).length + 1 ≤ (k + 1) * l.length
  | [], h, _ => absurd rfl h
  | [s], _, h => by have := h s (by simp); simp [join]; omega
  | s :: t :: rest, _, h => by
    have ih := join_length (sep := sep) (l := t :: rest) (by simp) (fun x hx => h x (by simp [List.mem_cons.mp hx]))
    have hs := h s (by simp)
    rw [join]
    simp only [List.length_append, List.length_cons] at ih ⊢
    have e : (k + 1) * (rest.length + 1 + 1) = (k + 1) * (rest.length + 1) + (k + 1) := by rw [Nat.mul_succ]
    omega

/-- The text of a clause. -/
def clauseText (sep : UInt8) (c : List Rat) : Str := join (ch 'c') ((c.map rep).map (weightText sep))

theorem rationalsToBext_eq (cs : List (List Rat)) : rationalsToBext (reps cs) = join (ch 'a') (cs.map (clauseText (ch 's'))) := by
  unfold rationalsToBext reps
  rw [List.map_map]
  rfl

theorem clauseText_chars {c : List Rat} (h : Good c) {sep x : UInt8} (hx : x ∈ clauseText sep c) :
    (ch '0' ≤ x ∧ x ≤ ch '9') ∨ x = sep ∨ x = ch 'c' := by
  rcases mem_join hx with hx | ⟨s, hs, hx⟩
  · exact .inr (.inr hx)
  · simp only [List.map_map, List.mem_map, Function.comp_def] at hs
    obtain ⟨q, hq, rfl⟩ := hs
    rcases weightText_chars (h q hq).2 sep x hx with h | h
    · exact .inl h
    · exact .inr (.inl h)

theorem clauseText_length {c : List Rat} (h : Good c) (hne : c ≠ []) : (clauseText (ch 's') c).length + 1 ≤ 22 * c.length := by
  have := join_length (sep := ch 'c') (k := 21) (l := (c.map rep).map (weightText (ch 's'))) (by simpa using hne) (by
    intro s hs
    simp only [List.map_map, List.mem_map, Function.comp_def] at hs
    obtain ⟨q, hq, rfl⟩ := hs
    exact weightText_length (h q hq).2 _)
  simpa [clauseText] using this

theorem bextText_length : ∀ {cs : List (List Rat)}, cs ≠ [] → (∀ c ∈ cs, Good c ∧ c ≠ []) →
    (rationalsToBext (reps cs)).length + 1 ≤ 22 * Spec.positions cs
  | [], h, _ => absurd rfl h
  | [c], _, h => by
    have := clauseText_length (h c (by simp)).1 (h c (by simp)).2
    rw [rationalsToBext_eq]
    simpa [join, Spec.positions] using this
  | c :: d :: cs, _, h => by
    have ih := bextText_length (cs := d :: cs) (by simp) (fun x hx => h x (by simp [List.mem_cons.mp hx]))
    have h1 := clauseText_length (h c (by simp)).1 (h c (by simp)).2
    rw [rationalsToBext_eq] at ih ⊢
    rw [List.map_cons, List.map_cons, join]
    rw [List.map_cons] at ih
    simp only [Spec.positions, List.map_cons, List.sum_cons, List.length_append, List.length_cons] at ih ⊢
    omega

theorem bextText_b64 {cs : List (List Rat)} (h : ∀ c ∈ cs, Good c) : Spec.IsB64Text (rationalsToBext (reps cs)) := by
  rw [isB64Text_iff]
  have hd : ∀ x : UInt8, (ch '0' ≤ x ∧ x ≤ ch '9') → isB64 x = true :=
    byte_forall (P := fun x => (ch '0' ≤ x ∧ x ≤ ch '9') → isB64 x = true) (by decide +kernel)
  intro x hx
  rw [rationalsToBext_eq] at hx
  rcases mem_join hx with rfl | ⟨s, hs, hx⟩
  · decide +kernel
  · simp only [List.mem_map] at hs
    obtain ⟨c, hc, rfl⟩ := hs
    rcases clauseText_chars (h c hc) hx with hx | rfl | rfl
    · exact hd x hx
    · decide +kernel
    · decide +kernel

theorem bextText_head {cs : List (List Rat)} (hne : cs ≠ []) (h : ∀ c ∈ cs, Good c ∧ c ≠ []) : (rationalsToBext (reps cs)).head? ≠ some (ch 'A') := by
  cases cs with
  | nil => exact absurd rfl hne
  | cons c cs =>
    obtain ⟨hg, hc⟩ := h c (by simp)
    cases c with
    | nil => exact absurd rfl hc
    | cons q c =>
      obtain ⟨x, r, hx, h1, h2⟩ := weightText_head (hg q (by simp)).2 (ch 's')
      have hxA := (digit_not ⟨h1, h2⟩).2.2.2.2.2.2
      rw [rationalsToBext_eq]
      simp only [List.map_cons, clauseText, join, hx, List.cons_append, List.head?_cons]
      simpa using hxA

/-- The replacement of 278-279. -/
theorem weightText_slash {q : Rat} (h : Small q) :
    (weightText (ch 's') (rep q)).map (fun c => if c = ch 's' then ch '/' else c) = weightText (ch '/') (rep q) := by
  obtain ⟨⟨n, _, hn, _⟩, hd⟩ := rep_dec h
  have hk : ∀ m : Nat, (natDec m).map (fun c => if c = ch 's' then ch '/' else c) = natDec m := by
    intro m
    have : ∀ s : Str, (∀ c ∈ s, c ≠ ch 's') → s.map (fun c => if c = ch 's' then ch '/' else c) = s := by
      intro s
      induction s with
      | nil => intro _; rfl
      | cons c s ih => intro h; rw [List.map_cons, ih (fun x hx => h x (by simp [hx])), if_neg (h c (by simp))]
    exact this _ (fun c hc => (digit_not (Json.natDec_digits m c hc)).2.2.2.1)
  unfold weightText
  rw [hn, hd, intDec_nat, intDec_nat]
  split
  · exact hk n
  · rw [List.map_append, List.map_cons, hk, hk]; rfl

theorem bextValue_stored {cs : List (List Rat)} (hne : cs ≠ []) (h : ∀ c ∈ cs, Good c ∧ c ≠ []) :
    bextValue (rationalsToBext (reps cs)) = storedValue (reps cs) := by
  have hcl : ∀ c ∈ cs, (clauseText (ch 's') c).map (fun c => if c = ch 's' then ch '/' else c) = clauseText (ch '/') c := by
    intro c hc
    rw [clauseText, map_join]
    have : (if ch 'c' = ch 's' then ch '/' else ch 'c') = ch 'c' := by decide
    rw [this, clauseText, List.map_map, List.map_map, List.map_map]
    congr 1
    apply List.map_congr_left
    intro q hq
    exact weightText_slash ((h c hc).1 q hq).2
  unfold bextValue
  rw [rationalsToBext_eq, map_join]
  have : (if ch 'a' = ch 's' then ch '/' else ch 'a') = ch 'a' := by decide
  rw [this, List.map_map, join_eq, splitOn_join]
  · rw [List.map_map]
    unfold storedValue reps
    rw [List.map_map]
    congr 1
    apply List.map_congr_left
    intro c hc
    simp only [Function.comp]
    rw [hcl c hc, clauseText, join_eq, splitOn_join]
    · rw [List.map_map, List.map_map, List.map_map]; rfl
    · simpa using (h c hc).2
    · intro s hs
      simp only [List.map_map, List.mem_map, Function.comp_def] at hs
      obtain ⟨q, hq, rfl⟩ := hs
      intro hx
      rcases weightText_chars ((h c hc).1 q hq).2 _ _ hx with hx | hx
      · exact (digit_not hx).2.2.2.2.1 rfl
      · exact absurd hx (by decide)
  · simpa using hne
  · intro s hs
    simp only [List.mem_map, Function.comp] at hs
    obtain ⟨c, hc, rfl⟩ := hs
    rw [hcl c hc]
    intro hx
    rcases clauseText_chars (h c hc).1 hx with hx | hx | hx
    · exact (digit_not hx).2.2.2.2.2.1 rfl
    · exact absurd hx (by decide)
    · exact absurd hx (by decide)

/-- A Base64 text that is too long for any variable-size code, but shorter than `2^32`, is refused. -/
theorem ofBext_too_long (E : Env) {t : Str} (ht : Spec.IsB64Text t) (h1 : 4 * (64 ^ 4 - 1) < t.length) (h2 : t.length < 2 ^ 32) :
    Bexter.ofBext E (lit "4A") t = .err .invalidVarRawSize := by
  obtain ⟨z, hz, hf, hlast⟩ := bextCodes_row (lit "4A") (by decide +kernel)
  obtain ⟨raw, ls, ws, hr, hls, hrl, hcase, henc⟩ := rawify_spec ht
  obtain ⟨f, hf1, hs, hb, hnew⟩ := Matter.new_var hz hf (raw := raw) (by omega)
  have hquad : Matter.quadlets raw.length = (t.length + 3) / 4 := by
    have hlead : Matter.leadSize raw.length = ls := by unfold Matter.leadSize; omega
    have := Matter.quad_lead raw.length; omega
  show (do let m ← (if Bexter.reB64 t = false then .err .value
                      else do let raw ← Bexter.rawify t; Matter.new E (some (lit "4A")) (some raw) none none none : Res Matter)
           if Bexter.hasCode m.code then .ok m else .err .unexpectedCode) = _
  rw [(reB64_iff t).mpr ht, hr, if_neg (by simp), Res.ok_bind]
  show (do let m ← Matter.newWithCodeAndRaw (lit "4A") raw
           if Bexter.hasCode m.code then .ok m else .err .unexpectedCode) = _
  rw [hnew, hquad, if_neg (by omega), if_neg (by omega)]
  rfl

theorem i64FromHex_hexStr {n : Nat} (h : n < 2 ^ 63) : i64FromHex (hexStr n) = .ok (n : Int) := by
  have hc := hexStr_canonical n
  obtain ⟨sign, digits, ds, h1, h2, h3, h4, h5⟩ := hexNumeral_of_canonical hc
  have hnot : ∀ c ∈ hexStr n, c ≠ ch '+' ∧ c ≠ ch '-' := by
    intro c hx
    have := hc.2.1 c hx
    have hall : ∀ c ∈ Spec.lowerHex, c ≠ ch '+' ∧ c ≠ ch '-' := by decide +kernel
    exact hall c this
  have hs : sign = [] := by
    rcases h2 with h2 | h2
    · exact h2
    · exact absurd rfl (hnot (ch '+') (by rw [h1, h2]; simp [lit, ch])).1
  subst hs
  rw [List.nil_append] at h1
  have hp : i64FromHex.pos (hexStr n) = .ok (n : Int) := by
    unfold i64FromHex.pos
    rw [if_neg hc.1, h1, hexLoop_spec 0 h4 (by omega), h5, if_pos (by omega)]
  cases hx : hexStr n with
  | nil => exact absurd hx hc.1
  | cons c r =>
    have := hnot c (by simp [hx])
    rw [hx] at hp
    rw [i64FromHex, if_neg this.1, if_neg this.2]
    exact hp

end Tholder
end Cesride
