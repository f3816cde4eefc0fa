import Verif.Model.Common
import Verif.Lemmas.Json
import Verif.Lemmas.Prims
import Verif.Spec.Version

/-! # Lemmas about version strings -/

namespace Cesride.Common
open Cesride Spec

/-! ## Matching -/

theorem isUpper_iff (c : UInt8) : isUpper c = true ↔ c ∈ upperCase :=
  byte_forall (P := fun c => isUpper c = true ↔ c ∈ upperCase) (by decide +kernel) c

theorem isLowHex_iff (c : UInt8) : isLowHex c = true ↔ c ∈ lowerHex :=
  byte_forall (P := fun c => isLowHex c = true ↔ c ∈ lowerHex) (by decide +kernel) c

theorem matchHere_append : ∀ (ps qs : List (UInt8 → Bool)) (s : Str),
    matchHere (ps ++ qs) s = true ↔ matchHere ps s = true ∧ matchHere qs (s.drop ps.length) = true
  | [], qs, s => by simp [matchHere]
  | p :: ps, qs, [] => by simp [matchHere]
  | p :: ps, qs, c :: s => by simp [matchHere, matchHere_append ps qs s, and_assoc]

theorem matchHere_replicate (p : UInt8 → Bool) : ∀ (n : Nat) (s : Str),
    matchHere (List.replicate n p) s = true ↔ (s.take n).length = n ∧ ∀ c ∈ s.take n, p c = true
  | 0, s => by simp [matchHere]
  | n + 1, [] => by simp [matchHere, List.replicate_succ]
  | n + 1, c :: s => by
    simp only [List.replicate_succ, matchHere, Bool.and_eq_true, matchHere_replicate p n s, List.take_succ_cons, List.length_cons,
      Nat.add_right_cancel_iff, List.mem_cons, forall_eq_or_imp]
    constructor
    · rintro ⟨a, b, c⟩; exact ⟨b, a, c⟩
    · rintro ⟨b, a, c⟩; exact ⟨a, b, c⟩

theorem rever_length : rever.length = 17 := rfl

theorem matchHere_length : ∀ {ps : List (UInt8 → Bool)} {s : Str}, matchHere ps s = true → ps.length ≤ s.length
  | [], _, _ => by simp
  | _ :: _, [], h => by simp [matchHere] at h
  | p :: ps, c :: s, h => by
    simp only [matchHere, Bool.and_eq_true] at h
    have := matchHere_length h.2
    simp only [List.length_cons]; omega

theorem matchHere_prefix : ∀ {ps : List (UInt8 → Bool)} {s : Str} (r : Str), matchHere ps s = true → matchHere ps (s ++ r) = true
  | [], _, _, _ => by simp [matchHere]
  | _ :: _, [], _, h => by simp [matchHere] at h
  | p :: ps, c :: s, r, h => by
    simp only [matchHere, Bool.and_eq_true, List.cons_append] at h ⊢
    exact ⟨h.1, matchHere_prefix r h.2⟩

/-- A byte in no class of the pattern stops a match. -/
theorem matchHere_stop {q : UInt8} : ∀ {ps : List (UInt8 → Bool)}, (∀ p ∈ ps, p q = false) → ∀ (s r : Str),
    matchHere ps (s ++ q :: r) = matchHere ps s
  | [], _, s, r => by simp [matchHere]
  | p :: ps, h, [], r => by simp [matchHere, h p (by simp)]
  | p :: ps, h, c :: s, r => by
    simp only [matchHere, List.cons_append]
    rw [matchHere_stop (fun p hp => h p (by simp [hp])) s r]

theorem rever_rejects {q : UInt8} (h : q = ch '"' ∨ q = ch ':' ∨ q = ch '{' ∨ q = ch ',') : ∀ p ∈ rever, p q = false := by
  rcases h with rfl | rfl | rfl | rfl <;>
  · intro p hp
    simp only [rever, List.replicate_succ, List.replicate_zero, List.cons_append, List.nil_append, List.mem_cons, List.not_mem_nil, or_false] at hp
    rcases hp with rfl | rfl | rfl | rfl | rfl | rfl | rfl | rfl | rfl | rfl | rfl | rfl | rfl | rfl | rfl | rfl | rfl <;> decide

theorem split_at (s : Str) {n m : Nat} (h : s.length = n + m) : ∃ a b, s = a ++ b ∧ a.length = n ∧ b.length = m :=
  ⟨s.take n, s.drop n, (List.take_append_drop n s).symm, by rw [List.length_take]; omega, by rw [List.length_drop]; omega⟩

theorem matchHere_fields {i a b k z r : Str} (hi : i.length = 4) (ha : a.length = 1) (hb : b.length = 1) (hk : k.length = 4)
    (hz : z.length = 6) : matchHere rever (i ++ a ++ b ++ k ++ z ++ lit "_" ++ r) = true ↔
      (∀ c ∈ i, c ∈ upperCase) ∧ (∀ c ∈ a, c ∈ lowerHex) ∧ (∀ c ∈ b, c ∈ lowerHex) ∧ (∀ c ∈ k, c ∈ upperCase) ∧ (∀ c ∈ z, c ∈ lowerHex) := by
  have e : rever = List.replicate 4 isUpper ++ (List.replicate 1 isLowHex ++ (List.replicate 1 isLowHex ++ (List.replicate 4 isUpper ++
    (List.replicate 6 isLowHex ++ [fun c => c == ch '_'])))) := rfl
  have f : i ++ a ++ b ++ k ++ z ++ lit "_" ++ r = i ++ (a ++ (b ++ (k ++ (z ++ (lit "_" ++ r))))) := by simp only [List.append_assoc]
  have d : ∀ (x y : Str) (n : Nat), x.length = n → (x ++ y).take n = x ∧ (x ++ y).drop n = y := by
    intro x y n h; subst h; simp
  rw [e, f]
  simp only [matchHere_append, matchHere_replicate, List.length_replicate, d _ _ _ hi, d _ _ _ ha, d _ _ _ hb, d _ _ _ hk, d _ _ _ hz, hi, ha,
    hb, hk, hz, true_and, isUpper_iff, isLowHex_iff]
  simp [matchHere, lit, ch]

/-- A match is a text with the layout of a version string. -/
theorem matchHere_iff {s : Str} (hs : s.length = 17) : matchHere rever s = true ↔ VersionLike s := by
  constructor
  · intro h
    obtain ⟨i, s1, e1, li, l1⟩ := split_at s (n := 4) (m := 13) (by omega)
    obtain ⟨a, s2, e2, la, l2⟩ := split_at s1 (n := 1) (m := 12) (by omega)
    obtain ⟨b, s3, e3, lb, l3⟩ := split_at s2 (n := 1) (m := 11) (by omega)
    obtain ⟨k, s4, e4, lk, l4⟩ := split_at s3 (n := 4) (m := 7) (by omega)
    obtain ⟨z, s5, e5, lz, l5⟩ := split_at s4 (n := 6) (m := 1) (by omega)
    have h5 : s5 = lit "_" := by
      have e : rever = (List.replicate 4 isUpper ++ ([isLowHex, isLowHex] ++ (List.replicate 4 isUpper ++
        List.replicate 6 isLowHex))) ++ [fun c => c == ch '_'] := rfl
      rw [e, matchHere_append] at h
      have h := h.2
      have f : s = (i ++ a ++ b ++ k ++ z) ++ s5 := by rw [e1, e2, e3, e4, e5]; simp only [List.append_assoc]
      rw [f, List.drop_append_of_le_length (by simp [li, la, lb, lk, lz])] at h
      rw [List.drop_eq_nil_of_le (by simp [li, la, lb, lk, lz])] at h
      match s5, l5 with
      | [c], _ =>
        simp only [List.nil_append, matchHere, Bool.and_true, beq_iff_eq] at h
        rw [h]; rfl
    subst e1 e2 e3 e4 e5 h5
    have f : i ++ (a ++ (b ++ (k ++ (z ++ lit "_")))) = i ++ a ++ b ++ k ++ z ++ lit "_" ++ [] := by simp only [List.append_assoc, List.append_nil]
    rw [f, matchHere_fields li la lb lk lz] at h
    exact ⟨i, lowHexNum a, lowHexNum b, k, lowHexNum z, a, b, z, by simp only [List.append_assoc], ⟨li, h.1⟩, ⟨la, h.2.1, rfl⟩, ⟨lb, h.2.2.1, rfl⟩,
      ⟨lk, h.2.2.2.1⟩, ⟨lz, h.2.2.2.2, rfl⟩⟩
  · rintro ⟨i, ma, mi, k, n, a, b, z, rfl, hi, ha, hb, hk, hz⟩
    have := (matchHere_fields (r := []) hi.1 ha.1 hb.1 hk.1 hz.1).mpr ⟨hi.2, ha.2.1, hb.2.1, hk.2, hz.2.1⟩
    rwa [List.append_nil] at this

theorem versionText_length {vs i k : Str} {a b n : Nat} (h : VersionText vs i a b k n) : vs.length = 17 := by
  obtain ⟨x, y, z, rfl, h1, h2, h3, h4, h5⟩ := h
  simp [h1.1, h2.1, h3.1, h4.1, h5.1, lit]

theorem versionLike_length {vs : Str} (h : VersionLike vs) : vs.length = 17 := by
  obtain ⟨_, _, _, _, _, h⟩ := h
  exact versionText_length h

theorem matchHere_take {s : Str} (h : matchHere rever s = true) : VersionLike (s.take 17) := by
  have hl := matchHere_length h
  rw [rever_length] at hl
  rw [← matchHere_iff (by rw [List.length_take]; omega)]
  have e := matchHere_append rever [] 
  have key : ∀ (ps : List (UInt8 → Bool)) (s : Str), matchHere ps s = true → matchHere ps (s.take ps.length) = true := by
    intro ps
    induction ps with
    | nil => intro s _; simp [matchHere]
    | cons p ps ih =>
      intro s h
      cases s with
      | nil => simp [matchHere] at h
      | cons c s =>
        simp only [matchHere, Bool.and_eq_true, List.length_cons, List.take_succ_cons] at h ⊢
        exact ⟨h.1, ih s h.2⟩
  exact key rever s h

/-! ## Searching -/

theorem find_some : ∀ {s : Str} {i : Nat}, find s = some i → i + 17 ≤ s.length ∧ matchHere rever (s.drop i) = true ∧
    ∀ j < i, matchHere rever (s.drop j) = false
  | [], i, h => by simp [find] at h
  | c :: s, i, h => by
    rw [find] at h
    split at h
    · rename_i hm
      injection h with h
      subst h
      have := matchHere_length hm
      rw [rever_length] at this
      exact ⟨by omega, hm, by intro j hj; omega⟩
    · rename_i hm
      cases hf : find s with
      | none => rw [hf] at h; cases h
      | some k =>
        rw [hf] at h
        simp only [Option.map_some, Option.some.injEq] at h
        subst h
        obtain ⟨h1, h2, h3⟩ := find_some hf
        refine ⟨by simp only [List.length_cons]; omega, by simpa using h2, ?_⟩
        intro j hj
        cases j with
        | zero => simpa using hm
        | succ j => simpa using h3 j (by omega)

theorem find_none : ∀ {s : Str}, find s = none → ∀ j, matchHere rever (s.drop j) = false
  | [], _, j => by simp [matchHere, rever]
  | c :: s, h, j => by
    rw [find] at h
    split at h
    · cases h
    · rename_i hm
      cases j with
      | zero => simpa using hm
      | succ j =>
        have : find s = none := by
          cases hf : find s with
          | none => rfl
          | some k => rw [hf] at h; cases h
        simpa using find_none this j

theorem find_match {s : Str} (h : matchHere rever s = true) : find s = some 0 := by
  cases s with
  | nil => simp [matchHere, rever] at h
  | cons c s => rw [find, if_pos h]

/-- Searching across a byte that no match contains. -/
theorem find_stop {q : UInt8} (hq : ∀ p ∈ rever, p q = false) : ∀ (a x : Str),
    find (a ++ q :: x) = (match find a with | some i => some i | none => (find x).map (· + (a.length + 1)))
  | [], x => by
    have : matchHere rever (q :: x) = false := by
      have := matchHere_stop hq [] x
      rw [List.nil_append] at this
      rw [this]; rfl
    simp [find, this]
  | c :: a, x => by
    rw [List.cons_append, find, find]
    have := matchHere_stop hq (c :: a) x
    rw [List.cons_append] at this
    rw [this]
    by_cases hm : matchHere rever (c :: a) = true
    · simp [hm]
    · rw [if_neg hm, if_neg hm, find_stop hq a x]
      cases find a with
      | some i => rfl
      | none => simp [Function.comp_def, Nat.add_assoc]

theorem find_isSome_iff {s : Str} : (find s).isSome = true ↔ ∃ pre w post, s = pre ++ w ++ post ∧ VersionLike w := by
  constructor
  · intro h
    obtain ⟨i, hi⟩ := Option.isSome_iff_exists.mp h
    obtain ⟨h1, h2, _⟩ := find_some hi
    exact ⟨s.take i, (s.drop i).take 17, (s.drop i).drop 17, by rw [List.append_assoc, List.take_append_drop, List.take_append_drop], matchHere_take h2⟩
  · rintro ⟨pre, w, post, rfl, hw⟩
    cases hf : find (pre ++ w ++ post) with
    | some i => rfl
    | none =>
      have := find_none hf pre.length
      rw [List.append_assoc, List.drop_left, matchHere_prefix post ((matchHere_iff (versionLike_length hw)).mpr hw)] at this
      cases this

theorem find_none_iff {s : Str} : find s = none ↔ NoVersionLike s := by
  rw [← Option.isNone_iff_eq_none, ← Option.not_isSome, Bool.not_eq_true', ← Bool.not_eq_true, find_isSome_iff]
  constructor
  · intro h pre w post e hw; exact h ⟨pre, w, post, e, hw⟩
  · rintro h ⟨pre, w, post, e, hw⟩; exact h pre w post e hw

/-! ## Replacing -/

theorem replaceAll_skip (a b : Nat) : ∀ (n : Nat) (s : Str), replaceAll a b n s = replaceAll a b 0 (s.drop n)
  | 0, s => by simp
  | n + 1, [] => by simp [replaceAll]
  | n + 1, c :: s => by rw [replaceAll, replaceAll_skip a b n s]; rfl

theorem replaceAll_match (a b : Nat) {s : Str} (h : matchHere rever s = true) :
    replaceAll a b 0 s = (s.take b).drop a ++ replaceAll a b 0 (s.drop 17) := by
  cases s with
  | nil => simp [matchHere, rever] at h
  | cons c s => rw [replaceAll, if_pos h, replaceAll_skip]; rfl

theorem replaceAll_find (a b : Nat) : ∀ {s : Str} {i : Nat}, find s = some i →
    replaceAll a b 0 s = s.take i ++ (((s.drop i).take b).drop a ++ replaceAll a b 0 (s.drop (i + 17)))
  | [], i, h => by simp [find] at h
  | c :: s, i, h => by
    rw [find] at h
    split at h
    · rename_i hm
      injection h with h
      subst h
      rw [replaceAll_match a b hm]; simp
    · rename_i hm
      cases hf : find s with
      | none => rw [hf] at h; cases h
      | some k =>
        rw [hf] at h
        simp only [Option.map_some, Option.some.injEq] at h
        subst h
        rw [replaceAll, if_neg hm, replaceAll_find a b hf, show k + 1 + 17 = k + 17 + 1 by omega]
        rfl

theorem gIdent_nil {s : Str} (h : replaceAll 0 4 0 s = []) : s = [] := by
  cases s with
  | nil => rfl
  | cons c s =>
    rw [replaceAll] at h
    split at h
    · rename_i hm
      have := matchHere_length hm
      simp [List.take_succ_cons] at h
    · cases h

/-! ## `deversify` -/

theorem lowHex_digits {s : Str} (h : ∀ c ∈ s, c ∈ lowerHex) : HexDigits s (s.map (fun c => lowerHex.idxOf c)) := by
  have hb : ∀ c ∈ lowerHex, (c, lowerHex.idxOf c) ∈ hexValues := by decide +kernel
  induction s with
  | nil => trivial
  | cons c s ih => exact ⟨hb c (h c (by simp)), ih (fun c hc => h c (by simp [hc]))⟩

theorem lowHexNum_lt : ∀ {s : Str}, (∀ c ∈ s, c ∈ lowerHex) → lowHexNum s < 16 ^ s.length := by
  have hb : ∀ c ∈ lowerHex, lowerHex.idxOf c < 16 := by decide +kernel
  have key : ∀ (s : Str) (acc : Nat), (∀ c ∈ s, c ∈ lowerHex) → s.foldl (fun a c => a * 16 + lowerHex.idxOf c) acc < (acc + 1) * 16 ^ s.length := by
    intro s
    induction s with
    | nil => intro acc _; simp
    | cons c s ih =>
      intro acc h
      have h1 := hb c (h c (by simp))
      have h2 := ih (acc * 16 + lowerHex.idxOf c) (fun c hc => h c (by simp [hc]))
      simp only [List.foldl_cons, List.length_cons]
      refine Nat.lt_of_lt_of_le h2 ?_
      rw [Nat.pow_succ, Nat.mul_comm (16 ^ s.length) 16, ← Nat.mul_assoc]
      exact Nat.mul_le_mul_right _ (by omega)
  intro s h
  have := key s 0 h
  simpa [lowHexNum] using this

theorem uintFromHex_field {max w n : Nat} {s : Str} (hw : 0 < w) (h : HexField s w n) (hm : 16 ^ w ≤ max + 1) : uintFromHex max s = .ok n := by
  obtain ⟨hl, hs, hn⟩ := h
  have hd := lowHex_digits hs
  have hne : s ≠ [] := by intro e; subst e; simp at hl; omega
  have hlt := lowHexNum_lt hs
  rw [hl] at hlt
  rw [uintFromHex, if_neg (hexDigits_no_plus hd)]
  simp only [if_neg hne]
  rw [hexLoop_spec 0 hd (Nat.zero_le _), List.foldl_map]
  rw [if_pos (by rw [lowHexNum] at hlt; omega)]
  rw [← hn, lowHexNum]

theorem groups_of_match {vs i a b k z : Str} (e : vs = i ++ a ++ b ++ k ++ z ++ lit "_") (hi : Word4 i) (ha : a.length = 1) (hb : b.length = 1)
    (hk : Word4 k) (hz : z.length = 6) (hm : matchHere rever vs = true) :
    gIdent vs = i ∧ gMajor vs = a ∧ gMinor vs = b ∧ gKind vs = k ∧ gSize vs = z := by
  have hl : vs.drop 17 = [] := List.drop_eq_nil_of_le (by rw [e]; simp [hi.1, ha, hb, hk.1, hz, lit])
  have r : ∀ x y, replaceAll x y 0 vs = (vs.take y).drop x := by
    intro x y
    rw [replaceAll_match x y hm, hl]; simp [replaceAll]
  have key : ∀ (p q r : Str) (x y : Nat), p.length = x → (p ++ q).length = y → vs = p ++ q ++ r → (vs.take y).drop x = q := by
    rintro p q r x y h1 h2 h3
    rw [h3, ← h1, ← h2, List.take_left, List.drop_left]
  refine ⟨?_, ?_, ?_, ?_, ?_⟩
  · rw [gIdent, r]; exact key [] i (a ++ b ++ k ++ z ++ lit "_") 0 4 rfl (by simp [hi.1]) (by rw [e]; simp only [List.append_assoc, List.nil_append])
  · rw [gMajor, r]; exact key i a (b ++ k ++ z ++ lit "_") 4 5 hi.1 (by simp [hi.1, ha]) (by rw [e]; simp only [List.append_assoc])
  · rw [gMinor, r]; exact key (i ++ a) b (k ++ z ++ lit "_") 5 6 (by simp [hi.1, ha]) (by simp [hi.1, ha, hb]) (by rw [e]; simp only [List.append_assoc])
  · rw [gKind, r]; exact key (i ++ a ++ b) k (z ++ lit "_") 6 10 (by simp [hi.1, ha, hb]) (by simp [hi.1, ha, hb, hk.1]) (by rw [e]; simp only [List.append_assoc])
  · rw [gSize, r]; exact key (i ++ a ++ b ++ k) z (lit "_") 10 16 (by simp [hi.1, ha, hb, hk.1]) (by simp [hi.1, ha, hb, hk.1, hz]) (by rw [e])

/-- Reading the fields of a text with the layout of a version string. -/
theorem fields_of_text {vs i k : Str} {ma mi n : Nat} (h : VersionText vs i ma mi k n) :
    find vs = some 0 ∧ gIdent vs = i ∧ uintFromHex 255 (gMajor vs) = .ok ma ∧ uintFromHex 255 (gMinor vs) = .ok mi ∧ gKind vs = k ∧
      uintFromHex (2 ^ 32 - 1) (gSize vs) = .ok n := by
  have hm := (matchHere_iff (versionText_length h)).mpr ⟨_, _, _, _, _, h⟩
  obtain ⟨a, b, z, e, hi, ha, hb, hk, hz⟩ := h
  obtain ⟨g1, g2, g3, g4, g5⟩ := groups_of_match e hi ha.1 hb.1 hk hz.1 hm
  refine ⟨find_match hm, g1, ?_, ?_, g4, ?_⟩
  · rw [g2]; exact uintFromHex_field (by decide) ha (by decide)
  · rw [g3]; exact uintFromHex_field (by decide) hb (by decide)
  · rw [g5]; exact uintFromHex_field (by decide) hz (by decide)

theorem idents_iff (s : Str) : idents.contains s = true ↔ s ∈ protocols := by
  simp only [idents, protocols, List.contains_iff_mem, List.mem_cons, List.not_mem_nil, or_false]
  exact Or.comm

theorem serials_iff (s : Str) : serials.contains s = true ↔ s = lit "JSON" := by
  simp [serials]

theorem protocol_word {s : Str} (h : s ∈ protocols) : Word4 s := by
  have : ∀ p ∈ protocols, p.length = 4 ∧ ∀ c ∈ p, c ∈ upperCase := by decide +kernel
  exact this s h

theorem json_word : Word4 (lit "JSON") := by
  have : (lit "JSON").length = 4 ∧ ∀ c ∈ lit "JSON", c ∈ upperCase := by decide +kernel
  exact this

theorem deversify_of_text {vs i k : Str} {ma mi n : Nat} (h : VersionText vs i ma mi k n) :
    deversify vs = if i ∈ protocols ∧ k = lit "JSON" then .ok { ident := i, kind := k, version := { major := ma, minor := mi }, size := n }
      else .err .validation := by
  obtain ⟨h0, h1, h2, h3, h4, h5⟩ := fields_of_text h
  rw [deversify, h0, h1, h2, h3, h4, h5]
  simp only [Option.isSome_some, if_true, Res.ok_bind]
  by_cases hi : i ∈ protocols
  · by_cases hk : k = lit "JSON"
    · simp only [(idents_iff i).mpr hi, hi, hk, and_self, if_true, Bool.not_true, Bool.false_eq_true, if_false]
      simp only [← hk, (serials_iff k).mpr hk, Bool.not_true, Bool.false_eq_true, if_false]
    · have hs : serials.contains k = false := by rw [← Bool.not_eq_true, serials_iff]; exact hk
      simp only [(idents_iff i).mpr hi, hs, hk, and_false, if_false, Bool.not_true, Bool.not_false, Bool.false_eq_true, if_true]
  · have hs : idents.contains i = false := by rw [← Bool.not_eq_true, idents_iff]; exact hi
    simp only [hs, hi, false_and, if_false, Bool.not_false, if_true]

theorem uintFromHex_ne_panic (max : Nat) (s : Str) : uintFromHex max s ≠ .panic := by
  have : ∀ d : Str, (if d = [] then Res.err Err.parseInt
      else match hexLoop max 0 d with
        | some n => .ok n
        | none => .err .parseInt : Res Nat) ≠ .panic := by
    intro d
    split
    · simp
    · split <;> simp
  exact this _

theorem deversify_ne_panic (vs : Str) : deversify vs ≠ .panic := by
  intro h
  rw [deversify] at h
  split at h
  · simp only [Res.bind_eq_panic, uintFromHex_ne_panic, false_or] at h
    obtain ⟨_, _, _, _, _, _, h⟩ := h
    split at h
    · cases h
    · split at h <;> cases h
  · cases h

theorem deversify_ok {vs : Str} {r : Versioned} : deversify vs = .ok r ↔
    VersionText vs r.ident r.version.major r.version.minor r.kind r.size ∧ r.ident ∈ protocols ∧ r.kind = lit "JSON" := by
  constructor
  · intro h
    have h0 := h
    rw [deversify] at h
    split at h
    case isFalse => cases h
    rename_i hf
    obtain ⟨i, hi⟩ := Option.isSome_iff_exists.mp hf
    obtain ⟨ma, _, h⟩ := Res.bind_eq_ok.mp h
    obtain ⟨mi, _, h⟩ := Res.bind_eq_ok.mp h
    obtain ⟨n, _, h⟩ := Res.bind_eq_ok.mp h
    have hid : idents.contains (gIdent vs) = true := by
      by_cases hid : idents.contains (gIdent vs) = true
      · exact hid
      · simp only [Bool.not_eq_true] at hid
        rw [hid] at h; cases h
    have hl : (gIdent vs).length = 4 := (protocol_word ((idents_iff _).mp hid)).1
    obtain ⟨f1, f2, _⟩ := find_some hi
    rw [gIdent, replaceAll_find 0 4 hi] at hl
    simp only [List.drop_zero, List.length_append, List.length_take, List.length_drop] at hl
    have hi0 : i = 0 := by omega
    subst hi0
    have hr : replaceAll 0 4 0 (vs.drop 17) = [] := by
      apply List.eq_nil_of_length_eq_zero
      simp only [Nat.zero_add] at hl
      omega
    have hlen : vs.length = 17 := by
      have := congrArg List.length (gIdent_nil hr)
      simp only [List.length_drop, List.length_nil] at this
      omega
    rw [List.drop_zero] at f2
    obtain ⟨i', ma', mi', k', n', ht⟩ := (matchHere_iff hlen).mp f2
    rw [deversify_of_text ht] at h0
    split at h0
    · rename_i hc
      injection h0 with h0
      subst h0
      exact ⟨ht, hc.1, hc.2⟩
    · cases h0
  · rintro ⟨h1, h2, h3⟩
    rw [deversify_of_text h1, if_pos ⟨h2, h3⟩]

/-! ## `versify` -/

theorem hexStr_length_le (n w : Nat) (hw : 0 < w) : (hexStr n).length ≤ w ↔ n < 16 ^ w := by
  induction w generalizing n with
  | zero => omega
  | succ w ih =>
    by_cases h : n < 16
    · rw [hexStr_lt h]
      simp only [List.length_singleton]
      have : 16 ^ 1 ≤ 16 ^ (w + 1) := Nat.pow_le_pow_right (by decide) (by omega)
      constructor <;> intro <;> omega
    · rw [hexStr_ge (by omega)]
      simp only [List.length_append, List.length_singleton]
      cases w with
      | zero =>
        have : 1 ≤ (hexStr (n / 16)).length := by
          have := hexStr_ne_nil (n / 16)
          cases hq : hexStr (n / 16) with
          | nil => exact absurd hq this
          | cons => simp
        have e : 16 ^ (0 + 1) = 16 := rfl
        rw [e]
        constructor <;> intro <;> omega
      | succ w =>
        have := ih (n / 16) (by omega)
        rw [Nat.pow_succ, ← Nat.div_lt_iff_lt_mul (by decide), ← this]
        omega

theorem hexStr_field1 {n : Nat} (h : n < 16) : HexField (hexStr n) 1 n := by
  obtain ⟨_, h2, h3, _⟩ := hexStr_canonical n
  refine ⟨by rw [hexStr_lt h]; rfl, h2, h3⟩

theorem hex6_field {n : Nat} (h : n < 2 ^ 24) : HexField (hex6 n) 6 n := by
  obtain ⟨_, h2, h3, _⟩ := hexStr_canonical n
  have hl := (hexStr_length_le n 6 (by decide)).mpr (by omega)
  refine ⟨by simp only [hex6, List.length_append, List.length_replicate]; omega, ?_, ?_⟩
  · intro c hc
    rcases List.mem_append.mp hc with hc | hc
    · rw [List.eq_of_mem_replicate hc]; decide
    · exact h2 c hc
  · rw [lowHexNum, hex6, List.foldl_append]
    have : ∀ k, (List.replicate k (ch '0')).foldl (fun a c => a * 16 + lowerHex.idxOf c) 0 = 0 := by
      intro k
      induction k with
      | zero => rfl
      | succ k ih =>
        rw [List.replicate_succ, List.foldl_cons]
        have : lowerHex.idxOf (ch '0') = 0 := by decide
        rw [this]; exact ih
    rw [this]; exact h3

theorem hex6_length (n : Nat) : (hex6 n).length = 6 ↔ n < 2 ^ 24 := by
  constructor
  · intro h
    simp only [hex6, List.length_append, List.length_replicate] at h
    have := (hexStr_length_le n 6 (by decide)).mp (by omega)
    omega
  · intro h; exact (hex6_field h).1

theorem versify_eq (i : Option Str) (v : Option Version) (k : Option Str) (n : Option Nat) :
    versify i v k n = if i.getD (lit "KERI") ∈ protocols ∧ k.getD (lit "JSON") = lit "JSON" then
      .ok (i.getD (lit "KERI") ++ hexStr (v.getD currentVersion).major ++ hexStr (v.getD currentVersion).minor ++ lit "JSON" ++ hex6 (n.getD 0) ++ lit "_")
      else .err .validation := by
  unfold versify
  simp only
  by_cases hi : i.getD (lit "KERI") ∈ protocols
  · by_cases hk : k.getD (lit "JSON") = lit "JSON"
    · simp only [(idents_iff _).mpr hi, hi, hk, and_self, if_true, Bool.not_true, Bool.false_eq_true, if_false,
        (serials_iff _).mpr rfl]
    · have hs : serials.contains (k.getD (lit "JSON")) = false := by rw [← Bool.not_eq_true, serials_iff]; exact hk
      simp only [(idents_iff _).mpr hi, hs, hk, and_false, if_false, Bool.not_true, Bool.not_false, Bool.false_eq_true, if_true]
  · have hs : idents.contains (i.getD (lit "KERI")) = false := by rw [← Bool.not_eq_true, idents_iff]; exact hi
    simp only [hs, hi, false_and, if_false, Bool.not_false, if_true]

theorem HexField.unique {s t : Str} {w n : Nat} (hs : HexField s w n) (ht : HexField t w n) : s = t := by
  have inj : ∀ a ∈ lowerHex, ∀ b ∈ lowerHex, lowerHex.idxOf a = lowerHex.idxOf b → a = b := by decide +kernel
  have hb : ∀ c ∈ lowerHex, lowerHex.idxOf c < 16 := by decide +kernel
  obtain ⟨hl, ha, hn⟩ := hs
  obtain ⟨hl', ha', hn'⟩ := ht
  induction w generalizing s t n with
  | zero => rw [List.eq_nil_of_length_eq_zero hl, List.eq_nil_of_length_eq_zero hl']
  | succ w ih =>
    rcases List.eq_nil_or_concat s with rfl | ⟨s', x, rfl⟩
    · simp at hl
    rcases List.eq_nil_or_concat t with rfl | ⟨t', y, rfl⟩
    · simp at hl'
    simp only [List.concat_eq_append] at hl ha hn hl' ha' hn' ⊢
    simp only [List.length_append, List.length_singleton, Nat.add_right_cancel_iff] at hl hl'
    simp only [lowHexNum, List.foldl_append, List.foldl_cons, List.foldl_nil] at hn hn'
    have b1 := hb _ (ha x (by simp))
    have b2 := hb _ (ha' y (by simp))
    have e1 : lowerHex.idxOf x = lowerHex.idxOf y := by omega
    have e2 := inj _ (ha x (by simp)) _ (ha' y (by simp)) e1
    have e3 := ih (s := s') (t := t') (n := n / 16) hl (fun c hc => ha c (by simp [hc]))
      (by rw [lowHexNum]; omega) hl' (fun c hc => ha' c (by simp [hc])) (by rw [lowHexNum]; omega)
    rw [e2, e3]

theorem versify_text {i : Str} {v : Version} {n : Nat} (hi : i ∈ protocols) (h1 : v.major < 16) (h2 : v.minor < 16) (hn : n < 2 ^ 24) :
    ∃ vs, versify (some i) (some v) (some (lit "JSON")) (some n) = .ok vs ∧ VersionText vs i v.major v.minor (lit "JSON") n := by
  rw [versify_eq]
  simp only [Option.getD_some, and_true, hi, if_true]
  exact ⟨_, rfl, _, _, _, rfl, protocol_word hi, hexStr_field1 h1, hexStr_field1 h2, json_word, hex6_field hn⟩

end Cesride.Common
