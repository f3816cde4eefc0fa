import Verif.Lemmas.Utf8
import Verif.Props.Common

/-! # Recognising the version string of a message (`sniff`) -/

namespace Cesride
open Common Spec

/-- An ASCII part of a valid text can be cut out. -/
theorem sliceStr_mid {pre w post : Str} (hv : utf8Valid (pre ++ w ++ post) = true) (hw : Ascii w) (hne : w ≠ []) :
    sliceStr (pre ++ w ++ post) pre.length (pre.length + w.length) = .ok w := by
  obtain ⟨c, t, e⟩ := List.exists_cons_of_ne_nil hne
  have hpost : utf8Valid post = true := by
    rcases List.eq_nil_or_concat w with h | ⟨l, b, h⟩
    · exact absurd h hne
    · rw [h, List.concat_eq_append] at hv
      have hb : b < 128 := hw b (by rw [h]; simp)
      have : pre ++ (l ++ [b]) ++ post = (pre ++ l) ++ b :: post := by simp
      rw [this] at hv
      exact (utf8Valid_split hv hb).2
  have b1 : isBoundary (pre ++ w ++ post) pre.length = true := by
    unfold isBoundary
    have : (pre ++ w ++ post)[pre.length]? = some c := by
      rw [e, List.append_assoc, List.getElem?_append_right (Nat.le_refl _)]
      simp
    rw [this]
    have hc : c < 128 := hw c (by rw [e]; simp)
    simp [isCont_of_ascii hc]
  have b2 : isBoundary (pre ++ w ++ post) (pre.length + w.length) = true := by
    unfold isBoundary
    cases post with
    | nil =>
      have : (pre ++ w ++ [])[pre.length + w.length]? = none := by
        rw [List.getElem?_eq_none_iff]; simp
      rw [this]
      simp
    | cons d q =>
      have : (pre ++ w ++ d :: q)[pre.length + w.length]? = some d := by
        rw [List.getElem?_append_right (by simp)]
        simp
      rw [this]
      simp [utf8_head hpost]
  unfold sliceStr
  rw [if_pos ⟨by omega, by simp, b1, b2⟩]
  have : (pre ++ w ++ post).take (pre.length + w.length) = pre ++ w := by
    rw [← List.length_append, List.take_left']
    rfl
  rw [this, List.drop_left']
  rfl

theorem versionText_ascii {vs i k : Str} {a b n : Nat} (h : VersionText vs i a b k n) : Ascii vs := by
  have hu : ∀ c ∈ upperCase, c < 128 := by decide +kernel
  have hl : ∀ c ∈ lowerHex, c < 128 := by decide +kernel
  obtain ⟨x, y, z, rfl, h1, h2, h3, h4, h5⟩ := h
  intro c hc
  simp only [List.mem_append] at hc
  rcases hc with ((((hc | hc) | hc) | hc) | hc) | hc
  · exact hu c (h1.2 c hc)
  · exact hl c (h2.2.1 c hc)
  · exact hl c (h3.2.1 c hc)
  · exact hu c (h4.2 c hc)
  · exact hl c (h5.2.1 c hc)
  · have : ∀ c ∈ lit "_", c < 128 := by decide +kernel
    exact this c hc

theorem Common.matchHere_drop_iff {s : Str} {j : Nat} : matchHere rever (s.drop j) = true ↔ ∃ w post, s.drop j = w ++ post ∧ VersionLike w := by
  constructor
  · intro h
    exact ⟨(s.drop j).take 17, (s.drop j).drop 17, (List.take_append_drop 17 _).symm, matchHere_take h⟩
  · rintro ⟨w, post, e, hw⟩
    rw [e]
    exact matchHere_prefix _ ((matchHere_iff (versionLike_length hw)).mpr hw)

theorem Common.find_iff {s : Str} {i : Nat} : find s = some i ↔ ∃ pre w post, FirstVersion s pre w post ∧ pre.length = i := by
  have fwd : ∀ {i}, find s = some i → ∃ pre w post, FirstVersion s pre w post ∧ pre.length = i := by
    intro i h
    obtain ⟨hl, hm, hf⟩ := find_some h
    obtain ⟨w, post, e, hw⟩ := matchHere_drop_iff.mp hm
    refine ⟨s.take i, w, post, ⟨?_, hw, ?_⟩, ?_⟩
    · rw [List.append_assoc, ← e, List.take_append_drop]
    · intro pre' w' post' e' hw'
      rw [List.length_take]
      apply Classical.byContradiction
      intro hlt
      have : matchHere rever (s.drop pre'.length) = true := by
        apply matchHere_drop_iff.mpr
        exact ⟨w', post', by rw [e', List.append_assoc, List.drop_left'] ; rfl, hw'⟩
      rw [hf _ (by omega)] at this
      cases this
    · rw [List.length_take]; omega
  constructor
  · exact fwd
  · rintro ⟨pre, w, post, ⟨e, hw, hf⟩, rfl⟩
    cases h : find s with
    | none => exact absurd hw (find_none_iff.mp h _ _ _ e)
    | some j =>
      obtain ⟨pre', w', post', ⟨e', hw', hf'⟩, hj⟩ := fwd h
      have h1 := hf _ _ _ e' hw'
      have h2 := hf' _ _ _ e hw
      congr 1
      omega

theorem Common.matchHere_append_of_le : ∀ {ps : List (UInt8 → Bool)} {s : Str} (r : Str), ps.length ≤ s.length → matchHere ps (s ++ r) = matchHere ps s
  | [], _, _, _ => by simp [matchHere]
  | _ :: _, [], _, h => by simp at h
  | p :: ps, c :: s, r, h => by
    simp only [List.length_cons] at h
    simp only [matchHere, List.cons_append, matchHere_append_of_le (ps := ps) (s := s) r (by omega)]

theorem Common.find_append : ∀ {s : Str} {i : Nat} (r : Str), find s = some i → find (s ++ r) = some i
  | [], i, r, h => by simp [find] at h
  | c :: s, i, r, h => by
    have hl := (find_some h).1
    have h0 : matchHere rever (c :: s ++ r) = matchHere rever (c :: s) := matchHere_append_of_le r (by rw [rever_length]; omega)
    rw [find] at h
    rw [List.cons_append, find, ← List.cons_append, h0]
    split
    · rename_i hm
      rw [if_pos hm] at h
      exact h
    · rename_i hm
      rw [if_neg hm] at h
      cases hf : find s with
      | none => rw [hf] at h; cases h
      | some j =>
        rw [hf] at h
        rw [find_append r hf]
        exact h

/-- What `sniff` recognises. -/
theorem sniff_of {raw pre w post : Str} {i k : Str} {ma mi n : Nat} (hl : 29 ≤ raw.length) (hv : utf8Valid raw = true) (hf : FirstVersion raw pre w post)
    (ht : VersionText w i ma mi k n) (hp : pre.length ≤ 12) :
    sniff raw = if k = lit "JSON" then .ok { ident := i, kind := k, version := { major := ma, minor := mi }, size := n } else .err .validation := by
  obtain ⟨h0, h1, h2, h3, h4, h5⟩ := fields_of_text ht
  have hfind := Common.find_iff.mpr ⟨_, _, _, hf, rfl⟩
  have hs : sliceStr raw pre.length (pre.length + 17) = .ok w := by
    have := sliceStr_mid (pre := pre) (w := w) (post := post) (by rw [← hf.1]; exact hv) (versionText_ascii ht)
      (by intro e; have := versionText_length ht; rw [e] at this; cases this)
    rw [versionText_length ht, ← hf.1] at this
    exact this
  unfold sniff
  rw [if_neg (by omega), fromUtf8, if_pos hv]
  simp only [Res.ok_bind, hfind, if_neg (show ¬ 12 < pre.length by omega), hs, h1, h2, h3, h4, h5]
  by_cases hk : k = lit "JSON"
  · rw [if_pos hk, if_neg]
    rw [Bool.not_eq_true']
    intro hc
    rw [Bool.eq_false_iff] at hc
    exact hc ((serials_iff k).mpr hk)
  · rw [if_neg hk, if_pos]
    rw [Bool.not_eq_true', Bool.eq_false_iff]
    intro hc
    exact hk ((serials_iff k).mp hc)

theorem sniff_iff {raw : Str} {r : Versioned} : sniff raw = .ok r ↔
    29 ≤ raw.length ∧ utf8Valid raw = true ∧ ∃ pre w post, FirstVersion raw pre w post ∧ pre.length ≤ 12 ∧
      VersionText w r.ident r.version.major r.version.minor (lit "JSON") r.size ∧ r.kind = lit "JSON" := by
  constructor
  · intro h
    have h0 := h
    unfold sniff at h
    split at h
    · cases h
    rename_i hl
    obtain ⟨raw', hu, h⟩ := Res.bind_eq_ok.mp h
    unfold fromUtf8 at hu
    split at hu
    case isFalse => cases hu
    rename_i hv
    injection hu with hu
    subst hu
    split at h
    · cases h
    · rename_i start hf
      split at h
      · cases h
      rename_i hs
      obtain ⟨pre, w, post, hfv, rfl⟩ := Common.find_iff.mp hf
      obtain ⟨i, ma, mi, k, n, ht⟩ := hfv.2.1
      have e := sniff_of (by omega) hv hfv ht (by omega)
      rw [h0] at e
      split at e
      · rename_i hk
        injection e with e
        subst e
        subst hk
        exact ⟨by omega, hv, pre, w, post, hfv, by omega, ht, rfl⟩
      · cases e
  · rintro ⟨hl, hv, pre, w, post, hfv, hp, ht, hk⟩
    have e := sniff_of hl hv hfv ht hp
    rw [if_pos rfl] at e
    rw [e]
    obtain ⟨_, _, ⟨_, _⟩, _⟩ := r
    dsimp only at hk
    subst hk
    rfl

theorem sniff_ne_panic (raw : Str) : sniff raw ≠ .panic := by
  intro h
  have h0 := h
  unfold sniff at h
  split at h
  · cases h
  rename_i hl
  rcases Res.bind_eq_panic.mp h with h | ⟨raw', hu, h⟩
  · unfold fromUtf8 at h
    split at h <;> cases h
  unfold fromUtf8 at hu
  split at hu
  case isFalse => cases hu
  rename_i hv
  injection hu with hu
  subst hu
  split at h
  · cases h
  · rename_i start hf
    split at h
    · cases h
    rename_i hs
    obtain ⟨pre, w, post, hfv, rfl⟩ := Common.find_iff.mp hf
    obtain ⟨i, ma, mi, k, n, ht⟩ := hfv.2.1
    have e := sniff_of (by omega) hv hfv ht (by omega)
    rw [h0] at e
    split at e <;> cases e

end Cesride
