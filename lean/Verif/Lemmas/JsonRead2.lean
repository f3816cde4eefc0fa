import Verif.Lemmas.JsonRead
import Verif.Props.Data

/-! # The reader and the grammar of JSON: documents -/

namespace Cesride
namespace Json
open Spec.JsonText

theorem isWs_iff (c : UInt8) : isWs c = true ↔ c = 32 ∨ c = 9 ∨ c = 10 ∨ c = 13 := by
  simp [isWs, or_assoc]

theorem skipWs_sound : ∀ s : Str, ∃ w, Blank w ∧ s = w ++ skipWs s ∧ (∀ c, (skipWs s).head? = some c → isWs c = false)
  | [] => ⟨[], (by intro c hc; cases hc), rfl, (by intro c hc; cases hc)⟩
  | c :: s => by
    rw [skipWs]
    by_cases h : isWs c = true
    · obtain ⟨w, hw, he, hh⟩ := skipWs_sound s
      rw [if_pos h]
      refine ⟨c :: w, ?_, by rw [List.cons_append, ← he], hh⟩
      intro x hx
      rcases List.mem_cons.mp hx with rfl | hx
      · exact (isWs_iff _).mp h
      · exact hw x hx
    · rw [if_neg h]
      exact ⟨[], (by intro c hc; cases hc), rfl, (by intro x hx; simp only [List.head?_cons, Option.some.injEq] at hx; subst hx; simpa using h)⟩

theorem skipWs_blank {w s : Str} (hw : Blank w) : skipWs (w ++ s) = skipWs s := by
  induction w with
  | nil => rfl
  | cons c w ih =>
    rw [List.cons_append, skipWs, if_pos ((isWs_iff c).mpr (hw c (List.mem_cons_self ..)))]
    exact ih fun x hx => hw x (List.mem_cons_of_mem _ hx)

theorem skipWs_blank' {w : Str} (hw : Blank w) : skipWs w = [] := by
  have := skipWs_blank (s := []) hw
  rwa [List.append_nil] at this

theorem skipWs_blank_cons {w s : Str} {c : UInt8} (hw : Blank w) (hc : isWs c = false) : skipWs (w ++ c :: s) = c :: s := by
  rw [skipWs_blank hw, skipWs_of_not hc]

theorem blank_of_skip_nil {s : Str} (h : skipWs s = []) : Blank s := by
  obtain ⟨w, hw, he, -⟩ := skipWs_sound s
  rw [h, List.append_nil] at he
  rw [he]; exact hw

theorem expect_some {p s r : Str} (h : expect p s = some r) : s = p ++ r := by
  unfold expect at h
  split at h
  · rename_i hp
    obtain ⟨t, rfl⟩ := List.isPrefixOf_iff_prefix.mp hp
    simp only [List.drop_left, Option.some.injEq] at h
    rw [h]
  · cases h

theorem expect_append (p r : Str) : expect p (p ++ r) = some r := by
  unfold expect
  rw [if_pos (List.isPrefixOf_iff_prefix.mpr ⟨r, rfl⟩)]
  simp

/-- Insert entries one after the other. -/
def insertAll (o es : List (Str × Value)) : List (Str × Value) := es.foldl (fun o e => Value.insert o e.1 e.2) o

theorem skip_cons {s r : Str} {c : UInt8} (h : skipWs s = c :: r) : ∃ w, Blank w ∧ s = w ++ c :: r := by
  obtain ⟨w, hw, he, -⟩ := skipWs_sound s
  rw [h] at he
  exact ⟨w, hw, he⟩

theorem assoc_ext : ∀ {a b : List (Str × Value)}, a.map Prod.fst = b.map Prod.fst → (a.map Prod.fst).Nodup →
    (∀ k, a.lookup k = b.lookup k) → a = b
  | [], [], _, _, _ => rfl
  | [], _ :: _, h, _, _ => by simp at h
  | _ :: _, [], h, _, _ => by simp at h
  | (k, v) :: a, (k', v') :: b, h, hn, hl => by
    simp only [List.map_cons, List.cons.injEq] at h
    obtain ⟨rfl, h⟩ := h
    simp only [List.map_cons, List.nodup_cons] at hn
    have h1 := hl k
    simp only [List.lookup, beq_self_eq_true, Option.some.injEq] at h1
    subst h1
    congr 1
    refine assoc_ext h hn.2 ?_
    intro x
    by_cases hx : x = k
    · subst hx
      have e : ∀ {c : List (Str × Value)}, x ∉ c.map Prod.fst → c.lookup x = none := by
        intro c hc
        rw [List.lookup_eq_none_iff]
        intro p hp
        simp only [bne_iff_ne, ne_eq]
        exact fun hh => hc (List.mem_map.mpr ⟨p, hp, hh.symm⟩)
      rw [e hn.1, e (by rw [← h]; exact hn.1)]
    · have h2 := hl x
      have hb : (x == k) = false := by simpa using hx
      simpa only [List.lookup, hb] using h2

theorem nodup_eraseDups : ∀ (n : Nat) (l : List Str), l.length ≤ n → l.eraseDups.Nodup
  | 0, [], _ => by simp
  | 0, _ :: _, h => by simp at h
  | n + 1, [], _ => by simp
  | n + 1, a :: l, h => by
    rw [List.eraseDups_cons, List.nodup_cons]
    refine ⟨?_, nodup_eraseDups n _ ?_⟩
    · rw [List.mem_eraseDups]; simp
    · have := List.length_filter_le (fun b => !b == a) l
      simp at h; omega

theorem choice_keys (g : Str → Option Value) : ∀ ks : List Str, (∀ k ∈ ks, (g k).isSome) →
    ((ks.filterMap fun k => (g k).map (k, ·)).map Prod.fst) = ks
  | [], _ => rfl
  | k :: ks, h => by
    obtain ⟨v, hv⟩ := Option.isSome_iff_exists.mp (h k (List.mem_cons_self ..))
    rw [List.filterMap_cons, hv]
    simp [choice_keys g ks fun x hx => h x (List.mem_cons_of_mem _ hx)]

theorem choice_lookup (g : Str → Option Value) (x : Str) : ∀ ks : List Str, (∀ k ∈ ks, (g k).isSome) →
    (ks.filterMap fun k => (g k).map (k, ·)).lookup x = if x ∈ ks then g x else none
  | [], _ => by simp
  | k :: ks, h => by
    obtain ⟨v, hv⟩ := Option.isSome_iff_exists.mp (h k (List.mem_cons_self ..))
    have ih := choice_lookup g x ks fun y hy => h y (List.mem_cons_of_mem _ hy)
    rw [List.filterMap_cons, hv]
    simp only [Option.map_some, List.lookup]
    by_cases hx : x = k
    · subst hx; simp [hv]
    · have hb : (x == k) = false := by simpa using hx
      simp [hb, ih, hx]

theorem lookup_isSome_iff {es : List (Str × Value)} {k : Str} : (es.lookup k).isSome ↔ k ∈ es.map Prod.fst := by
  constructor
  · intro h
    obtain ⟨v, hv⟩ := Option.isSome_iff_exists.mp h
    exact List.mem_map.mpr ⟨_, lookup_mem hv, rfl⟩
  · intro h
    by_contra hn
    rw [Bool.not_eq_true, Option.isSome_eq_false_iff, Option.isNone_iff_eq_none, List.lookup_eq_none_iff] at hn
    obtain ⟨p, hp, rfl⟩ := List.mem_map.mp h
    simpa using hn p hp

theorem rev_lookup_isSome {es : List (Str × Value)} : ∀ k ∈ (es.map Prod.fst).eraseDups, (es.reverse.lookup k).isSome := by
  intro k hk
  rw [List.mem_eraseDups] at hk
  rw [lookup_isSome_iff, List.map_reverse, List.mem_reverse]
  exact hk

theorem rev_ind {α : Type} {P : List α → Prop} (h0 : P []) (h1 : ∀ l e, P l → P (l ++ [e])) (l : List α) : P l := by
  have key : ∀ l : List α, P l.reverse := by
    intro l
    induction l with
    | nil => exact h0
    | cons a l ih => rw [List.reverse_cons]; exact h1 _ _ ih
  have := key l.reverse
  rwa [List.reverse_reverse] at this

theorem insertAll_keys (es : List (Str × Value)) : (insertAll [] es).map Prod.fst = (es.map Prod.fst).eraseDups := by
  induction es using rev_ind with
  | h0 => rfl
  | h1 es e ih =>
    have : insertAll [] (es ++ [e]) = Value.insert (insertAll [] es) e.1 e.2 := by simp [insertAll]
    rw [this, keys_insert, ih, List.map_append, List.eraseDups_append]
    congr 1
    simp only [List.map_cons, List.map_nil, List.mem_eraseDups, List.removeAll, List.filter]
    by_cases h : e.1 ∈ es.map Prod.fst
    · simp [h]
    · simp [h, List.eraseDups_cons]

theorem insertAll_lookup (es : List (Str × Value)) (k : Str) : (insertAll [] es).lookup k = es.reverse.lookup k := by
  induction es using rev_ind with
  | h0 => rfl
  | h1 es e ih =>
    have : insertAll [] (es ++ [e]) = Value.insert (insertAll [] es) e.1 e.2 := by simp [insertAll]
    rw [this, lookup_insert, ih, List.reverse_append]
    obtain ⟨a, v⟩ := e
    simp only [List.reverse_cons, List.reverse_nil, List.nil_append, List.cons_append, List.lookup]
    by_cases h : a = k
    · subst h; simp
    · have hb : (k == a) = false := by simpa using (fun hh => h hh.symm)
      simp [h, hb]

theorem merged_entries (es : List (Str × Value)) : insertAll [] es = merged es := by
  have hk : (merged es).map Prod.fst = (es.map Prod.fst).eraseDups := choice_keys _ _ rev_lookup_isSome
  refine assoc_ext (by rw [insertAll_keys, hk]) (by rw [insertAll_keys]; exact nodup_eraseDups _ _ (Nat.le_refl _)) ?_
  intro k
  rw [insertAll_lookup]
  unfold merged
  rw [choice_lookup _ _ _ rev_lookup_isSome]
  split
  · rfl
  · rename_i h
    rw [← Option.not_isSome_iff_eq_none, lookup_isSome_iff, List.map_reverse, List.mem_reverse]
    rw [List.mem_eraseDups] at h
    exact h

theorem sound (F : Str → Option Str) : ∀ fuel : Nat,
    (∀ n s v r, parseValue F fuel (n + 1) s = some (v, r) → ∃ w t, s = w ++ t ++ r ∧ Blank w ∧ Val F n t v) ∧
    (∀ n s a r, parseElems F fuel (n + 1) s = some (a, r) → ∃ t, s = t ++ ch ']' :: r ∧ Items F n t a) ∧
    (∀ n acc s o r, parseFields F fuel (n + 1) acc s = some (o, r) → ∃ t es, s = t ++ ch '}' :: r ∧ Entries F n t es ∧ o = insertAll acc es) := by
  intro fuel
  induction fuel with
  | zero => refine ⟨?_, ?_, ?_⟩ <;> (intros; rename_i h; simp [parseValue, parseElems, parseFields] at h)
  | succ fuel ih =>
    obtain ⟨ih1, ih2, ih3⟩ := ih
    refine ⟨?_, ?_, ?_⟩
    · intro n s v r h
      rw [parseValue] at h
      split at h
      · cases h
      rename_i c rest hs
      obtain ⟨w, hw, rfl⟩ := skip_cons hs
      have fin : ∀ t, c :: rest = t ++ r → Val F n t v → ∃ w' t, w ++ c :: rest = w' ++ t ++ r ∧ Blank w' ∧ Val F n t v :=
        fun t h1 h2 => ⟨w, t, by rw [h1, List.append_assoc], hw, h2⟩
      split at h
      · rename_i hc; subst hc
        simp only [Option.bind_eq_bind, Option.bind_eq_some_iff, Option.some.injEq, Prod.mk.injEq] at h
        obtain ⟨x, hx, rfl, rfl⟩ := h
        exact fin (lit "null") (by rw [expect_some hx]; rfl) .null
      split at h
      · rename_i hc; subst hc
        simp only [Option.bind_eq_bind, Option.bind_eq_some_iff, Option.some.injEq, Prod.mk.injEq] at h
        obtain ⟨x, hx, rfl, rfl⟩ := h
        exact fin (lit "true") (by rw [expect_some hx]; rfl) .yes
      split at h
      · rename_i hc; subst hc
        simp only [Option.bind_eq_bind, Option.bind_eq_some_iff, Option.some.injEq, Prod.mk.injEq] at h
        obtain ⟨x, hx, rfl, rfl⟩ := h
        exact fin (lit "false") (by rw [expect_some hx]; rfl) .no
      split at h
      · rename_i hc; subst hc
        simp only [Option.bind_eq_bind, Option.bind_eq_some_iff, Option.some.injEq, Prod.mk.injEq, Prod.exists] at h
        obtain ⟨x, y, hx, rfl, rfl⟩ := h
        obtain ⟨t, rfl, hB⟩ := parseStr_sound _ _ hx
        exact fin _ (by simp) (.str hB)
      split at h
      · rename_i hc; subst hc
        split at h
        · cases h
        rename_i hd
        obtain ⟨m, rfl⟩ : ∃ m, n = m + 1 := ⟨n - 1, by omega⟩
        split at h
        · cases h
        rename_i c' r' hs'
        obtain ⟨w', hw', rfl⟩ := skip_cons hs'
        split at h
        · rename_i hc'; subst hc'
          simp only [Option.some.injEq, Prod.mk.injEq] at h
          obtain ⟨rfl, rfl⟩ := h
          exact fin (ch '[' :: (w' ++ [ch ']'])) (by simp) (.arr0 hw')
        · simp only [Option.bind_eq_bind, Option.bind_eq_some_iff, Option.some.injEq, Prod.mk.injEq, Prod.exists] at h
          obtain ⟨a, y, hx, rfl, rfl⟩ := h
          obtain ⟨t, ht, hI⟩ := ih2 _ _ _ _ hx
          rw [ht] at fin ⊢
          exact fin (ch '[' :: (t ++ [ch ']'])) (by simp) (.arr hI)
      split at h
      · rename_i hc; subst hc
        split at h
        · cases h
        rename_i hd
        obtain ⟨m, rfl⟩ : ∃ m, n = m + 1 := ⟨n - 1, by omega⟩
        split at h
        · cases h
        rename_i c' r' hs'
        obtain ⟨w', hw', rfl⟩ := skip_cons hs'
        split at h
        · rename_i hc'; subst hc'
          simp only [Option.some.injEq, Prod.mk.injEq] at h
          obtain ⟨rfl, rfl⟩ := h
          exact fin (ch '{' :: (w' ++ [ch '}'])) (by simp) (.obj0 hw')
        · simp only [Option.bind_eq_bind, Option.bind_eq_some_iff, Option.some.injEq, Prod.mk.injEq, Prod.exists] at h
          obtain ⟨a, y, hx, rfl, rfl⟩ := h
          obtain ⟨t, es, ht, hI, rfl⟩ := ih3 _ _ _ _ _ hx
          rw [ht] at fin ⊢
          rw [merged_entries] at fin ⊢
          exact fin (ch '{' :: (t ++ [ch '}'])) (by simp) (.obj hI)
      · obtain ⟨t, ht, hN⟩ := parseNum_sound F h
        exact fin t ht (.num hN)
    · intro n s a r h
      rw [parseElems] at h
      simp only [Option.bind_eq_bind, Option.bind_eq_some_iff, Prod.exists] at h
      obtain ⟨v, r1, hv, h⟩ := h
      obtain ⟨w, t, rfl, hw, hV⟩ := ih1 _ _ _ _ hv
      split at h
      · cases h
      rename_i c r2 hs
      obtain ⟨w', hw', rfl⟩ := skip_cons hs
      split at h
      · rename_i hc; subst hc
        simp only [Option.some.injEq, Prod.mk.injEq] at h
        obtain ⟨rfl, rfl⟩ := h
        exact ⟨w ++ t ++ w', by simp, .one hw hV hw'⟩
      split at h
      · rename_i hc; subst hc
        simp only [Option.bind_eq_some_iff, Option.some.injEq, Prod.mk.injEq, Prod.exists] at h
        obtain ⟨a', r', ha, rfl, rfl⟩ := h
        obtain ⟨t', rfl, hI⟩ := ih2 _ _ _ _ ha
        exact ⟨w ++ t ++ w' ++ ch ',' :: t', by simp, .more hw hV hw' hI⟩
      · cases h
    · intro n acc s o r h
      rw [parseFields] at h
      split at h
      · cases h
      rename_i q s' hs
      obtain ⟨w, hw, rfl⟩ := skip_cons hs
      split at h
      · rename_i hq; subst hq
        simp only [Option.bind_eq_bind, Option.bind_eq_some_iff, Prod.exists] at h
        obtain ⟨k, r1, hk, h⟩ := h
        obtain ⟨kt, rfl, hB⟩ := parseStr_sound _ _ hk
        split at h
        · cases h
        rename_i c r2 hs1
        obtain ⟨w1, hw1, rfl⟩ := skip_cons hs1
        split at h
        · rename_i hc; subst hc
          simp only [Option.bind_eq_some_iff, Prod.exists] at h
          obtain ⟨v, r3, hv, h⟩ := h
          obtain ⟨w2, t, rfl, hw2, hV⟩ := ih1 _ _ _ _ hv
          split at h
          · cases h
          rename_i c r4 hs3
          obtain ⟨w3, hw3, rfl⟩ := skip_cons hs3
          split at h
          · rename_i hc; subst hc
            simp only [Option.some.injEq, Prod.mk.injEq] at h
            obtain ⟨rfl, rfl⟩ := h
            exact ⟨_, _, by simp, .one hw hB hw1 hw2 hV hw3, rfl⟩
          split at h
          · rename_i hc; subst hc
            obtain ⟨t', es, rfl, hE, rfl⟩ := ih3 _ _ _ _ _ h
            exact ⟨_, _, by simp, .more hw hB hw1 hw2 hV hw3 hE, rfl⟩
          · cases h
        · cases h
      · cases h

theorem num_head {F : Str → Option Str} {t : Str} {v : Value} (h : Num F t v) : ∃ c t', t = c :: t' ∧ (isDig c ∨ c = ch '-') := by
  obtain ⟨sign, whole, frac, exp, rfl, ⟨hsign, ⟨⟨hw, hwd⟩, -⟩, -, -⟩, -⟩ := h
  rcases hsign with rfl | rfl
  · cases whole with
    | nil => exact absurd rfl hw
    | cons a w => exact ⟨a, _, rfl, .inl (hwd a (List.mem_cons_self ..))⟩
  · exact ⟨ch '-', _, rfl, .inr rfl⟩

theorem val_head {F : Str → Option Str} {n : Nat} {t : Str} {v : Value} (h : Val F n t v) :
    ∃ c t', t = c :: t' ∧ isWs c = false ∧ c ≠ ch ']' ∧ c ≠ ch '}' := by
  cases h with
  | null => exact ⟨_, _, rfl, by decide, by decide, by decide⟩
  | yes => exact ⟨_, _, rfl, by decide, by decide, by decide⟩
  | no => exact ⟨_, _, rfl, by decide, by decide, by decide⟩
  | str => exact ⟨_, _, rfl, by decide, by decide, by decide⟩
  | arr0 => exact ⟨_, _, rfl, by decide, by decide, by decide⟩
  | arr => exact ⟨_, _, rfl, by decide, by decide, by decide⟩
  | obj0 => exact ⟨_, _, rfl, by decide, by decide, by decide⟩
  | obj => exact ⟨_, _, rfl, by decide, by decide, by decide⟩
  | num h =>
    obtain ⟨c, t', rfl, hc⟩ := num_head h
    refine ⟨c, t', rfl, (dig_not c hc).1, ?_, ?_⟩
    · rintro rfl; revert hc; unfold isDig; decide
    · rintro rfl; revert hc; unfold isDig; decide

theorem delim_blank {w r : Str} (hw : Blank w) (hr : Delim r) : Delim (w ++ r) := by
  cases w with
  | nil => exact hr
  | cons c w =>
    intro x hx
    simp only [List.cons_append, List.head?_cons, Option.some.injEq] at hx
    subst hx
    rcases hw c (List.mem_cons_self ..) with rfl | rfl | rfl | rfl <;> (unfold isDig; decide)

theorem delim_cons {c : UInt8} {r : Str} (h : ¬ isDig c ∧ c ≠ ch '.' ∧ c ≠ ch 'e' ∧ c ≠ ch 'E') : Delim (c :: r) := by
  intro x hx
  simp only [List.head?_cons, Option.some.injEq] at hx
  subst hx
  exact h

theorem items_head {F : Str → Option Str} {n : Nat} {t : Str} {a : List Value} (h : Items F n t a) (r : Str) :
    ∃ c r', skipWs (t ++ r) = c :: r' ∧ c ≠ ch ']' := by
  cases h with
  | one hw hV _ =>
    obtain ⟨c, t', rfl, h1, h2, -⟩ := val_head hV
    exact ⟨c, _, by simp only [List.append_assoc, List.cons_append]; exact skipWs_blank_cons hw h1, h2⟩
  | more hw hV _ _ =>
    obtain ⟨c, t', rfl, h1, h2, -⟩ := val_head hV
    exact ⟨c, _, by simp only [List.append_assoc, List.cons_append]; exact skipWs_blank_cons hw h1, h2⟩

theorem entries_head {F : Str → Option Str} {n : Nat} {t : Str} {es : List (Str × Value)} (h : Entries F n t es) (r : Str) :
    ∃ r', skipWs (t ++ r) = ch '"' :: r' := by
  cases h with
  | one hw => exact ⟨_, by simp only [List.append_assoc, List.cons_append]; exact skipWs_blank_cons hw (by decide)⟩
  | more hw => exact ⟨_, by simp only [List.append_assoc, List.cons_append]; exact skipWs_blank_cons hw (by decide)⟩

theorem complete (F : Str → Option Str) {n : Nat} {t : Str} {v : Value} (h : Val F n t v) :
    ∀ fuel w r, 2 * t.length ≤ fuel → Blank w → Delim r → parseValue F fuel (n + 1) (w ++ t ++ r) = some (v, r) := by
  refine Val.rec (F := F)
    (motive_1 := fun n t v _ => ∀ fuel w r, 2 * t.length ≤ fuel → Blank w → Delim r → parseValue F fuel (n + 1) (w ++ t ++ r) = some (v, r))
    (motive_2 := fun n t a _ => ∀ fuel r, 2 * t.length + 1 ≤ fuel → parseElems F fuel (n + 1) (t ++ ch ']' :: r) = some (a, r))
    (motive_3 := fun n t es _ => ∀ fuel acc r, 2 * t.length + 1 ≤ fuel →
      parseFields F fuel (n + 1) acc (t ++ ch '}' :: r) = some (insertAll acc es, r))
    ?_ ?_ ?_ ?_ ?_ ?_ ?_ ?_ ?_ ?_ ?_ ?_ ?_ h
  · intro n fuel w r hf hw hr
    obtain ⟨f, rfl⟩ : ∃ f, fuel = f + 1 := ⟨fuel - 1, by simp [lit] at hf; omega⟩
    rw [parseValue, List.append_assoc, show lit "null" ++ r = ch 'n' :: (lit "ull" ++ r) from rfl, skipWs_blank_cons hw (by decide)]
    dsimp only
    rw [if_pos rfl, expect_append]
    rfl
  · intro n fuel w r hf hw hr
    obtain ⟨f, rfl⟩ : ∃ f, fuel = f + 1 := ⟨fuel - 1, by simp [lit] at hf; omega⟩
    rw [parseValue, List.append_assoc, show lit "true" ++ r = ch 't' :: (lit "rue" ++ r) from rfl, skipWs_blank_cons hw (by decide)]
    dsimp only
    rw [if_neg (by decide), if_pos rfl, expect_append]
    rfl
  · intro n fuel w r hf hw hr
    obtain ⟨f, rfl⟩ : ∃ f, fuel = f + 1 := ⟨fuel - 1, by simp [lit] at hf; omega⟩
    rw [parseValue, List.append_assoc, show lit "false" ++ r = ch 'f' :: (lit "alse" ++ r) from rfl, skipWs_blank_cons hw (by decide)]
    dsimp only
    rw [if_neg (by decide), if_neg (by decide), if_pos rfl, expect_append]
    rfl
  · intro n t s hB fuel w r hf hw hr
    obtain ⟨f, rfl⟩ : ∃ f, fuel = f + 1 := ⟨fuel - 1, by simp at hf; omega⟩
    rw [parseValue, List.append_assoc, List.cons_append, skipWs_blank_cons hw (by decide)]
    dsimp only
    rw [if_neg (by decide), if_neg (by decide), if_neg (by decide), if_pos rfl, List.append_assoc,
      show [ch '"'] ++ r = ch '"' :: r from rfl, parseStr_complete hB r _ (by simp)]
    rfl
  · intro n t v hN fuel w r hf hw hr
    obtain ⟨c, t', rfl, hc⟩ := num_head hN
    obtain ⟨f, rfl⟩ : ∃ f, fuel = f + 1 := ⟨fuel - 1, by simp at hf; omega⟩
    obtain ⟨h1, h2, h3, h4, h5, h6, h7⟩ := dig_not c hc
    rw [parseValue, List.append_assoc, List.cons_append, skipWs_blank_cons hw h1]
    dsimp only
    rw [if_neg h2, if_neg h3, if_neg h4, if_neg h5, if_neg h6, if_neg h7]
    exact parseNum_complete F hN hr
  · intro n w' hw' fuel w r hf hw hr
    obtain ⟨f, rfl⟩ : ∃ f, fuel = f + 1 := ⟨fuel - 1, by simp at hf; omega⟩
    rw [parseValue, List.append_assoc, List.cons_append, skipWs_blank_cons hw (by decide)]
    dsimp only
    rw [if_neg (by decide), if_neg (by decide), if_neg (by decide), if_neg (by decide), if_pos rfl, if_neg (by omega), List.append_assoc,
      show [ch ']'] ++ r = ch ']' :: r from rfl, skipWs_blank_cons hw' (by decide)]
    dsimp only
    rw [if_pos rfl]
  · intro n t a hI ih fuel w r hf hw hr
    obtain ⟨f, rfl⟩ : ∃ f, fuel = f + 1 := ⟨fuel - 1, by simp at hf; omega⟩
    obtain ⟨c, r', hc, hne⟩ := items_head hI (ch ']' :: r)
    rw [parseValue, List.append_assoc, List.cons_append, skipWs_blank_cons hw (by decide)]
    dsimp only
    rw [if_neg (by decide), if_neg (by decide), if_neg (by decide), if_neg (by decide), if_pos rfl, if_neg (by omega), List.append_assoc,
      show [ch ']'] ++ r = ch ']' :: r from rfl, hc]
    dsimp only
    rw [if_neg hne, Nat.add_sub_cancel, ih f r (by simp at hf; omega)]
    rfl
  · intro n w' hw' fuel w r hf hw hr
    obtain ⟨f, rfl⟩ : ∃ f, fuel = f + 1 := ⟨fuel - 1, by simp at hf; omega⟩
    rw [parseValue, List.append_assoc, List.cons_append, skipWs_blank_cons hw (by decide)]
    dsimp only
    rw [if_neg (by decide), if_neg (by decide), if_neg (by decide), if_neg (by decide), if_neg (by decide), if_pos rfl, if_neg (by omega), List.append_assoc,
      show [ch '}'] ++ r = ch '}' :: r from rfl, skipWs_blank_cons hw' (by decide)]
    dsimp only
    rw [if_pos rfl]
  · intro n t es hE ih fuel w r hf hw hr
    obtain ⟨f, rfl⟩ : ∃ f, fuel = f + 1 := ⟨fuel - 1, by simp at hf; omega⟩
    obtain ⟨r', hc⟩ := entries_head hE (ch '}' :: r)
    rw [parseValue, List.append_assoc, List.cons_append, skipWs_blank_cons hw (by decide)]
    dsimp only
    rw [if_neg (by decide), if_neg (by decide), if_neg (by decide), if_neg (by decide), if_neg (by decide), if_pos rfl, if_neg (by omega), List.append_assoc,
      show [ch '}'] ++ r = ch '}' :: r from rfl, hc]
    dsimp only
    rw [if_neg (by decide), Nat.add_sub_cancel, ih f [] r (by simp at hf; omega), merged_entries]
    rfl
  · intro n w t v w' hw hV hw' ih fuel r hf
    obtain ⟨f, rfl⟩ : ∃ f, fuel = f + 1 := ⟨fuel - 1, by omega⟩
    simp only [List.length_append] at hf
    rw [parseElems, show w ++ t ++ w' ++ ch ']' :: r = w ++ t ++ (w' ++ ch ']' :: r) by simp,
      ih f w _ (by omega) hw (delim_blank hw' (delim_cons (by unfold isDig; decide)))]
    simp only [Option.bind_eq_bind, Option.bind_some]
    rw [skipWs_blank_cons hw' (by decide)]
    dsimp only
    rw [if_pos rfl]
  · intro n w t v w' r' a hw hV hw' hI ih ih' fuel r hf
    obtain ⟨f, rfl⟩ : ∃ f, fuel = f + 1 := ⟨fuel - 1, by omega⟩
    simp only [List.length_append, List.length_cons] at hf
    rw [parseElems, show w ++ t ++ w' ++ ch ',' :: r' ++ ch ']' :: r = w ++ t ++ (w' ++ ch ',' :: (r' ++ ch ']' :: r)) by simp,
      ih f w _ (by omega) hw (delim_blank hw' (delim_cons (by unfold isDig; decide)))]
    simp only [Option.bind_eq_bind, Option.bind_some]
    rw [skipWs_blank_cons hw' (by decide)]
    dsimp only
    rw [if_neg (by decide), if_pos rfl, ih' f r (by omega)]
    rfl
  · intro n w k key w1 w2 t v w3 hw hB hw1 hw2 hV hw3 ih fuel acc r hf
    obtain ⟨f, rfl⟩ : ∃ f, fuel = f + 1 := ⟨fuel - 1, by omega⟩
    simp only [List.length_append, List.length_cons] at hf
    rw [parseFields, show w ++ ch '"' :: (k ++ ch '"' :: (w1 ++ ch ':' :: (w2 ++ t ++ w3))) ++ ch '}' :: r =
      w ++ ch '"' :: (k ++ ch '"' :: (w1 ++ ch ':' :: (w2 ++ t ++ (w3 ++ ch '}' :: r)))) by simp, skipWs_blank_cons hw (by decide)]
    dsimp only
    rw [if_pos rfl, parseStr_complete hB _ _ (by simp)]
    simp only [Option.bind_eq_bind, Option.bind_some]
    rw [skipWs_blank_cons hw1 (by decide)]
    dsimp only
    rw [if_pos rfl, ih f w2 _ (by omega) hw2 (delim_blank hw3 (delim_cons (by unfold isDig; decide)))]
    simp only [Option.bind_some]
    rw [skipWs_blank_cons hw3 (by decide)]
    dsimp only
    rw [if_pos rfl]
    rfl
  · intro n w k key w1 w2 t v w3 r' es hw hB hw1 hw2 hV hw3 hE ih ih' fuel acc r hf
    obtain ⟨f, rfl⟩ : ∃ f, fuel = f + 1 := ⟨fuel - 1, by omega⟩
    simp only [List.length_append, List.length_cons] at hf
    rw [parseFields, show w ++ ch '"' :: (k ++ ch '"' :: (w1 ++ ch ':' :: (w2 ++ t ++ w3 ++ ch ',' :: r'))) ++ ch '}' :: r =
      w ++ ch '"' :: (k ++ ch '"' :: (w1 ++ ch ':' :: (w2 ++ t ++ (w3 ++ ch ',' :: (r' ++ ch '}' :: r))))) by simp, skipWs_blank_cons hw (by decide)]
    dsimp only
    rw [if_pos rfl, parseStr_complete hB _ _ (by simp)]
    simp only [Option.bind_eq_bind, Option.bind_some]
    rw [skipWs_blank_cons hw1 (by decide)]
    dsimp only
    rw [if_pos rfl, ih f w2 _ (by omega) hw2 (delim_blank hw3 (delim_cons (by unfold isDig; decide)))]
    simp only [Option.bind_some]
    rw [skipWs_blank_cons hw3 (by decide)]
    dsimp only
    rw [if_neg (by decide), if_pos rfl, ih' f _ r (by omega)]
    rfl

/-- The reader accepts exactly the documents of the grammar. -/
theorem parseDoc_iff (F : Str → Option Str) (s : Str) (v : Value) : parseDoc F s = some v ↔ Doc F s v := by
  constructor
  · intro h
    unfold parseDoc at h
    simp only [Option.bind_eq_bind, Option.bind_eq_some_iff, Prod.exists] at h
    obtain ⟨v', r, hp, h⟩ := h
    split at h
    · rename_i hr
      simp only [Option.some.injEq] at h
      subst h
      obtain ⟨w, t, rfl, hw, hV⟩ := (sound F _).1 _ _ _ _ hp
      exact ⟨w, t, r, rfl, hw, hV, blank_of_skip_nil hr⟩
    · cases h
  · rintro ⟨w, t, w', rfl, hw, hV, hw'⟩
    unfold parseDoc
    have hd : Delim w' := by
      have := delim_blank (r := []) hw' (by intro c hc; cases hc)
      rwa [List.append_nil] at this
    rw [complete F hV _ w w' (by simp; omega) hw hd]
    simp only [Option.bind_eq_bind, Option.bind_some]
    rw [if_pos (skipWs_blank' hw')]

end Json
end Cesride
