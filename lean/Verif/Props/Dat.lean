import Verif.Model.Native
import Verif.Spec.Dat
import Verif.Props.JsonRead

/-! # C122: documents written down in a program -/

namespace Cesride
open Native Spec Spec.Written Json
open Spec.JsonText (Blank Body Num merged Doc Inside Awkward)

namespace Written

theorem leading (n : Nat) (ts : List Tok) : datItems [] true (List.replicate n .comma ++ ts) = datItems [] true ts := by
  induction n with
  | zero => rfl
  | succ n ih => rw [List.replicate_succ, List.cons_append, datItems]; simpa using ih

theorem Lit.not_comma {t : Tok} {v : Value} (h : Lit t v) : t ≠ .comma := by cases h <;> simp

theorem datItems_ready {t : Tok} (h : t ≠ .comma) (elems : List Value) (rest : List Tok) :
    datItems elems true (t :: rest) = (datValue t).bind fun v => datItems (elems ++ [v]) false rest := by
  rw [datItems]
  · rfl
  · exact h

theorem datItems_comma (elems : List Value) (rest : List Tok) : datItems elems false (.comma :: rest) = datItems elems true rest := by
  rw [datItems]; rfl

theorem datItems_end {elems : List Value} {t : Tok} {rest : List Tok} {v : Value} (h : datItems elems false (t :: rest) = some v) :
    t = .comma ∧ datItems elems true rest = some v := by
  by_cases ht : t = .comma
  · subst ht; exact ⟨rfl, (datItems_comma _ _).symm.trans h⟩
  · rw [datItems] at h
    · simp at h
    · exact ht

mutual
theorem written_value {t : Tok} {v : Value} : Lit t v → datValue t = some v
  | .null => rfl
  | .yes => rfl
  | .no => rfl
  | .expr => rfl
  | .arr (n := n) h => by
    rw [datValue, leading]
    simpa using written_items h []
  | .obj h => by
    rw [datValue, written_entries h []]
    rw [← merged_entries]
theorem written_items {ts : List Tok} {a : List Value} : Items ts a → ∀ elems, datItems elems true ts = some (.arr (elems ++ a))
  | .nil => fun elems => by rw [datItems]; simp
  | .last h => fun elems => by
    rw [datItems_ready (Lit.not_comma h), written_value h]
    simp [datItems]
  | .more h r => fun elems => by
    rw [datItems_ready (Lit.not_comma h), written_value h, Option.bind_some, datItems_comma, written_items r]
    simp
theorem written_entries {ts : List Tok} {es : List (Str × Value)} : Entries ts es → ∀ o, datEntries o ts = some (.obj (insertAll o es))
  | .nil => fun o => by rw [datEntries]; rfl
  | .last h => fun o => by rw [datEntries, written_value h]; rfl
  | .more h r => fun o => by rw [datEntries, written_value h]; exact written_entries r _
end
mutual
theorem value_written : ∀ {t : Tok} {v : Value}, datValue t = some v → Lit t v
  | .null, v, h => by cases h; exact .null
  | .yes, v, h => by cases h; exact .yes
  | .no, v, h => by cases h; exact .no
  | .expr w, v, h => by cases h; exact .expr
  | .comma, v, h => by cases h
  | .colon, v, h => by cases h
  | .other, v, h => by cases h
  | .bracket ts, v, h => by
    rw [datValue] at h
    obtain ⟨n, us, a, rfl, hi, hv, -⟩ := items_written h
    rw [hv, List.nil_append]
    exact .arr hi
  | .brace ts, v, h => by
    rw [datValue] at h
    obtain ⟨es, he, hv⟩ := entries_written h
    have := Lit.obj he
    rw [← merged_entries] at this
    rw [hv]; exact this
termination_by t => sizeOf t
theorem items_written : ∀ {elems : List Value} {ts : List Tok} {v : Value}, datItems elems true ts = some v →
    ∃ n us a, ts = List.replicate n .comma ++ us ∧ Items us a ∧ v = .arr (elems ++ a) ∧ (elems ≠ [] → n = 0)
  | elems, [], v, h => by
    rw [datItems] at h
    exact ⟨0, [], [], rfl, .nil, by cases h; simp, fun _ => rfl⟩
  | elems, t :: rest, v, h => by
    by_cases ht : t = .comma
    · subst ht
      rw [datItems, if_pos rfl] at h
      split at h
      · rename_i he
        obtain ⟨n, us, a, h1, h2, h3, -⟩ := items_written h
        have : elems = [] := List.isEmpty_iff.mp he
        subst this
        exact ⟨n + 1, us, a, by rw [h1]; rfl, h2, h3, fun hh => absurd rfl hh⟩
      · cases h
    · rw [datItems_ready ht] at h
      cases hw : datValue t with
      | none => rw [hw] at h; cases h
      | some w =>
        rw [hw, Option.bind_some] at h
        have hl := value_written hw
        match hr : rest, h with
        | [], h =>
          rw [datItems] at h
          exact ⟨0, [t], [w], rfl, .last hl, by cases h; rfl, fun _ => rfl⟩
        | u :: us, h =>
          obtain ⟨rfl, h⟩ := datItems_end h
          obtain ⟨n, vs, a, h1, h2, h3, h4⟩ := items_written h
          have := h4 (by simp)
          subst this
          refine ⟨0, t :: .comma :: us, w :: a, rfl, .more hl (by rw [h1]; exact h2), ?_, fun _ => rfl⟩
          rw [h3, List.append_assoc]; rfl
termination_by _ ts => sizeOf ts
decreasing_by all_goals (try subst hr); simp_wf; try omega
theorem entries_written : ∀ {o : List (Str × Value)} {ts : List Tok} {v : Value}, datEntries o ts = some v →
    ∃ es, Entries ts es ∧ v = .obj (insertAll o es)
  | o, ts, v, h => by
    rw [datEntries.eq_def] at h
    split at h
    · exact ⟨[], .nil, by cases h; rfl⟩
    · rename_i k t
      cases hw : datValue t with
      | none => rw [hw] at h; cases h
      | some w =>
        rw [hw] at h
        exact ⟨[(k, w)], .last (value_written hw), by cases h; rfl⟩
    · rename_i k t rest
      cases hw : datValue t with
      | none => rw [hw] at h; cases h
      | some w =>
        rw [hw] at h
        obtain ⟨es, he, hv⟩ := entries_written (o := Value.insert o k w) h
        exact ⟨(k, w) :: es, .more (value_written hw) he, hv⟩
    · cases h
termination_by _ ts => sizeOf ts
end


mutual
theorem pasted_value {F : Str → Option Str} {n : Nat} {s : Str} {t : Tok} : Pasted F n s t → ∃ v, Lit t v ∧ JsonText.Val F n s v
  | .null => ⟨_, .null, .null⟩
  | .yes => ⟨_, .yes, .yes⟩
  | .no => ⟨_, .no, .no⟩
  | .str h => ⟨_, .expr, .str h⟩
  | .num h => ⟨_, .expr, .num h⟩
  | .arr0 h => ⟨_, .arr (n := 0) .nil, .arr0 h⟩
  | .arr h => by
    obtain ⟨a, h1, h2⟩ := pasted_items h
    exact ⟨_, .arr (n := 0) h1, .arr h2⟩
  | .obj0 h => ⟨_, .obj .nil, .obj0 h⟩
  | .obj h => by
    obtain ⟨a, h1, h2⟩ := pasted_entries h
    exact ⟨_, .obj h1, .obj h2⟩
theorem pasted_items {F : Str → Option Str} {n : Nat} {s : Str} {ts : List Tok} : PastedItems F n s ts → ∃ a, Items ts a ∧ JsonText.Items F n s a
  | .one w h w' => by
    obtain ⟨v, h1, h2⟩ := pasted_value h
    exact ⟨_, .last h1, .one w h2 w'⟩
  | .more w h w' r => by
    obtain ⟨v, h1, h2⟩ := pasted_value h
    obtain ⟨a, h3, h4⟩ := pasted_items r
    exact ⟨_, .more h1 h3, .more w h2 w' h4⟩
theorem pasted_entries {F : Str → Option Str} {n : Nat} {s : Str} {ts : List Tok} : PastedEntries F n s ts → ∃ es, Entries ts es ∧ JsonText.Entries F n s es
  | .one w k w1 w2 h w3 => by
    obtain ⟨v, h1, h2⟩ := pasted_value h
    exact ⟨_, .last h1, .one w k w1 w2 h2 w3⟩
  | .more w k w1 w2 h w3 r => by
    obtain ⟨v, h1, h2⟩ := pasted_value h
    obtain ⟨a, h3, h4⟩ := pasted_entries r
    exact ⟨_, .more h1 h3, .more w k w1 w2 h2 w3 h4⟩
end

mutual
theorem can_paste {F : Str → Option Str} {n : Nat} {s : Str} {v : Value} : JsonText.Val F n s v → ∃ t, Pasted F n s t
  | .null => ⟨_, .null⟩
  | .yes => ⟨_, .yes⟩
  | .no => ⟨_, .no⟩
  | .str h => ⟨_, .str h⟩
  | .num h => ⟨_, .num h⟩
  | .arr0 h => ⟨_, .arr0 h⟩
  | .arr h => by
    obtain ⟨a, h1⟩ := can_paste_items h
    exact ⟨_, .arr h1⟩
  | .obj0 h => ⟨_, .obj0 h⟩
  | .obj h => by
    obtain ⟨a, h1⟩ := can_paste_entries h
    exact ⟨_, .obj h1⟩
theorem can_paste_items {F : Str → Option Str} {n : Nat} {s : Str} {a : List Value} : JsonText.Items F n s a → ∃ ts, PastedItems F n s ts
  | .one w h w' => by
    obtain ⟨v, h1⟩ := can_paste h
    exact ⟨_, .one w h1 w'⟩
  | .more w h w' r => by
    obtain ⟨v, h1⟩ := can_paste h
    obtain ⟨a, h3⟩ := can_paste_items r
    exact ⟨_, .more w h1 w' h3⟩
theorem can_paste_entries {F : Str → Option Str} {n : Nat} {s : Str} {es : List (Str × Value)} : JsonText.Entries F n s es → ∃ ts, PastedEntries F n s ts
  | .one w k w1 w2 h w3 => by
    obtain ⟨v, h1⟩ := can_paste h
    exact ⟨_, .one w k w1 w2 h1 w3⟩
  | .more w k w1 w2 h w3 r => by
    obtain ⟨v, h1⟩ := can_paste h
    obtain ⟨a, h3⟩ := can_paste_entries r
    exact ⟨_, .more w k w1 w2 h1 w3 h3⟩
end

end Written
open Written

/-- C122. Which programs compile, and to what: exactly the token trees that write a document, and to this document. -/
theorem C122_compiles (ts : List Tok) (v : Value) : dat ts = some v ↔ ∃ t, ts = [t] ∧ Lit t v := by
  match ts with
  | [] => simp [dat]
  | [t] => exact ⟨fun h => ⟨t, rfl, value_written h⟩, fun ⟨u, hu, h⟩ => by cases hu; exact written_value h⟩
  | _ :: _ :: _ => simp [dat]

/-- C122. A JSON text pasted into a program writes the document that the text denotes: the one that reading the text gives, whenever reading gives one. -/
theorem C122_pasted {F : Str → Option Str} {s : Str} {t : Tok} (h : Pasted F 127 s t) :
    ∃ v, dat [t] = some v ∧ Doc F s v ∧ (∀ w, Json.fromStr F s = .ok w → w = v) ∧ ((∀ x, Inside x v → ¬ Awkward x) → Json.fromStr F s = .ok v) := by
  obtain ⟨v, h1, h2⟩ := pasted_value h
  have hd : Doc F s v := ⟨[], s, [], by simp, (by intro c hc; cases hc), h2, (by intro c hc; cases hc)⟩
  refine ⟨v, written_value h1, hd, fun w hw => ?_, fun hx => ?_⟩
  · exact C81_unique (((C81_read F s).1 w).mp hw).1 hd
  · exact ((C81_read F s).1 v).mpr ⟨hd, hx⟩

/-- C122. Every text that reading takes can be pasted (without the blanks around it), and the program then has the document that was read. -/
theorem C122_read_or_written {F : Str → Option Str} {s : Str} {v : Value} (h : Json.fromStr F s = .ok v) :
    ∃ w u w' t, s = w ++ u ++ w' ∧ Blank w ∧ Blank w' ∧ Pasted F 127 u t ∧ dat [t] = some v := by
  obtain ⟨⟨w, u, w', hs, hw, hu, hw'⟩, -⟩ := ((C81_read F s).1 v).mp h
  obtain ⟨t, ht⟩ := can_paste hu
  obtain ⟨x, h1, h2⟩ := pasted_value ht
  have e : x = v := C81_unique (F := F) (s := s) ⟨w, u, w', hs, hw, h2, hw'⟩ ⟨w, u, w', hs, hw, hu, hw'⟩
  subst e
  exact ⟨w, u, w', t, hs, hw, hw', ht, written_value h1⟩

/-- C122, with C97: entries in braces are the document of C97, elements in brackets are the array of them. -/
theorem C122_shapes {ts : List Tok} :
    (∀ es, Entries ts es → dat [.brace ts] = some (datObject es)) ∧ ∀ a, Items ts a → dat [.bracket ts] = some (datArray a) := by
  refine ⟨fun es h => ?_, fun a h => ?_⟩
  · exact written_entries h []
  · exact written_value (.arr (n := 0) h)

/-- C122, the exception: commas before the first element of an array mean nothing. -/
theorem C122_leading_commas (n : Nat) (ts : List Tok) : dat [.bracket (List.replicate n .comma ++ ts)] = dat [.bracket ts] := leading n ts

/-- C122: a nested document with a key written twice, trailing commas and commas at the front; some programs that do not compile. -/
example :
    dat [.brace [.expr (.str (lit "a")), .colon, .bracket [.comma, .null, .comma, .expr (.int 1), .comma], .comma,
      .expr (.str (lit "b")), .colon, .brace [], .comma, .expr (.str (lit "a")), .colon, .yes, .comma]] =
        some (.obj [(lit "a", .bool true), (lit "b", .obj [])]) ∧
    dat [.bracket [.null, .comma, .comma]] = none ∧ dat [.bracket [.null, .null]] = none ∧ dat [.brace [.comma]] = none ∧
    dat [.brace [.expr (.str []), .colon, .no, .comma, .comma]] = none ∧ dat [] = none := by
  refine ⟨by kernel_rfl, rfl, rfl, rfl, rfl, rfl⟩

/-- C122: a text with blanks, pasted. -/
example : ∃ t, Pasted (fun _ => none) 127 (lit "{ \"a\":[true,null] }") t ∧ dat [t] = some (.obj [(lit "a", .arr [.bool true, .null])]) := by
  refine ⟨.brace [.expr (.str (lit "a")), .colon, .bracket [.yes, .comma, .null]], ?_, by kernel_rfl⟩
  have hb : Blank [] := by intro c hc; cases hc
  have hs : Blank [32] := by intro c hc; simp at hc; exact .inl hc
  have h := PastedEntries.one (F := fun _ => none) (n := 126) (k := lit "a") (key := lit "a") hs (.plain (by decide) (by decide) (by decide) .nil) hb hb
    (.arr (.more hb .yes hb (.one hb .null hb))) hs
  exact .obj h

end Cesride
