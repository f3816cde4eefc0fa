import Verif.Props.Json
import Verif.Lemmas.Pretty
import Verif.Lemmas.Codes
import Verif.Lemmas.KernelRfl

/-! # Property C70: printing a message for people -/

namespace Cesride
open Spec

theorem pretty_eq (F : Str → Option Str) {s : Sadder} (hp : Plain s.ked) (hF : FloatsRead F s.ked) (size : Option Nat) :
    s.pretty F size =
      if depth s.ked < 128 then
        (if (Json.pretty 0 s.ked).length ≤ size.getD 1024 then .ok (Json.pretty 0 s.ked)
         else if isBoundary (Json.pretty 0 s.ked) (size.getD 1024) then .ok ((Json.pretty 0 s.ked).take (size.getD 1024)) else .panic)
      else .err .json := by
  have h := Json.fromStr_toJson F hp hF
  rw [Sadder.pretty]
  by_cases hd : depth s.ked < 128
  · rw [if_pos hd] at h ⊢
    have hpd : Json.parseDoc F s.ked.toJson = some s.ked := by
      rw [Json.fromStr] at h
      cases hq : Json.parseDoc F s.ked.toJson with
      | none => rw [hq] at h; cases h
      | some v =>
        rw [hq] at h
        dsimp only at h
        split at h
        · rw [Res.ok.inj h]
        · cases h
    rw [hpd]
    dsimp only
    by_cases hl : (Json.pretty 0 s.ked).length ≤ size.getD 1024
    · rw [if_neg (by omega), if_pos hl]
    · rw [if_pos (by omega), if_neg hl, sliceStr]
      have h0 : isBoundary (Json.pretty 0 s.ked) 0 = true := by
        unfold isBoundary
        cases Json.pretty 0 s.ked <;> simp
      by_cases hb : isBoundary (Json.pretty 0 s.ked) (size.getD 1024) = true
      · rw [if_pos ⟨by omega, by omega, h0, hb⟩, if_pos hb, List.drop_zero]
      · rw [if_neg (by intro h; exact hb h.2.2.2), if_neg hb]
  · rw [if_neg hd] at h ⊢
    have hpd : Json.parseDoc F s.ked.toJson = none := by
      rw [Json.fromStr] at h
      cases hq : Json.parseDoc F s.ked.toJson with
      | none => rfl
      | some v =>
        rw [hq] at h
        dsimp only at h
        split at h <;> cases h
    rw [hpd]

/-- C70. The printed text reads back as the map of the message, and is cut to the size asked for, 1024 bytes by default. -/
theorem C70_text (F : Str → Option Str) {s : Sadder} (hp : Plain s.ked) (hF : FloatsRead F s.ked) (hd : depth s.ked < 128) :
    ∃ t, Json.fromStr F t = .ok s.ked ∧
      (∀ size, s.pretty F size = .ok t ↔ t.length ≤ size.getD 1024) ∧
      (∀ size t', s.pretty F size = .ok t' → t' = t.take (size.getD 1024)) ∧
      (∀ size, s.pretty F size = .panic ↔ size.getD 1024 < t.length ∧ isBoundary t (size.getD 1024) = false) ∧
      (∀ size e, s.pretty F size ≠ .err e) := by
  refine ⟨Json.pretty 0 s.ked, Json.fromStr_pretty F hp hF hd, ?_, ?_, ?_, ?_⟩
  · intro size
    rw [pretty_eq F hp hF, if_pos hd]
    split
    · simp [*]
    · rename_i h
      split
      · simp only [Res.ok.injEq, h, iff_false]
        intro h'
        have := congrArg List.length h'
        simp at this
        omega
      · simp [h]
  · intro size t' h
    rw [pretty_eq F hp hF, if_pos hd] at h
    split at h
    · rename_i hl; rw [← Res.ok.inj h, List.take_of_length_le hl]
    · split at h
      · exact (Res.ok.inj h).symm
      · cases h
  · intro size
    rw [pretty_eq F hp hF, if_pos hd]
    split
    · simp; omega
    · split
      · simp [*]
      · simp_all
  · intro size e h
    rw [pretty_eq F hp hF, if_pos hd] at h
    repeat' split at h
    all_goals cases h

/-- C70. A message nested 128 deep or more is refused. -/
theorem C70_deep (F : Str → Option Str) {s : Sadder} (hp : Plain s.ked) (hF : FloatsRead F s.ked) (hd : 128 ≤ depth s.ked) (size : Option Nat) : s.pretty F size = .err .json := by
  rw [pretty_eq F hp hF, if_neg (by omega)]

theorem ascii_newline (ind : Nat) : Ascii (Json.newline ind) := by
  intro c hc
  simp only [Json.newline, List.mem_cons, List.mem_replicate] at hc
  rcases hc with rfl | ⟨_, rfl⟩ <;> decide

theorem ascii_append_iff {a b : Str} : Ascii (a ++ b) ↔ Ascii a ∧ Ascii b := by
  simp only [Ascii, List.mem_append]
  constructor
  · intro h; exact ⟨fun c hc => h c (.inl hc), fun c hc => h c (.inr hc)⟩
  · rintro ⟨h1, h2⟩ c (hc | hc)
    · exact h1 c hc
    · exact h2 c hc

theorem ascii_cons {a : UInt8} {b : Str} : Ascii (a :: b) ↔ a < 128 ∧ Ascii b := by
  simp only [Ascii, List.mem_cons, forall_eq_or_imp]

theorem ascii_nil : Ascii [] := by intro c hc; cases hc

mutual
theorem ascii_pretty : ∀ (ind : Nat) (v : Value), Ascii v.toJson → Ascii (Json.pretty ind v)
  | _, .null, h => by simpa only [Json.pretty, Value.toJson] using h
  | _, .bool _, h => by simpa only [Json.pretty, Value.toJson] using h
  | _, .int _, h => by simpa only [Json.pretty, Value.toJson] using h
  | _, .float _, h => by simpa only [Json.pretty, Value.toJson] using h
  | _, .str _, h => by simpa only [Json.pretty, Value.toJson] using h
  | _, .arr [], h => by simp only [Json.pretty]; unfold Ascii; decide
  | _, .obj [], h => by simp only [Json.pretty]; unfold Ascii; decide
  | ind, .arr (v :: a), h => by
    simp only [Value.toJson, ascii_cons, ascii_append_iff] at h
    simp only [Json.pretty, ascii_cons, ascii_append_iff]
    exact ⟨by decide, ascii_pretty_elems (ind + 1) (v :: a) h.2.1, ascii_newline _, by decide, ascii_nil⟩
  | ind, .obj (e :: o), h => by
    simp only [Value.toJson, ascii_cons, ascii_append_iff] at h
    simp only [Json.pretty, ascii_cons, ascii_append_iff]
    exact ⟨by decide, ascii_pretty_fields (ind + 1) (e :: o) h.2.1, ascii_newline _, by decide, ascii_nil⟩
theorem ascii_pretty_elems : ∀ (ind : Nat) (a : List Value), Ascii (elemsJson a) → Ascii (Json.prettyElems ind a)
  | _, [], _ => by simp only [Json.prettyElems]; exact ascii_nil
  | ind, [v], h => by
    simp only [elemsJson, ascii_append_iff] at h
    simp only [Json.prettyElems, ascii_append_iff]
    exact ⟨ascii_newline _, ascii_pretty ind v h.1, ascii_nil⟩
  | ind, v :: w :: a, h => by
    rw [elemsJson, ascii_append_iff, ascii_cons] at h
    rw [Json.prettyElems, ascii_append_iff, ascii_append_iff, ascii_cons]
    exact ⟨ascii_newline _, ascii_pretty ind v h.1, by decide, ascii_pretty_elems ind (w :: a) h.2.2⟩
theorem ascii_pretty_fields : ∀ (ind : Nat) (o : List (Str × Value)), Ascii (fieldsJson o) → Ascii (Json.prettyFields ind o)
  | _, [], _ => by simp only [Json.prettyFields]; exact ascii_nil
  | ind, [(k, v)], h => by
    simp only [fieldsJson, ascii_append_iff, ascii_cons] at h
    simp only [Json.prettyFields, ascii_append_iff, ascii_cons]
    exact ⟨ascii_newline _, h.1, by decide, by decide, ascii_pretty ind v h.2.2.1, ascii_nil⟩
  | ind, (k, v) :: w :: o, h => by
    rw [fieldsJson, ascii_append_iff, ascii_cons, ascii_append_iff, ascii_cons] at h
    rw [Json.prettyFields, ascii_append_iff, ascii_append_iff, ascii_cons, ascii_cons, ascii_append_iff, ascii_cons]
    exact ⟨ascii_newline _, h.1, by decide, by decide, ascii_pretty ind v h.2.2.1, by decide, ascii_pretty_fields ind (w :: o) h.2.2.2.2⟩
end

/-- C70. A message whose text is ASCII prints at every size. -/
theorem C70_ascii (F : Str → Option Str) {s : Sadder} (hp : Plain s.ked) (hF : FloatsRead F s.ked) (hd : depth s.ked < 128) (ha : Ascii s.ked.toJson) :
    ∃ t, Json.fromStr F t = .ok s.ked ∧ ∀ size, s.pretty F size = .ok (t.take (size.getD 1024)) := by
  refine ⟨Json.pretty 0 s.ked, Json.fromStr_pretty F hp hF hd, ?_⟩
  intro size
  rw [pretty_eq F hp hF, if_pos hd]
  split
  · rename_i hl; rw [List.take_of_length_le hl]
  · rw [if_pos (isBoundary_ascii (ascii_pretty 0 _ ha) (by omega))]

/-- C70, the defect: for every size from 11 on there is a small document that cannot be printed at that size, because a character (here the two bytes
of é) ends up on the cut. -/
theorem C70_defect (F : Str → Option Str) (k : Nat) {s : Sadder}
    (hk : s.ked = .obj [(lit "d", .str (List.replicate k (ch 'a') ++ [0xC3, 0xA9]))]) : s.pretty F (some (k + 11)) = .panic := by
  have hp : Plain s.ked := by rw [hk]; simp [Plain, PlainFields]
  have hF : FloatsRead F s.ked := by rw [hk]; exact floatsRead_of_noFloats F rfl
  have hd : depth s.ked < 128 := by rw [hk]; simp [depth, depthFields]
  have he : ∀ k, (List.replicate k (ch 'a')).flatMap escapeByte = List.replicate k (ch 'a') := by
    intro k
    induction k with
    | zero => rfl
    | succ k ih => rw [List.replicate_succ, List.flatMap_cons, ih]; rfl
  have ht : Json.pretty 0 s.ked = lit "{\n  \"d\": \"" ++ (List.replicate k (ch 'a') ++ [0xC3, 0xA9, 34, 10, 125]) := by
    rw [hk]
    simp only [Json.pretty, Json.prettyFields, jsonStr, List.flatMap_append, he]
    rw [show ([0xC3, 0xA9] : Str).flatMap escapeByte = [0xC3, 0xA9] by decide, show (lit "d").flatMap escapeByte = lit "d" by decide]
    simp [Json.newline, lit, List.replicate]
    decide
  rw [pretty_eq F hp hF, if_pos hd, Option.getD_some, ht]
  have hl : (lit "{\n  \"d\": \"").length = 10 := by decide
  have hl2 : ([0xC3, 0xA9, 34, 10, 125] : Str).length = 5 := by decide
  rw [if_neg (by simp only [List.length_append, List.length_replicate, hl, hl2]; omega), if_neg]
  rw [isBoundary, List.getElem?_append_right (by omega), List.getElem?_append_right (by simp only [List.length_replicate]; omega)]
  rw [hl, List.length_replicate, show k + 11 - 10 - k = 1 by omega]
  rw [show ([0xC3, 0xA9, 34, 10, 125] : Str)[1]? = some 0xA9 by decide]
  simp
  decide

/-- The layout: two spaces a level, empty containers on one line. -/
example : ∀ s : Sadder, s.ked = .obj [(lit "d", .str (lit "E")), (lit "a", .arr [.int 1, .obj [(lit "b", .null)], .arr []])] →
    s.pretty (fun _ => none) none = .ok (lit "{\n  \"d\": \"E\",\n  \"a\": [\n    1,\n    {\n      \"b\": null\n    },\n    []\n  ]\n}") ∧
    s.pretty (fun _ => none) (some 12) = .ok (lit "{\n  \"d\": \"E\"") := by
  intro s h
  have hp : Plain s.ked := by rw [h]; simp [Plain, PlainFields, PlainElems, lit]
  have hF : FloatsRead (fun _ => none) s.ked := by rw [h]; exact floatsRead_of_noFloats _ rfl
  rw [pretty_eq _ hp hF, pretty_eq _ hp hF, h]
  exact ⟨by kernel_rfl, by kernel_rfl⟩

/-- C70_deep: a message whose content is nested too deep meets the premises. -/
example (s : Sadder) (h : s.ked = .obj [(lit "d", .str (lit "E")), (lit "a", nested 127)]) : s.pretty (fun _ => none) none = .err .json := by
  have hp : ∀ n, Plain (nested n) := by
    intro n
    induction n with
    | zero => simp [nested, Plain]
    | succ n ih => simp [nested, Plain, PlainElems, ih]
  refine C70_deep _ ?_ ?_ ?_ _
  · rw [h]; simp [Plain, PlainFields, lit, hp]
  · rw [h]; exact floatsRead_of_noFloats _ (by decide +kernel)
  · rw [h]; decide +kernel

end Cesride
