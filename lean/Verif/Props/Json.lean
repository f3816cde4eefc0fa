import Verif.Lemmas.Json

/-! # C39: the compact JSON text of a value determines the value -/

namespace Cesride
open Spec

/-- C39: two values with the same compact JSON text are equal, key order included. -/
theorem C39_injective {v w : Value} (hv : Plain v) (hw : Plain w) (h : v.toJson = w.toJson) : v = w := by
  have hd : Json.Delim [] := by intro c hc; simp at hc
  have h1 := Json.parse_value some v (rest := []) (fuel := 2 * v.toJson.length) (depth := max (depth v) (depth w) + 1)
    hv (Json.reads_some v) (by omega) (Nat.le_refl _) hd
  have h2 := Json.parse_value some w (rest := []) (fuel := 2 * v.toJson.length) (depth := max (depth v) (depth w) + 1)
    hw (Json.reads_some w) (by omega) (by rw [h]; exact Nat.le_refl _) hd
  rw [List.append_nil] at h1 h2
  rw [h] at h1
  rw [h] at h2
  rw [h1] at h2
  simpa using h2

/-- C39: no text is a proper prefix of another composite value's text followed by something that cannot continue it: in a
stream, the value read is the value written. -/
theorem C39_stream {v w : Value} {r r' : Str} (hv : Plain v) (hw : Plain w) (hr : ∀ c, r.head? = some c → c = ch ',' ∨ c = ch ']' ∨ c = ch '}')
    (hr' : ∀ c, r'.head? = some c → c = ch ',' ∨ c = ch ']' ∨ c = ch '}') (h : v.toJson ++ r = w.toJson ++ r') : v = w ∧ r = r' := by
  have hd : ∀ {r : Str}, (∀ c, r.head? = some c → c = ch ',' ∨ c = ch ']' ∨ c = ch '}') → Json.Delim r := by
    intro r hr c hc
    rcases hr c hc with rfl | rfl | rfl <;> simp only [Json.isDig] <;> decide
  have h1 := Json.parse_value some v (rest := r) (fuel := 2 * v.toJson.length + 2 * w.toJson.length) (depth := max (depth v) (depth w) + 1)
    hv (Json.reads_some v) (by omega) (by omega) (hd hr)
  have h2 := Json.parse_value some w (rest := r') (fuel := 2 * v.toJson.length + 2 * w.toJson.length) (depth := max (depth v) (depth w) + 1)
    hw (Json.reads_some w) (by omega) (by omega) (hd hr')
  rw [h, h2] at h1
  simp only [Option.some.injEq, Prod.mk.injEq] at h1
  exact ⟨h1.1.symm, h1.2.symm⟩

/-- C39: parsing the text gives the value back, exactly when nesting stays below the recursion limit of 128; a deeper
value prints a text that is refused as malformed. Floats must be ones that are read back (see `FloatsRead`). -/
theorem C39_roundtrip (F : Str → Option Str) {v : Value} (hv : Plain v) (hF : FloatsRead F v) :
    Json.fromStr F v.toJson = if depth v < 128 then .ok v else .err .json := Json.fromStr_toJson F hv hF

/-- A value with every construct: nested object, array, escapes, control characters, extreme integers. -/
def C39_sample : Value :=
  .obj [(lit "v", .str (lit "a\"\\\n\u0001" ++ [0xC3, 0xA9])), (lit "", .arr [.int (-2 ^ 63), .int 0, .int (2 ^ 63 - 1), .null, .bool true, .arr [], .obj []])]

example : Plain C39_sample ∧ depth C39_sample = 3 ∧
    C39_sample.toJson = lit "{\"v\":\"a\\\"\\\\\\n\\u0001" ++ [0xC3, 0xA9] ++ lit "\",\"\":[-9223372036854775808,0,9223372036854775807,null,true,[],{}]}" := by
  refine ⟨?_, by decide +kernel, by decide +kernel⟩
  simp [C39_sample, Plain, PlainElems, PlainFields, lit]

/-- `n` arrays around `null`. -/
def nested : Nat → Value
  | 0 => .null
  | n + 1 => .arr [nested n]

/-- C39, defect: for every depth from 128 on there is a value whose text the parser refuses. -/
theorem C39_defect_depth (F : Str → Option Str) (n : Nat) :
    Plain (nested n) ∧ (Json.fromStr F (nested n).toJson = .ok (nested n) ↔ n < 128) := by
  have hp : ∀ n, Plain (nested n) ∧ depth (nested n) = n := by
    intro n
    induction n with
    | zero => exact ⟨trivial, rfl⟩
    | succ n ih => simp [nested, Plain, PlainElems, depth, depthElems, ih.1, ih.2]
  refine ⟨(hp n).1, ?_⟩
  have hf : ∀ n, noFloats (nested n) = true := by
    intro n
    induction n with
    | zero => rfl
    | succ n ih => simp [nested, noFloats, noFloatsElems, ih]
  rw [C39_roundtrip F (hp n).1 (floatsRead_of_noFloats F (hf n)), (hp n).2]
  split <;> simp_all

end Cesride
