import Verif.Model.Pretty
import Verif.Lemmas.Json

/-! # The text printed with line breaks parses to the value -/

namespace Cesride.Json

theorem skipWs_replicate (n : Nat) (s : Str) : skipWs (List.replicate n 32 ++ s) = skipWs s := by
  induction n with
  | zero => rfl
  | succ n ih => rw [List.replicate_succ, List.cons_append, skipWs, if_pos (by decide), ih]

theorem skipWs_newline (ind : Nat) (s : Str) : skipWs (newline ind ++ s) = skipWs s := by
  rw [newline, List.cons_append, skipWs, if_pos (by decide), skipWs_replicate]

theorem skipWs_idem (s : Str) : skipWs (skipWs s) = skipWs s := by
  induction s with
  | nil => rfl
  | cons c s ih =>
    rw [skipWs]
    split
    · exact ih
    · rename_i h; rw [skipWs, if_neg h]

theorem parseValue_skip (F : Str → Option Str) (fuel depth : Nat) {s t : Str} (h : skipWs s = skipWs t) :
    parseValue F fuel depth s = parseValue F fuel depth t := by
  cases fuel with
  | zero => simp only [parseValue]
  | succ fuel => rw [parseValue, parseValue, h]

theorem parseFields_skip (F : Str → Option Str) (fuel depth : Nat) (acc : List (Str × Value)) {s t : Str} (h : skipWs s = skipWs t) :
    parseFields F fuel depth acc s = parseFields F fuel depth acc t := by
  cases fuel with
  | zero => simp only [parseFields]
  | succ fuel => rw [parseFields, parseFields, h]

theorem delim_newline (ind : Nat) (s : Str) : Delim (newline ind ++ s) := by
  intro c hc
  simp [newline] at hc
  subst hc
  simp only [isDig]
  decide

theorem pretty_head (ind : Nat) (v : Value) (hv : Spec.Plain v) :
    ∃ c t, pretty ind v = c :: t ∧ isWs c = false ∧ c ≠ ch ']' ∧ c ≠ ch '}' := by
  cases v with
  | arr a => cases a <;> simp only [pretty] <;> exact ⟨_, _, rfl, by decide, by decide, by decide⟩
  | obj a => cases a <;> simp only [pretty] <;> exact ⟨_, _, rfl, by decide, by decide, by decide⟩
  | null => exact ⟨_, _, by simp only [pretty]; rfl, by decide, by decide, by decide⟩
  | bool b => obtain ⟨c, t, h⟩ := toJson_head (.bool b) hv; exact ⟨c, t, by simpa only [pretty, Value.toJson] using h⟩
  | int b => obtain ⟨c, t, h⟩ := toJson_head (.int b) hv; exact ⟨c, t, by simpa only [pretty, Value.toJson] using h⟩
  | float b => obtain ⟨c, t, h⟩ := toJson_head (.float b) hv; exact ⟨c, t, by simpa only [pretty, Value.toJson] using h⟩
  | str b => obtain ⟨c, t, h⟩ := toJson_head (.str b) hv; exact ⟨c, t, by simpa only [pretty, Value.toJson] using h⟩

theorem scalar_pretty (F : Str → Option Str) {v : Value} {ind : Nat} (e : pretty ind v = v.toJson) {rest : Str} {fuel depth : Nat}
    (hp : Spec.Plain v) (hF : Reads F v) (hd : Spec.depth v < depth) (hf : 2 * (pretty ind v).length ≤ fuel) (hr : Delim rest) :
    parseValue F fuel depth (pretty ind v ++ rest) = some (v, rest) := by
  rw [e] at hf ⊢
  exact parse_value F v hp hF hd hf hr

mutual
theorem parse_pretty (F : Str → Option Str) : ∀ (v : Value) {ind : Nat} {rest : Str} {fuel depth : Nat}, Spec.Plain v → Reads F v → Spec.depth v < depth →
    2 * (pretty ind v).length ≤ fuel → Delim rest → parseValue F fuel depth (pretty ind v ++ rest) = some (v, rest)
  | .null, ind, _, _, _, hp, hF, hd, hf, hr => scalar_pretty F (by simp only [pretty, Value.toJson]) hp hF hd hf hr
  | .bool b, ind, _, _, _, hp, hF, hd, hf, hr => scalar_pretty F (by simp only [pretty, Value.toJson]) hp hF hd hf hr
  | .int i, ind, _, _, _, hp, hF, hd, hf, hr => scalar_pretty F (by simp only [pretty, Value.toJson]) hp hF hd hf hr
  | .float t, ind, _, _, _, hp, hF, hd, hf, hr => scalar_pretty F (by simp only [pretty, Value.toJson]) hp hF hd hf hr
  | .str s, ind, _, _, _, hp, hF, hd, hf, hr => scalar_pretty F (by simp only [pretty, Value.toJson]) hp hF hd hf hr
  | .arr [], ind, _, _, _, hp, hF, hd, hf, hr => scalar_pretty F (by simp only [pretty, Value.toJson, elemsJson]; rfl) hp hF hd hf hr
  | .obj [], ind, _, _, _, hp, hF, hd, hf, hr => scalar_pretty F (by simp only [pretty, Value.toJson, fieldsJson]; rfl) hp hF hd hf hr
  | .arr (v :: a), ind, rest, fuel, depth, hp, hF, hd, hf, _ => by
    simp only [pretty, List.length_cons, List.length_append, List.length_nil] at hf
    simp only [Spec.depth] at hd
    simp only [Spec.Plain] at hp
    cases fuel with
    | zero => omega
    | succ fuel =>
      simp only [pretty]
      have hpe := parse_pretty_elems F (v :: a) (ind := ind + 1) (out := ind) (rest := rest) (fuel := fuel) (depth := depth - 1) (by simp) hp hF.arr (by omega)
        (by omega)
      obtain ⟨c, t, h1, h2, h3, _⟩ := pretty_head (ind + 1) v hp.1
      have hs : ∃ t', skipWs (prettyElems (ind + 1) (v :: a) ++ (newline ind ++ ch ']' :: rest)) = c :: t' := by
        simp only [prettyElems, h1, List.append_assoc, skipWs_newline, List.cons_append, skipWs_of_not h2]
        exact ⟨_, rfl⟩
      obtain ⟨t', hs⟩ := hs
      rw [show ch '[' :: (prettyElems (ind + 1) (v :: a) ++ (newline ind ++ [ch ']'])) ++ rest =
        ch '[' :: (prettyElems (ind + 1) (v :: a) ++ (newline ind ++ ch ']' :: rest)) by simp, parseValue, skipWs_of_not (by decide)]
      dsimp only
      rw [if_neg (by decide), if_neg (by decide), if_neg (by decide), if_neg (by decide), if_pos rfl, if_neg (by omega), hs]
      dsimp only
      rw [if_neg h3, hpe]
      rfl
  | .obj (e :: o), ind, rest, fuel, depth, hp, hF, hd, hf, _ => by
    simp only [pretty, List.length_cons, List.length_append, List.length_nil] at hf
    simp only [Spec.depth] at hd
    simp only [Spec.Plain] at hp
    cases fuel with
    | zero => omega
    | succ fuel =>
      simp only [pretty]
      have hpe := parse_pretty_fields F (e :: o) (ind := ind + 1) (out := ind) (acc := []) (rest := rest) (fuel := fuel) (depth := depth - 1) (by simp)
        hp.1 hF.obj (by simpa using hp.2) (by omega) (by omega)
      obtain ⟨k, v⟩ := e
      have hs : ∃ t', skipWs (prettyFields (ind + 1) ((k, v) :: o) ++ (newline ind ++ ch '}' :: rest)) = ch '"' :: t' := by
        simp only [prettyFields, jsonStr, List.append_assoc, skipWs_newline, List.cons_append]
        rw [skipWs_of_not (by decide)]
        exact ⟨_, rfl⟩
      obtain ⟨t', hs⟩ := hs
      rw [show ch '{' :: (prettyFields (ind + 1) ((k, v) :: o) ++ (newline ind ++ [ch '}'])) ++ rest =
        ch '{' :: (prettyFields (ind + 1) ((k, v) :: o) ++ (newline ind ++ ch '}' :: rest)) by simp, parseValue, skipWs_of_not (by decide)]
      dsimp only
      rw [if_neg (by decide), if_neg (by decide), if_neg (by decide), if_neg (by decide), if_neg (by decide), if_pos rfl, if_neg (by omega), hs]
      dsimp only
      rw [if_neg (by decide), hpe]
      rfl

theorem parse_pretty_elems (F : Str → Option Str) : ∀ (a : List Value) {ind out : Nat} {rest : Str} {fuel depth : Nat}, a ≠ [] → Spec.PlainElems a → ReadsElems F a →
    Spec.depthElems a < depth → 2 * (prettyElems ind a).length + 1 ≤ fuel →
    parseElems F fuel depth (prettyElems ind a ++ (newline out ++ ch ']' :: rest)) = some (a, rest)
  | [], _, _, _, _, _, h, _, _, _, _ => absurd rfl h
  | v :: a, ind, out, rest, fuel, depth, _, hp, hF, hd, hf => by
    simp only [Spec.PlainElems] at hp
    simp only [Spec.depthElems] at hd
    cases fuel with
    | zero => omega
    | succ fuel =>
      cases a with
      | nil =>
        simp only [prettyElems, List.append_nil, List.length_append] at hf ⊢
        have hv := parse_pretty F v (ind := ind) (rest := newline out ++ ch ']' :: rest) (fuel := fuel) (depth := depth) hp.1 (hF _ (List.mem_cons_self ..)) (by omega) (by omega)
          (delim_newline _ _)
        rw [parseElems, List.append_assoc, parseValue_skip F _ _ (skipWs_newline _ _), hv]
        simp only [Option.bind_eq_bind, Option.bind_some]
        rw [skipWs_newline, skipWs_of_not (by decide)]
        rfl
      | cons w a =>
        have he : prettyElems ind (v :: w :: a) = newline ind ++ (pretty ind v ++ ch ',' :: prettyElems ind (w :: a)) := by simp only [prettyElems]
        rw [he] at hf ⊢
        simp only [List.length_append, List.length_cons] at hf
        have hv := parse_pretty F v (ind := ind) (rest := ch ',' :: (prettyElems ind (w :: a) ++ (newline out ++ ch ']' :: rest))) (fuel := fuel)
          (depth := depth) hp.1 (hF _ (List.mem_cons_self ..)) (by omega) (by omega) (by intro c hc; simp at hc; subst hc; simp only [isDig]; decide)
        have ha := parse_pretty_elems F (w :: a) (ind := ind) (out := out) (rest := rest) (fuel := fuel) (depth := depth) (by simp) hp.2 (fun x hx => hF x (List.mem_cons_of_mem _ hx)) (by omega) (by omega)
        rw [List.append_assoc, List.append_assoc, List.cons_append, parseElems, parseValue_skip F _ _ (skipWs_newline _ _), hv]
        simp only [Option.bind_eq_bind, Option.bind_some]
        rw [skipWs_of_not (by decide)]
        dsimp only
        rw [if_neg (by decide), if_pos rfl, ha]
        rfl

theorem parse_pretty_fields (F : Str → Option Str) : ∀ (o : List (Str × Value)) {ind out : Nat} {acc : List (Str × Value)} {rest : Str}
    {fuel depth : Nat}, o ≠ [] → Spec.PlainFields o → ReadsFields F o → ((acc ++ o).map Prod.fst).Nodup →
    Spec.depthFields o < depth → 2 * (prettyFields ind o).length + 1 ≤ fuel →
    parseFields F fuel depth acc (prettyFields ind o ++ (newline out ++ ch '}' :: rest)) = some (acc ++ o, rest)
  | [], _, _, _, _, _, _, h, _, _, _, _, _ => absurd rfl h
  | (k, v) :: o, ind, out, acc, rest, fuel, depth, _, hp, hF, hn, hd, hf => by
    simp only [Spec.PlainFields] at hp
    simp only [Spec.depthFields] at hd
    have hfresh : k ∉ acc.map Prod.fst := by
      simp only [List.map_append, List.map_cons] at hn
      have := (List.nodup_append.mp hn).2.2
      intro hk
      exact this k hk k (by simp) rfl
    cases fuel with
    | zero => omega
    | succ fuel =>
      cases o with
      | nil =>
        simp only [prettyFields, List.append_nil, List.length_append, List.length_cons] at hf ⊢
        obtain ⟨body, hb, hps, _⟩ := parse_jsonStr k (ch ':' :: 32 :: (pretty ind v ++ (newline out ++ ch '}' :: rest)))
        have hv := parse_pretty F v (ind := ind) (rest := newline out ++ ch '}' :: rest) (fuel := fuel) (depth := depth) hp.1 (hF _ (List.mem_cons_self ..)) (by omega) (by omega)
          (delim_newline _ _)
        rw [show newline ind ++ (jsonStr k ++ ch ':' :: 32 :: pretty ind v) ++ (newline out ++ ch '}' :: rest) =
          newline ind ++ (jsonStr k ++ ch ':' :: 32 :: (pretty ind v ++ (newline out ++ ch '}' :: rest))) by simp]
        rw [parseFields_skip F _ _ _ (skipWs_newline _ _), hb, parseFields, skipWs_of_not (by decide)]
        dsimp only
        rw [if_pos rfl, hps]
        simp only [Option.bind_eq_bind, Option.bind_some]
        rw [skipWs_of_not (by decide)]
        dsimp only
        rw [if_pos rfl, parseValue_skip F _ _ (t := pretty ind v ++ (newline out ++ ch '}' :: rest)) (by rw [skipWs, if_pos (by decide)]), hv]
        simp only [Option.bind_some]
        rw [skipWs_newline, skipWs_of_not (by decide)]
        dsimp only
        rw [if_pos rfl, insert_fresh hfresh]
      | cons w o =>
        have he : prettyFields ind ((k, v) :: w :: o) = newline ind ++ (jsonStr k ++ ch ':' :: 32 :: (pretty ind v ++ ch ',' :: prettyFields ind (w :: o))) := by
          simp only [prettyFields]
        rw [he] at hf ⊢
        simp only [List.length_append, List.length_cons] at hf
        obtain ⟨body, hb, hps, _⟩ := parse_jsonStr k (ch ':' :: 32 :: (pretty ind v ++ ch ',' :: (prettyFields ind (w :: o) ++ (newline out ++ ch '}' :: rest))))
        have hv := parse_pretty F v (ind := ind) (rest := ch ',' :: (prettyFields ind (w :: o) ++ (newline out ++ ch '}' :: rest))) (fuel := fuel)
          (depth := depth) hp.1 (hF _ (List.mem_cons_self ..)) (by omega) (by omega) (by intro c hc; simp at hc; subst hc; simp only [isDig]; decide)
        have ha := parse_pretty_fields F (w :: o) (ind := ind) (out := out) (acc := acc ++ [(k, v)]) (rest := rest) (fuel := fuel) (depth := depth) (by simp)
          hp.2 (fun x hx => hF x (List.mem_cons_of_mem _ hx)) (by simpa using hn) (by omega) (by omega)
        rw [show newline ind ++ (jsonStr k ++ ch ':' :: 32 :: (pretty ind v ++ ch ',' :: prettyFields ind (w :: o))) ++ (newline out ++ ch '}' :: rest) =
          newline ind ++ (jsonStr k ++ ch ':' :: 32 :: (pretty ind v ++ ch ',' :: (prettyFields ind (w :: o) ++ (newline out ++ ch '}' :: rest)))) by simp]
        rw [parseFields_skip F _ _ _ (skipWs_newline _ _), hb, parseFields, skipWs_of_not (by decide)]
        dsimp only
        rw [if_pos rfl, hps]
        simp only [Option.bind_eq_bind, Option.bind_some]
        rw [skipWs_of_not (by decide)]
        dsimp only
        rw [if_pos rfl, parseValue_skip F _ _ (t := pretty ind v ++ ch ',' :: (prettyFields ind (w :: o) ++ (newline out ++ ch '}' :: rest)))
          (by rw [skipWs, if_pos (by decide)]), hv]
        simp only [Option.bind_some]
        rw [skipWs_of_not (by decide)]
        dsimp only
        rw [if_neg (by decide), if_pos rfl, insert_fresh hfresh, ha]
        simp
end

theorem parseDoc_pretty (F : Str → Option Str) {v : Value} (hv : Spec.Plain v) (hF : Reads F v) (hd : Spec.depth v < 128) : parseDoc F (pretty 0 v) = some v := by
  have h := parse_pretty F v (ind := 0) (rest := []) (fuel := 2 * (pretty 0 v).length + 2) hv hF hd (by omega) (by intro c hc; simp at hc)
  rw [List.append_nil] at h
  rw [parseDoc, h]
  rfl

theorem fromStr_pretty (F : Str → Option Str) {v : Value} (hv : Spec.Plain v) (hF : Spec.FloatsRead F v) (hd : Spec.depth v < 128) : fromStr F (pretty 0 v) = .ok v := by
  rw [fromStr, parseDoc_pretty F hv (fun t ht => (hF t ht).1) hd]
  dsimp only
  rw [if_pos (plain_convertible v hv (fun t ht => (hF t ht).2))]

end Cesride.Json
