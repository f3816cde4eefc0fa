import Verif.Lemmas.JsonLex
import Verif.Spec.Data

/-! # The JSON parser inverts the JSON printer -/

namespace Cesride
namespace Json

/-! ## Values -/

theorem skipWs_of_not {c : UInt8} {s : Str} (h : isWs c = false) : skipWs (c :: s) = c :: s := by simp [skipWs, h]

theorem intDec_head (i : Int) : ∃ c t, intDec i = c :: t ∧ (isDig c ∨ c = ch '-') := by
  cases i with
  | ofNat n =>
    show ∃ c t, natDec n = c :: t ∧ _
    cases hs : natDec n with
    | nil => exact absurd hs (natDec_ne_nil n)
    | cons c t => exact ⟨c, t, rfl, .inl (natDec_digits n c (by simp [hs]))⟩
  | negSucc n => exact ⟨_, _, rfl, .inr rfl⟩

theorem dig_not : ∀ c : UInt8, (isDig c ∨ c = ch '-') → isWs c = false ∧ c ≠ ch 'n' ∧ c ≠ ch 't' ∧ c ≠ ch 'f' ∧ c ≠ ch '"' ∧
    c ≠ ch '[' ∧ c ≠ ch '{' :=
  byte_forall (P := fun c => (isDig c ∨ c = ch '-') → isWs c = false ∧ c ≠ ch 'n' ∧ c ≠ ch 't' ∧ c ≠ ch 'f' ∧ c ≠ ch '"' ∧
    c ≠ ch '[' ∧ c ≠ ch '{') (by unfold isDig; decide +kernel)

theorem floatText_head {t : Str} (h : Spec.FloatText t) : ∃ c t', t = c :: t' ∧ (isDig c ∨ c = ch '-') := by
  obtain ⟨sign, whole, frac, exp, rfl, htok, _⟩ := h
  rcases htok.sign with rfl | rfl
  · obtain ⟨⟨hne, hd⟩, _⟩ := htok.whole
    cases whole with
    | nil => exact absurd rfl hne
    | cons c w => exact ⟨c, _, rfl, .inl (hd c (by simp))⟩
  · exact ⟨ch '-', _, rfl, .inr rfl⟩

theorem parseNum_float {F : Str → Option Str} {t : Str} (h : Spec.FloatText t) (hF : F t = some t) {rest : Str} (hr : Delim rest) :
    parseNum F (t ++ rest) = some (.float t, rest) := by
  apply parseNum_complete F _ hr
  obtain ⟨sign, whole, frac, exp, rfl, htok, hne⟩ := h
  refine ⟨sign, whole, frac, exp, rfl, htok, ?_⟩
  rw [if_neg (by rintro ⟨rfl, rfl⟩; simp at hne)]
  exact ⟨_, hF, rfl⟩

/-- The reader of floats gives back every float of the value. -/
def Reads (F : Str → Option Str) (v : Value) : Prop := ∀ t, Spec.JsonText.Inside (.float t) v → F t = some t
/-- The same for lists. -/
def ReadsElems (F : Str → Option Str) (a : List Value) : Prop := ∀ v ∈ a, Reads F v
/-- The same for entries. -/
def ReadsFields (F : Str → Option Str) (o : List (Str × Value)) : Prop := ∀ e ∈ o, Reads F e.2

theorem Reads.arr {F : Str → Option Str} {a : List Value} (h : Reads F (.arr a)) : ReadsElems F a := fun _ hv t ht => h t (.elem hv ht)
theorem Reads.obj {F : Str → Option Str} {o : List (Str × Value)} (h : Reads F (.obj o)) : ReadsFields F o := fun _ hv t ht => h t (.entry hv ht)
theorem reads_some (v : Value) : Reads some v := fun _ _ => rfl

theorem toJson_head (v : Value) (hv : Spec.Plain v) : ∃ c t, v.toJson = c :: t ∧ isWs c = false ∧ c ≠ ch ']' ∧ c ≠ ch '}' := by
  cases v with
  | null => exact ⟨_, _, rfl, by decide, by decide, by decide⟩
  | bool b => cases b <;> exact ⟨_, _, rfl, by decide, by decide, by decide⟩
  | int i =>
    obtain ⟨c, t, h1, h2⟩ := intDec_head i
    refine ⟨c, t, by simp only [Value.toJson, h1], (dig_not c h2).1, ?_, ?_⟩ <;>
      (rintro rfl; simp only [isDig] at h2; revert h2; decide)
  | float u =>
    obtain ⟨c, t, h1, h2⟩ := floatText_head hv
    refine ⟨c, t, by simp only [Value.toJson, h1], (dig_not c h2).1, ?_, ?_⟩ <;>
      (rintro rfl; simp only [isDig] at h2; revert h2; decide)
  | str s => exact ⟨ch '"', s.flatMap escapeByte ++ [ch '"'], by simp only [Value.toJson, jsonStr], by decide, by decide, by decide⟩
  | arr a => exact ⟨ch '[', elemsJson a ++ [ch ']'], by simp only [Value.toJson], by decide, by decide, by decide⟩
  | obj o => exact ⟨ch '{', fieldsJson o ++ [ch '}'], by simp only [Value.toJson], by decide, by decide, by decide⟩

theorem insert_fresh {o : List (Str × Value)} {k : Str} {v : Value} (h : k ∉ o.map Prod.fst) : Value.insert o k v = o ++ [(k, v)] := by
  induction o with
  | nil => rfl
  | cons e o ih =>
    obtain ⟨k', v'⟩ := e
    simp only [List.map_cons, List.mem_cons, not_or] at h
    rw [Value.insert, if_neg (fun he => h.1 he.symm), ih h.2]
    rfl

mutual
theorem parse_value (F : Str → Option Str) : ∀ (v : Value) {rest : Str} {fuel depth : Nat}, Spec.Plain v → Reads F v → Spec.depth v < depth →
    2 * v.toJson.length ≤ fuel → Delim rest → parseValue F fuel depth (v.toJson ++ rest) = some (v, rest)
  | .null, rest, fuel, depth, _, _, _, hf, _ => by
    cases fuel with
    | zero => simp [Value.toJson, lit] at hf
    | succ fuel => rfl
  | .bool b, rest, fuel, depth, _, _, _, hf, _ => by
    cases fuel with
    | zero => cases b <;> simp [Value.toJson, lit] at hf
    | succ fuel => cases b <;> rfl
  | .int i, rest, fuel, depth, hp, _, _, hf, hr => by
    obtain ⟨c, t, h1, h2⟩ := intDec_head i
    cases fuel with
    | zero => simp [Value.toJson, h1] at hf
    | succ fuel =>
      simp only [Spec.Plain] at hp
      have hn := parseNum_intDec F hp.1 hp.2 hr
      obtain ⟨n1, n2, n3, n4, n5, n6, n7⟩ := dig_not c h2
      simp only [Value.toJson]
      rw [h1] at hn ⊢
      rw [List.cons_append] at hn ⊢
      rw [parseValue, skipWs_of_not n1]
      dsimp only
      rw [if_neg n2, if_neg n3, if_neg n4, if_neg n5, if_neg n6, if_neg n7, hn]
  | .float u, rest, fuel, depth, hp, hF, _, hf, hr => by
    simp only [Spec.Plain] at hp
    obtain ⟨c, t, h1, h2⟩ := floatText_head hp
    cases fuel with
    | zero => simp [Value.toJson, h1] at hf
    | succ fuel =>
      have hn := parseNum_float hp (hF u (.self _)) hr
      obtain ⟨n1, n2, n3, n4, n5, n6, n7⟩ := dig_not c h2
      simp only [Value.toJson]
      rw [h1] at hn ⊢
      rw [List.cons_append] at hn ⊢
      rw [parseValue, skipWs_of_not n1]
      dsimp only
      rw [if_neg n2, if_neg n3, if_neg n4, if_neg n5, if_neg n6, if_neg n7, hn]
  | .str s, rest, fuel, depth, _, _, _, hf, _ => by
    cases fuel with
    | zero => simp [Value.toJson, jsonStr] at hf
    | succ fuel =>
      obtain ⟨body, hb, hps, _⟩ := parse_jsonStr s rest
      simp only [Value.toJson]
      rw [hb, parseValue, skipWs_of_not (by decide)]
      dsimp only
      rw [if_neg (by decide), if_neg (by decide), if_neg (by decide), if_pos rfl, hps]
      rfl
  | .arr a, rest, fuel, depth, hp, hF, hd, hf, _ => by
    simp only [Value.toJson, List.length_cons, List.length_append, List.length_nil] at hf
    simp only [Spec.depth] at hd
    simp only [Spec.Plain] at hp
    cases fuel with
    | zero => omega
    | succ fuel =>
      simp only [Value.toJson]
      rw [List.cons_append, List.append_assoc, parseValue, skipWs_of_not (by decide)]
      dsimp only
      rw [if_neg (by decide), if_neg (by decide), if_neg (by decide), if_neg (by decide), if_pos rfl, if_neg (by omega)]
      cases a with
      | nil => rfl
      | cons v a =>
        obtain ⟨c, t, h1, h2, h3, _⟩ := toJson_head v hp.1
        have hpe := parse_elems F (v :: a) (rest := rest) (fuel := fuel) (depth := depth - 1) (by simp) hp hF.arr (by omega) (by omega)
        have hcons : ∃ t', elemsJson (v :: a) ++ ([ch ']'] ++ rest) = c :: t' := by
          simp only [elemsJson, h1, List.cons_append]; exact ⟨_, rfl⟩
        obtain ⟨t', hcons⟩ := hcons
        rw [show elemsJson (v :: a) ++ ch ']' :: rest = elemsJson (v :: a) ++ ([ch ']'] ++ rest) by simp] at hpe
        rw [hcons] at hpe ⊢
        rw [skipWs_of_not h2]
        dsimp only
        rw [if_neg h3, hpe]
        rfl
  | .obj o, rest, fuel, depth, hp, hF, hd, hf, _ => by
    simp only [Value.toJson, List.length_cons, List.length_append, List.length_nil] at hf
    simp only [Spec.depth] at hd
    simp only [Spec.Plain] at hp
    cases fuel with
    | zero => omega
    | succ fuel =>
      simp only [Value.toJson]
      rw [List.cons_append, List.append_assoc, parseValue, skipWs_of_not (by decide)]
      dsimp only
      rw [if_neg (by decide), if_neg (by decide), if_neg (by decide), if_neg (by decide), if_neg (by decide), if_pos rfl, if_neg (by omega)]
      cases o with
      | nil => rfl
      | cons e o =>
        have hpe := parse_fields F (e :: o) (acc := []) (rest := rest) (fuel := fuel) (depth := depth - 1) (by simp) hp.1 hF.obj (by simpa using hp.2) (by omega) (by omega)
        obtain ⟨k, v⟩ := e
        have hcons : ∃ t, fieldsJson ((k, v) :: o) ++ ([ch '}'] ++ rest) = ch '"' :: t := by
          simp only [fieldsJson, jsonStr, List.cons_append]; exact ⟨_, rfl⟩
        obtain ⟨t, hcons⟩ := hcons
        rw [show fieldsJson ((k, v) :: o) ++ ch '}' :: rest = fieldsJson ((k, v) :: o) ++ ([ch '}'] ++ rest) by simp] at hpe
        rw [hcons] at hpe ⊢
        rw [skipWs_of_not (by decide)]
        dsimp only
        rw [if_neg (by decide), hpe]
        rfl

theorem parse_elems (F : Str → Option Str) : ∀ (a : List Value) {rest : Str} {fuel depth : Nat}, a ≠ [] → Spec.PlainElems a → ReadsElems F a →
    Spec.depthElems a < depth → 2 * (elemsJson a).length + 1 ≤ fuel →
    parseElems F fuel depth (elemsJson a ++ ch ']' :: rest) = some (a, rest)
  | [], _, _, _, h, _, _, _, _ => absurd rfl h
  | v :: a, rest, fuel, depth, _, hp, hF, hd, hf => by
    simp only [Spec.PlainElems] at hp
    simp only [Spec.depthElems] at hd
    cases fuel with
    | zero => omega
    | succ fuel =>
      cases a with
      | nil =>
        simp only [elemsJson, List.append_nil] at hf ⊢
        have hv := parse_value F v (rest := ch ']' :: rest) (fuel := fuel) (depth := depth) hp.1 (hF _ (List.mem_cons_self ..)) (by omega) (by omega)
          (by intro c hc; simp at hc; subst hc; simp only [isDig]; decide)
        rw [parseElems, hv]
        rfl
      | cons w a =>
        have he : elemsJson (v :: w :: a) = v.toJson ++ ch ',' :: elemsJson (w :: a) := by simp only [elemsJson]
        rw [he] at hf ⊢
        simp only [List.length_append, List.length_cons] at hf
        have hv := parse_value F v (rest := ch ',' :: (elemsJson (w :: a) ++ ch ']' :: rest)) (fuel := fuel) (depth := depth) hp.1 (hF _ (List.mem_cons_self ..)) (by omega) (by omega)
          (by intro c hc; simp at hc; subst hc; simp only [isDig]; decide)
        have ha := parse_elems F (w :: a) (rest := rest) (fuel := fuel) (depth := depth) (by simp) hp.2 (fun x hx => hF x (List.mem_cons_of_mem _ hx)) (by omega) (by omega)
        rw [List.append_assoc, List.cons_append, parseElems, hv]
        simp only [Option.bind_eq_bind, Option.bind_some]
        rw [skipWs_of_not (by decide)]
        dsimp only
        rw [if_neg (by decide), if_pos rfl, ha]
        rfl

theorem parse_fields (F : Str → Option Str) : ∀ (o : List (Str × Value)) {acc : List (Str × Value)} {rest : Str} {fuel depth : Nat},
    o ≠ [] → Spec.PlainFields o → ReadsFields F o → ((acc ++ o).map Prod.fst).Nodup →
    Spec.depthFields o < depth → 2 * (fieldsJson o).length + 1 ≤ fuel →
    parseFields F fuel depth acc (fieldsJson o ++ ch '}' :: rest) = some (acc ++ o, rest)
  | [], _, _, _, _, h, _, _, _, _, _ => absurd rfl h
  | (k, v) :: o, acc, rest, fuel, depth, _, hp, hF, hn, hd, hf => by
    simp only [Spec.PlainFields] at hp
    simp only [Spec.depthFields] at hd
    have hfresh : k ∉ acc.map Prod.fst := by
      simp only [List.map_append, List.map_cons] at hn
      have := (List.nodup_append.mp hn).2.2
      intro hk
      exact this k hk k (by simp) rfl
    cases fuel with
    | zero => omega
    | succ fuel =>
      cases o with
      | nil =>
        simp only [fieldsJson, List.append_nil, List.length_append, List.length_cons] at hf ⊢
        obtain ⟨body, hb, hps, _⟩ := parse_jsonStr k (ch ':' :: (v.toJson ++ ch '}' :: rest))
        have hv := parse_value F v (rest := ch '}' :: rest) (fuel := fuel) (depth := depth) hp.1 (hF _ (List.mem_cons_self ..)) (by omega) (by omega)
          (by intro c hc; simp at hc; subst hc; simp only [isDig]; decide)
        rw [List.append_assoc, List.cons_append, hb, parseFields, skipWs_of_not (by decide)]
        dsimp only
        rw [if_pos rfl, hps]
        simp only [Option.bind_eq_bind, Option.bind_some]
        rw [skipWs_of_not (by decide)]
        dsimp only
        rw [if_pos rfl, hv]
        simp only [Option.bind_some]
        rw [skipWs_of_not (by decide)]
        dsimp only
        rw [if_pos rfl, insert_fresh hfresh]
      | cons w o =>
        have he : fieldsJson ((k, v) :: w :: o) = jsonStr k ++ ch ':' :: (v.toJson ++ ch ',' :: fieldsJson (w :: o)) := by simp only [fieldsJson]
        rw [he] at hf ⊢
        simp only [List.length_append, List.length_cons] at hf
        obtain ⟨body, hb, hps, _⟩ := parse_jsonStr k (ch ':' :: (v.toJson ++ ch ',' :: (fieldsJson (w :: o) ++ ch '}' :: rest)))
        have hv := parse_value F v (rest := ch ',' :: (fieldsJson (w :: o) ++ ch '}' :: rest)) (fuel := fuel) (depth := depth) hp.1 (hF _ (List.mem_cons_self ..)) (by omega) (by omega)
          (by intro c hc; simp at hc; subst hc; simp only [isDig]; decide)
        have ha := parse_fields F (w :: o) (acc := acc ++ [(k, v)]) (rest := rest) (fuel := fuel) (depth := depth) (by simp) hp.2
          (fun x hx => hF x (List.mem_cons_of_mem _ hx)) (by simpa using hn) (by omega) (by omega)
        rw [show jsonStr k ++ ch ':' :: (v.toJson ++ ch ',' :: fieldsJson (w :: o)) ++ ch '}' :: rest =
          jsonStr k ++ (ch ':' :: (v.toJson ++ ch ',' :: (fieldsJson (w :: o) ++ ch '}' :: rest))) by simp]
        rw [hb, parseFields, skipWs_of_not (by decide)]
        dsimp only
        rw [if_pos rfl, hps]
        simp only [Option.bind_eq_bind, Option.bind_some]
        rw [skipWs_of_not (by decide)]
        dsimp only
        rw [if_pos rfl, hv]
        simp only [Option.bind_some]
        rw [skipWs_of_not (by decide)]
        dsimp only
        rw [if_neg (by decide), if_pos rfl, insert_fresh hfresh, ha]
        simp
end

/-- Every float has a point. -/
def Pointed (v : Value) : Prop := ∀ t, Spec.JsonText.Inside (.float t) v → ch '.' ∈ t

mutual
theorem plain_convertible : ∀ (v : Value), Spec.Plain v → Pointed v → convertible v = true
  | .null, _, _ => rfl
  | .bool _, _, _ => rfl
  | .int i, h, _ => by simp only [Spec.Plain] at h; simp only [convertible]; exact decide_eq_true h.2
  | .float t, _, hp => by simp only [convertible]; exact List.elem_eq_true_of_mem (hp t (.self _))
  | .str _, _, _ => rfl
  | .arr a, h, hp => by
    simp only [Spec.Plain] at h; simp only [convertible]; exact plain_convertibleElems a h (fun v hv t ht => hp t (.elem hv ht))
  | .obj o, h, hp => by
    simp only [Spec.Plain] at h; simp only [convertible]; exact plain_convertibleFields o h.1 (fun e he t ht => hp t (.entry he ht))
theorem plain_convertibleElems : ∀ (a : List Value), Spec.PlainElems a → (∀ v ∈ a, Pointed v) → convertibleElems a = true
  | [], _, _ => rfl
  | v :: a, h, hp => by
    simp only [Spec.PlainElems] at h
    simp [convertibleElems, plain_convertible v h.1 (hp v (List.mem_cons_self ..)),
      plain_convertibleElems a h.2 (fun x hx => hp x (List.mem_cons_of_mem _ hx))]
theorem plain_convertibleFields : ∀ (o : List (Str × Value)), Spec.PlainFields o → (∀ e ∈ o, Pointed e.2) → convertibleFields o = true
  | [], _, _ => rfl
  | (k, v) :: o, h, hp => by
    simp only [Spec.PlainFields] at h
    simp [convertibleFields, plain_convertible v h.1 (hp (k, v) (List.mem_cons_self ..)),
      plain_convertibleFields o h.2 (fun x hx => hp x (List.mem_cons_of_mem _ hx))]
end

/-! ## Nesting beyond the recursion limit is refused -/

mutual
theorem parse_value_deep (F : Str → Option Str) : ∀ (v : Value) {rest : Str} {fuel depth : Nat}, Spec.Plain v → Reads F v → 1 ≤ depth →
    depth ≤ Spec.depth v → 2 * v.toJson.length ≤ fuel → parseValue F fuel depth (v.toJson ++ rest) = none
  | .null, _, _, _, _, _, h1, h2, _ => by simp only [Spec.depth] at h2; omega
  | .bool _, _, _, _, _, _, h1, h2, _ => by simp only [Spec.depth] at h2; omega
  | .int _, _, _, _, _, _, h1, h2, _ => by simp only [Spec.depth] at h2; omega
  | .float _, _, _, _, _, _, h1, h2, _ => by simp only [Spec.depth] at h2; omega
  | .str _, _, _, _, _, _, h1, h2, _ => by simp only [Spec.depth] at h2; omega
  | .arr a, rest, fuel, depth, hp, hF, h1, hd, hf => by
    simp only [Value.toJson, List.length_cons, List.length_append, List.length_nil] at hf
    simp only [Spec.depth] at hd
    simp only [Spec.Plain] at hp
    cases fuel with
    | zero => omega
    | succ fuel =>
      simp only [Value.toJson]
      rw [List.cons_append, List.append_assoc, parseValue, skipWs_of_not (by decide)]
      dsimp only
      rw [if_neg (by decide), if_neg (by decide), if_neg (by decide), if_neg (by decide), if_pos rfl]
      by_cases hle : depth ≤ 1
      · rw [if_pos hle]
      rw [if_neg hle]
      cases a with
      | nil => simp only [Spec.depthElems] at hd; omega
      | cons v a =>
        obtain ⟨c, t, h1, h2, h3, _⟩ := toJson_head v hp.1
        have hpe := parse_elems_deep F (v :: a) (rest := rest) (fuel := fuel) (depth := depth - 1) hp hF.arr (by omega) (by omega) (by omega)
        have hcons : ∃ t', elemsJson (v :: a) ++ ([ch ']'] ++ rest) = c :: t' := by
          simp only [elemsJson, h1, List.cons_append]; exact ⟨_, rfl⟩
        obtain ⟨t', hcons⟩ := hcons
        rw [show elemsJson (v :: a) ++ ch ']' :: rest = elemsJson (v :: a) ++ ([ch ']'] ++ rest) by simp] at hpe
        rw [hcons] at hpe ⊢
        rw [skipWs_of_not h2]
        dsimp only
        rw [if_neg h3, hpe]
        rfl
  | .obj o, rest, fuel, depth, hp, hF, h1, hd, hf => by
    simp only [Value.toJson, List.length_cons, List.length_append, List.length_nil] at hf
    simp only [Spec.depth] at hd
    simp only [Spec.Plain] at hp
    cases fuel with
    | zero => omega
    | succ fuel =>
      simp only [Value.toJson]
      rw [List.cons_append, List.append_assoc, parseValue, skipWs_of_not (by decide)]
      dsimp only
      rw [if_neg (by decide), if_neg (by decide), if_neg (by decide), if_neg (by decide), if_neg (by decide), if_pos rfl]
      by_cases hle : depth ≤ 1
      · rw [if_pos hle]
      rw [if_neg hle]
      cases o with
      | nil => simp only [Spec.depthFields] at hd; omega
      | cons e o =>
        have hpe := parse_fields_deep F (e :: o) (acc := []) (rest := rest) (fuel := fuel) (depth := depth - 1) hp.1 hF.obj (by simpa using hp.2) (by omega) (by omega) (by omega)
        obtain ⟨k, v⟩ := e
        have hcons : ∃ t, fieldsJson ((k, v) :: o) ++ ([ch '}'] ++ rest) = ch '"' :: t := by
          simp only [fieldsJson, jsonStr, List.cons_append]; exact ⟨_, rfl⟩
        obtain ⟨t, hcons⟩ := hcons
        rw [show fieldsJson ((k, v) :: o) ++ ch '}' :: rest = fieldsJson ((k, v) :: o) ++ ([ch '}'] ++ rest) by simp] at hpe
        rw [hcons] at hpe ⊢
        rw [skipWs_of_not (by decide)]
        dsimp only
        rw [if_neg (by decide), hpe]
        rfl

theorem parse_elems_deep (F : Str → Option Str) : ∀ (a : List Value) {rest : Str} {fuel depth : Nat}, Spec.PlainElems a → ReadsElems F a →
    1 ≤ depth → depth ≤ Spec.depthElems a → 2 * (elemsJson a).length + 1 ≤ fuel →
    parseElems F fuel depth (elemsJson a ++ ch ']' :: rest) = none
  | [], _, _, _, _, _, h1, h2, _ => by simp only [Spec.depthElems] at h2; omega
  | v :: a, rest, fuel, depth, hp, hF, h1, hd, hf => by
    simp only [Spec.PlainElems] at hp
    simp only [Spec.depthElems] at hd
    cases fuel with
    | zero => omega
    | succ fuel =>
      have hlen : 2 * v.toJson.length ≤ fuel := by
        simp only [elemsJson, List.length_append] at hf; omega
      by_cases hdeep : depth ≤ Spec.depth v
      · have := fun r => parse_value_deep F v (rest := r) (fuel := fuel) (depth := depth) hp.1 (hF _ (List.mem_cons_self ..)) h1 hdeep hlen
        simp only [elemsJson, List.append_assoc]
        rw [parseElems, this]
        rfl
      cases a with
      | nil => simp only [Spec.depthElems] at hd; omega
      | cons w a =>
        have he : elemsJson (v :: w :: a) = v.toJson ++ ch ',' :: elemsJson (w :: a) := by simp only [elemsJson]
        rw [he] at hf ⊢
        simp only [List.length_append, List.length_cons] at hf
        have hv := parse_value F v (rest := ch ',' :: (elemsJson (w :: a) ++ ch ']' :: rest)) (fuel := fuel) (depth := depth) hp.1 (hF _ (List.mem_cons_self ..)) (by omega) (by omega)
          (by intro c hc; simp at hc; subst hc; simp only [isDig]; decide)
        have ha := parse_elems_deep F (w :: a) (rest := rest) (fuel := fuel) (depth := depth) hp.2 (fun x hx => hF x (List.mem_cons_of_mem _ hx)) h1 (by omega) (by omega)
        rw [List.append_assoc, List.cons_append, parseElems, hv]
        simp only [Option.bind_eq_bind, Option.bind_some]
        rw [skipWs_of_not (by decide)]
        dsimp only
        rw [if_neg (by decide), if_pos rfl, ha]
        rfl

theorem parse_fields_deep (F : Str → Option Str) : ∀ (o : List (Str × Value)) {acc : List (Str × Value)} {rest : Str} {fuel depth : Nat},
    Spec.PlainFields o → ReadsFields F o → ((acc ++ o).map Prod.fst).Nodup →
    1 ≤ depth → depth ≤ Spec.depthFields o → 2 * (fieldsJson o).length + 1 ≤ fuel →
    parseFields F fuel depth acc (fieldsJson o ++ ch '}' :: rest) = none
  | [], _, _, _, _, _, _, _, h1, h2, _ => by simp only [Spec.depthFields] at h2; omega
  | (k, v) :: o, acc, rest, fuel, depth, hp, hF, hn, h1, hd, hf => by
    simp only [Spec.PlainFields] at hp
    simp only [Spec.depthFields] at hd
    have hfresh : k ∉ acc.map Prod.fst := by
      simp only [List.map_append, List.map_cons] at hn
      have := (List.nodup_append.mp hn).2.2
      intro hk
      exact this k hk k (by simp) rfl
    cases fuel with
    | zero => omega
    | succ fuel =>
      have hlen : 2 * v.toJson.length ≤ fuel := by
        simp only [fieldsJson, List.length_append, List.length_cons] at hf; omega
      by_cases hdeep : depth ≤ Spec.depth v
      · have := fun r => parse_value_deep F v (rest := r) (fuel := fuel) (depth := depth) hp.1 (hF _ (List.mem_cons_self ..)) h1 hdeep hlen
        obtain ⟨tl, htl⟩ : ∃ tl, fieldsJson ((k, v) :: o) ++ ch '}' :: rest = jsonStr k ++ ch ':' :: (v.toJson ++ tl) := by
          simp only [fieldsJson, List.append_assoc, List.cons_append]; exact ⟨_, rfl⟩
        rw [htl]
        obtain ⟨body, hb, hps, _⟩ := parse_jsonStr k (ch ':' :: (v.toJson ++ tl))
        rw [hb, parseFields, skipWs_of_not (by decide)]
        dsimp only
        rw [if_pos rfl, hps]
        simp only [Option.bind_eq_bind, Option.bind_some]
        rw [skipWs_of_not (by decide)]
        dsimp only
        rw [if_pos rfl, this]
        rfl
      cases o with
      | nil => simp only [Spec.depthFields] at hd; omega
      | cons w o =>
        have he : fieldsJson ((k, v) :: w :: o) = jsonStr k ++ ch ':' :: (v.toJson ++ ch ',' :: fieldsJson (w :: o)) := by simp only [fieldsJson]
        rw [he] at hf ⊢
        simp only [List.length_append, List.length_cons] at hf
        obtain ⟨body, hb, hps, _⟩ := parse_jsonStr k (ch ':' :: (v.toJson ++ ch ',' :: (fieldsJson (w :: o) ++ ch '}' :: rest)))
        have hv := parse_value F v (rest := ch ',' :: (fieldsJson (w :: o) ++ ch '}' :: rest)) (fuel := fuel) (depth := depth) hp.1 (hF _ (List.mem_cons_self ..)) (by omega) (by omega)
          (by intro c hc; simp at hc; subst hc; simp only [isDig]; decide)
        have ha := parse_fields_deep F (w :: o) (acc := acc ++ [(k, v)]) (rest := rest) (fuel := fuel) (depth := depth) hp.2
          (fun x hx => hF x (List.mem_cons_of_mem _ hx)) (by simpa using hn) h1 (by omega) (by omega)
        rw [show jsonStr k ++ ch ':' :: (v.toJson ++ ch ',' :: fieldsJson (w :: o)) ++ ch '}' :: rest =
          jsonStr k ++ (ch ':' :: (v.toJson ++ ch ',' :: (fieldsJson (w :: o) ++ ch '}' :: rest))) by simp]
        rw [hb, parseFields, skipWs_of_not (by decide)]
        dsimp only
        rw [if_pos rfl, hps]
        simp only [Option.bind_eq_bind, Option.bind_some]
        rw [skipWs_of_not (by decide)]
        dsimp only
        rw [if_pos rfl, hv]
        simp only [Option.bind_some]
        rw [skipWs_of_not (by decide)]
        dsimp only
        rw [if_neg (by decide), if_pos rfl, insert_fresh hfresh, ha]
end

/-- Reading back the text of a plain value. -/
theorem fromStr_toJson (F : Str → Option Str) {v : Value} (hv : Spec.Plain v) (hF : Spec.FloatsRead F v) :
    fromStr F v.toJson = if Spec.depth v < 128 then .ok v else .err .json := by
  unfold fromStr parseDoc
  by_cases h : Spec.depth v < 128
  · have := parse_value F v (rest := []) (fuel := 2 * v.toJson.length + 2) hv (fun t ht => (hF t ht).1) h (by omega) (by intro c hc; simp at hc)
    rw [List.append_nil] at this
    rw [this, if_pos h]
    simp [skipWs, plain_convertible v hv (fun t ht => (hF t ht).2)]
  · have := parse_value_deep F v (rest := []) (fuel := 2 * v.toJson.length + 2) hv (fun t ht => (hF t ht).1) (by omega : 1 ≤ 128) (by omega) (by omega)
    rw [List.append_nil] at this
    rw [this, if_neg h]
    rfl

end Json

/-! ## Values without floats -/

namespace Spec

mutual
/-- There is no float in the value. -/
def noFloats : Value → Bool
  | .float _ => false
  | .arr a => noFloatsElems a
  | .obj o => noFloatsFields o
  | _ => true
/-- Nor in the elements. -/
def noFloatsElems : List Value → Bool
  | [] => true
  | v :: rest => noFloats v && noFloatsElems rest
/-- Nor in the entries. -/
def noFloatsFields : List (Str × Value) → Bool
  | [] => true
  | (_, v) :: rest => noFloats v && noFloatsFields rest
end

theorem noFloatsElems_iff {a : List Value} : noFloatsElems a = true ↔ ∀ v ∈ a, noFloats v = true := by
  induction a with
  | nil => simp [noFloatsElems]
  | cons v a ih => simp [noFloatsElems, ih]

theorem noFloatsFields_iff {o : List (Str × Value)} : noFloatsFields o = true ↔ ∀ e ∈ o, noFloats e.2 = true := by
  induction o with
  | nil => simp [noFloatsFields]
  | cons e o ih => obtain ⟨k, v⟩ := e; simp [noFloatsFields, ih]

theorem not_inside_of_noFloats {t : Str} {x v : Value} (h : JsonText.Inside x v) (hx : x = .float t) (hv : noFloats v = true) : False := by
  induction h with
  | self => subst hx; simp [noFloats] at hv
  | elem hm _ ih => simp only [noFloats] at hv; exact ih (noFloatsElems_iff.mp hv _ hm)
  | entry hm _ ih => simp only [noFloats] at hv; exact ih (noFloatsFields_iff.mp hv _ hm)

/-- A value without floats needs nothing from the reader of floats. -/
theorem floatsRead_of_noFloats (F : Str → Option Str) {v : Value} (h : noFloats v = true) : FloatsRead F v :=
  fun _ ht => (not_inside_of_noFloats ht rfl h).elim

theorem floatsRead_arr {F : Str → Option Str} {a : List Value} : FloatsRead F (.arr a) ↔ ∀ v ∈ a, FloatsRead F v := by
  constructor
  · intro h v hv t ht; exact h t (.elem hv ht)
  · intro h t ht
    cases ht with
    | elem hm hi => exact h _ hm t hi

theorem floatsRead_obj {F : Str → Option Str} {o : List (Str × Value)} : FloatsRead F (.obj o) ↔ ∀ e ∈ o, FloatsRead F e.2 := by
  constructor
  · intro h v hv t ht; exact h t (.entry hv ht)
  · intro h t ht
    cases ht with
    | entry hm hi => exact h _ hm t hi

/-- Replacing the first entry by a text. -/
theorem floatsRead_first {F : Str → Option Str} {k : Str} {x : Value} {s : Str} {rest : List (Str × Value)} (h : FloatsRead F (.obj ((k, x) :: rest))) :
    FloatsRead F (.obj ((k, .str s) :: rest)) := by
  rw [floatsRead_obj] at h ⊢
  intro e he
  rcases List.mem_cons.mp he with rfl | he
  · intro t ht; cases ht
  · exact h e (List.mem_cons_of_mem _ he)

end Spec
end Cesride
