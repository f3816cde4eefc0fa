import Verif.Props.Tholder4
import Verif.Lemmas.Split
import Verif.Lemmas.Padded
import Verif.Spec.TholdRead

/-! # C101: how a threshold is read -/


namespace Cesride
open Tholder Spec

theorem hexZero {ds : List Nat} : ∀ {s : Str} (acc : Nat), Spec.HexDigits s ds → (ds.foldl (fun a d => a * 16 + d) acc = 0 ↔ acc = 0 ∧ ∀ c ∈ s, c = ch '0') := by
  induction ds with
  | nil =>
    intro s acc h
    cases s with
    | nil => simp
    | cons c s => cases h
  | cons d ds ih =>
    intro s acc h
    cases s with
    | nil => cases h
    | cons c s =>
      obtain ⟨h1, h2⟩ := h
      rw [List.foldl_cons, ih _ h2]
      have key : ∀ e ∈ Spec.hexValues, e.2 = 0 ↔ e.1 = ch '0' := by decide +kernel
      have := key _ h1
      simp only at this
      rw [List.forall_mem_cons, ← this]
      constructor
      · rintro ⟨h, h'⟩; exact ⟨by omega, by omega, h'⟩
      · rintro ⟨h, h', h''⟩; exact ⟨by omega, h''⟩

theorem zeros_digits : ∀ {s : Str}, (∀ c ∈ s, c = ch '0') → ∃ ds, Spec.HexDigits s ds ∧ ds.foldl (fun a d => a * 16 + d) 0 = 0
  | [], _ => ⟨[], trivial, rfl⟩
  | c :: s, h => by
    obtain ⟨ds, h1, h2⟩ := zeros_digits (s := s) fun c hc => h c (List.mem_cons_of_mem _ hc)
    have hc := h c List.mem_cons_self
    subst hc
    exact ⟨0 :: ds, ⟨by decide +kernel, h1⟩, h2⟩

theorem hex_no_sign {s : Str} {ds : List Nat} (h : Spec.HexDigits s ds) : ∀ c ∈ s, c ≠ ch '+' ∧ c ≠ ch '-' := by
  induction s generalizing ds with
  | nil => simp
  | cons c s ih =>
    cases ds with
    | nil => cases h
    | cons d ds =>
      obtain ⟨h1, h2⟩ := h
      have key : ∀ e ∈ Spec.hexValues, e.1 ≠ ch '+' ∧ e.1 ≠ ch '-' := by decide +kernel
      rw [List.forall_mem_cons]
      exact ⟨key _ h1, ih h2⟩

theorem i64_pos {s : Str} {n : Nat} : i64FromHex.pos s = .ok (n : Int) ↔ s ≠ [] ∧ n < 2 ^ 63 ∧ ∃ ds, Spec.HexDigits s ds ∧ ds.foldl (fun a d => a * 16 + d) 0 = n := by
  unfold i64FromHex.pos
  constructor
  · intro h
    split at h
    · cases h
    · rename_i hne
      split at h
      · rename_i k hk
        have : k = n := by injection h with h; omega
        subst this
        obtain ⟨h1, ds, h2, h3⟩ := hexLoop_some hk (Nat.zero_le _)
        exact ⟨hne, by omega, ds, h2, h3⟩
      · cases h
  · rintro ⟨h1, h2, ds, h3, h4⟩
    rw [if_neg h1, hexLoop_spec 0 h3 (Nat.zero_le _), h4, if_pos (by omega)]

theorem i64_pos_nonneg {s : Str} {n : Int} (h : i64FromHex.pos s = .ok n) : 0 ≤ n := by
  unfold i64FromHex.pos at h
  split at h
  · cases h
  · split at h
    · injection h with h; omega
    · cases h

/-- A number in an event, read. -/
theorem i64_numeral {s : Str} {n : Nat} (hn : n < 2 ^ 63) : i64FromHex s = .ok (n : Int) ↔ Spec.SithNumeral s n := by
  unfold i64FromHex
  cases s with
  | nil =>
    simp only [reduceCtorEq, false_iff]
    rintro (⟨sign, digits, ds, h, _, hd, _⟩ | ⟨_, d, h, _⟩)
    · exact hd (List.append_eq_nil_iff.mp h.symm).2
    · cases h
  | cons c rest =>
    simp only
    by_cases hp : c = ch '+'
    · subst hp
      rw [if_pos rfl, i64_pos]
      constructor
      · rintro ⟨h1, _, ds, h3, h4⟩
        exact .inl ⟨lit "+", rest, ds, rfl, .inr rfl, h1, h3, h4⟩
      · rintro (⟨sign, digits, ds, h, hs, hd, h3, h4⟩ | ⟨_, d, h, _⟩)
        · rcases hs with rfl | rfl
          · have := (hex_no_sign h3 (ch '+') (by rw [← List.nil_append digits, ← h]; exact List.mem_cons_self)).1
            exact absurd rfl this
          · have : rest = digits := by
              rw [show lit "+" = [ch '+'] from rfl] at h
              injection h
            subst this
            exact ⟨hd, hn, ds, h3, h4⟩
        · injection h with h _
          exact absurd h (by decide +kernel)
    · rw [if_neg hp]
      by_cases hm : c = ch '-'
      · subst hm
        rw [if_pos rfl]
        have hnot : ¬ HexNumeral (ch '-' :: rest) n := by
          rintro ⟨sign, digits, ds, h, hs, hd, h3, h4⟩
          rcases hs with rfl | rfl
          · have := (hex_no_sign h3 (ch '-') (by rw [← List.nil_append digits, ← h]; exact List.mem_cons_self)).2
            exact absurd rfl this
          · rw [show lit "+" = [ch '+'] from rfl] at h
            injection h with h _
            exact absurd h (by decide +kernel)
        constructor
        · intro h
          split at h
          · cases h
          · rename_i hne
            split at h
            · rename_i k hk
              have h0 : k = 0 ∧ n = 0 := by injection h with h; omega
              obtain ⟨h1, ds, h2, h3⟩ := hexLoop_some hk (Nat.zero_le _)
              refine .inr ⟨h0.2, rest, rfl, hne, ?_⟩
              exact ((hexZero 0 h2).mp (by omega)).2
            · cases h
        · rintro (h | ⟨h0, d, h, hd, hz⟩)
          · exact absurd h hnot
          · injection h with _ h
            subst h
            rw [if_neg hd]
            obtain ⟨ds, h1, h2⟩ := zeros_digits hz
            rw [hexLoop_spec 0 h1 (Nat.zero_le _), h2, if_pos (by omega), h0]
            rfl
      · rw [if_neg hm, i64_pos]
        constructor
        · rintro ⟨h1, _, ds, h3, h4⟩
          exact .inl ⟨[], c :: rest, ds, rfl, .inl rfl, h1, h3, h4⟩
        · rintro (⟨sign, digits, ds, h, hs, hd, h3, h4⟩ | ⟨_, d, h, _⟩)
          · rcases hs with rfl | rfl
            · rw [List.nil_append] at h
              subst h
              exact ⟨hd, hn, ds, h3, h4⟩
            · rw [show lit "+" = [ch '+'] from rfl] at h
              injection h with h _
              exact absurd h hp
          · injection h with h _
            exact absurd h hm

/-- C101. A text that does not start with `[` is a threshold exactly when it is a hexadecimal number below 2^32. -/
theorem C101_number_text (E : Env) (F : Str → Option Str) {s : Str} (hs : s.head? ≠ some (ch '[')) :
    (∀ n, Spec.SithNumeral s n → n < 2 ^ 32 → ofSith E F (.str s) = ofThold E F (.int n)) ∧
    ((¬ ∃ n, Spec.SithNumeral s n ∧ n < 2 ^ 32) → ∃ e, ofSith E F (.str s) = .err e) := by
  rw [ofSith_eq]
  have e : processSith E F (.str s) = (do let n ← i64FromHex s; processUnweighted E n) := by
    unfold processSith; simp only [if_neg hs]
  rw [e]
  constructor
  · intro n h hn
    rw [(i64_numeral (by omega)).mpr h, Res.ok_bind, ofThold_eq]
    have : (Value.int (n : Int)).toI64 = .ok (n : Int) := rfl
    unfold processThold
    rw [this]
  · intro h
    cases hi : i64FromHex s with
    | panic => exact absurd hi (i64FromHex_ne_panic s)
    | err e => exact ⟨e, rfl⟩
    | ok n =>
      rw [Res.ok_bind]
      unfold processUnweighted
      split
      · exact ⟨_, rfl⟩
      · split
        · exact ⟨_, rfl⟩
        · exfalso
          obtain ⟨k, rfl⟩ := Int.eq_ofNat_of_zero_le (a := n) (by omega)
          exact h ⟨k, (i64_numeral (by omega)).mp hi, by omega⟩

/-- C101. A text that starts with `[` is read as JSON, and the list it is taken. -/
theorem C101_json_text (E : Env) (F : Str → Option Str) {s : Str} (hs : s.head? = some (ch '[')) :
    ofSith E F (.str s) = (match Json.fromStr F s with
      | .ok (.arr a) => ofSith E F (.arr a)
      | .ok _ => .err .conversion
      | .err e => .err e
      | .panic => .panic) := by
  rw [ofSith_eq]
  unfold processSith
  simp only [hs, if_true]
  cases h : Json.fromStr F s with
  | panic => rfl
  | err e => rfl
  | ok v =>
    cases v with
    | arr a => simp only [Res.ok_bind]; rw [ofSith_eq]; rfl
    | _ => rfl

/-- C101. A list in an event: clauses of texts as they are, texts as a single clause, everything else (also the empty list) is refused. The
value of any other kind is refused, except a number. -/
theorem C101_list (E : Env) (F : Str → Option Str) :
    (∀ cl : List (List Str), cl ≠ [] → ofSith E F (Spec.clauseValue cl) = ofThold E F (Spec.clauseValue cl)) ∧
    (∀ ws : List Str, ws ≠ [] → ofSith E F (.arr (ws.map .str)) = ofThold E F (Spec.clauseValue [ws])) ∧
    (∀ n, ofSith E F (.int n) = ofThold E F (.int n)) ∧
    (∀ v, (∀ cl, cl ≠ [] → v ≠ Spec.clauseValue cl) → (∀ ws : List Str, ws ≠ [] → v ≠ .arr (ws.map .str)) → (∀ s, v ≠ .str s) → (∀ n, v ≠ .int n) →
      ∃ e, ofSith E F v = .err e) := by
  have hT : ∀ a, ofThold E F (.arr a) = processWeighted E (.arr a) := fun a => by rw [ofThold_eq]; rfl
  have hS : ∀ a, ofSith E F (.arr a) = processSithArray E (.arr a) := fun a => by rw [ofSith_eq]; rfl
  have he : ∀ a, processSithArray E (.arr a) = if a = [] then .err .value else (do
      let a' ← (if a.all (fun c => c.toVec.isOk) then Value.arr a else Value.arr [Value.arr a]).toVec
      checkTexts a'
      processWeighted E (if a.all (fun c => c.toVec.isOk) then Value.arr a else Value.arr [Value.arr a])) := fun _ => rfl
  have texts : ∀ ws : List Str, AllTexts (ws.map .str) := by
    intro ws v hv
    obtain ⟨w, _, rfl⟩ := List.mem_map.mp hv
    exact ⟨w, rfl⟩
  have texts' : ∀ c : List Value, AllTexts c → ∃ ws : List Str, c = ws.map .str := by
    intro c
    induction c with
    | nil => intro _; exact ⟨[], rfl⟩
    | cons v c ih =>
      intro h
      obtain ⟨s, rfl⟩ := h v List.mem_cons_self
      obtain ⟨ws, rfl⟩ := ih fun v hv => h v (List.mem_cons_of_mem _ hv)
      exact ⟨s :: ws, rfl⟩
  refine ⟨?_, ?_, ?_, ?_⟩
  · intro cl hcl
    unfold Spec.clauseValue
    rw [hS, hT, he, if_neg (by simpa using hcl)]
    rw [if_pos (by simp [Value.toVec, Res.isOk]), show ∀ a, (Value.arr a).toVec = .ok a from fun _ => rfl, Res.ok_bind]
    rw [(checkTexts_iff _).mpr]
    · rfl
    · intro v hv
      obtain ⟨ws, _, rfl⟩ := List.mem_map.mp hv
      exact ⟨_, rfl, texts ws⟩
  · intro ws hws
    unfold Spec.clauseValue
    rw [hS, hT, he, if_neg (by simpa using hws)]
    have hn : ¬ (ws.map Value.str).all (fun c => c.toVec.isOk) = true := by
      cases ws with
      | nil => exact absurd rfl hws
      | cons w ws => simp [Value.toVec, Res.isOk]
    rw [if_neg hn, show ∀ a, (Value.arr a).toVec = .ok a from fun _ => rfl, Res.ok_bind]
    rw [(checkTexts_iff _).mpr]
    · rfl
    · intro v hv
      rw [List.mem_singleton] at hv
      exact ⟨_, hv, texts ws⟩
  · intro n; exact (C34_accepted E F n).1
  · intro v h1 h2 h3 h4
    cases v with
    | str s => exact absurd rfl (h3 s)
    | int n => exact absurd rfl (h4 n)
    | arr a =>
      rw [hS, he]
      by_cases ha : a = []
      · rw [if_pos ha]; exact ⟨_, rfl⟩
      rw [if_neg ha]
      by_cases hall : a.all (fun c => c.toVec.isOk) = true
      · rw [if_pos hall, show ∀ a, (Value.arr a).toVec = .ok a from fun _ => rfl, Res.ok_bind]
        cases hc : checkTexts a with
        | panic => exact absurd hc (checkTexts_ne_panic a)
        | err e => exact ⟨e, rfl⟩
        | ok u =>
          exfalso
          replace hc := (checkTexts_iff a).mp hc
          have : ∃ cl : List (List Str), a = cl.map fun ws => .arr (ws.map .str) := by
            clear h1 h2 h3 h4 ha hall
            induction a with
            | nil => exact ⟨[], rfl⟩
            | cons v a ih =>
              obtain ⟨c, rfl, ht⟩ := hc v List.mem_cons_self
              obtain ⟨ws, rfl⟩ := texts' c ht
              obtain ⟨cl, rfl⟩ := ih fun v hv => hc v (List.mem_cons_of_mem _ hv)
              exact ⟨ws :: cl, rfl⟩
          obtain ⟨cl, rfl⟩ := this
          exact h1 cl (by rintro rfl; exact ha rfl) rfl
      · rw [if_neg hall, show ∀ a, (Value.arr a).toVec = .ok a from fun _ => rfl, Res.ok_bind]
        cases hc : checkTexts [.arr a] with
        | panic => exact absurd hc (checkTexts_ne_panic _)
        | err e => exact ⟨e, rfl⟩
        | ok u =>
          exfalso
          obtain ⟨c, hc, ht⟩ := (checkTexts_iff _).mp hc (.arr a) List.mem_cons_self
          injection hc with hc
          subst hc
          obtain ⟨ws, rfl⟩ := texts' a ht
          exact h2 ws (by rintro rfl; exact ha rfl) rfl
    | _ => rw [ofSith_eq]; exact ⟨_, rfl⟩

theorem map_joinWith (f : UInt8 → UInt8) {c : UInt8} (hc : f c = c) : ∀ l : List Str, (joinWith c l).map f = joinWith c (l.map fun w => w.map f)
  | [] => rfl
  | [s] => rfl
  | s :: t :: l => by
    rw [joinWith, List.map_append, List.map_cons, hc, map_joinWith f hc (t :: l)]
    · rfl
    · simp

theorem mem_joinWith {c x : UInt8} : ∀ {l : List Str}, x ∈ joinWith c l → x = c ∨ ∃ w ∈ l, x ∈ w
  | [], h => by simp [joinWith] at h
  | [s], h => .inr ⟨s, by simp, h⟩
  | s :: t :: l, h => by
    rw [joinWith] at h
    · rcases List.mem_append.mp h with h | h
      · exact .inr ⟨s, by simp, h⟩
      · rcases List.mem_cons.mp h with h | h
        · exact .inl h
        · rcases mem_joinWith h with h | ⟨w, h1, h2⟩
          · exact .inl h
          · exact .inr ⟨w, List.mem_cons_of_mem _ h1, h2⟩
    · simp

theorem part_mem_joinWith {c : UInt8} : ∀ {l : List Str} {w : Str}, w ∈ l → ∀ x ∈ w, x ∈ joinWith c l
  | [], _, h, _, _ => by simp at h
  | [s], w, h, x, hx => by rw [List.mem_singleton] at h; subst h; exact hx
  | s :: t :: l, w, h, x, hx => by
    rw [joinWith]
    · rcases List.mem_cons.mp h with rfl | h
      · exact List.mem_append_left _ hx
      · exact List.mem_append_right _ (List.mem_cons_of_mem _ (part_mem_joinWith h x hx))
    · simp

theorem clauseValue_inj {a b : List (List Str)} (h : Spec.clauseValue a = Spec.clauseValue b) : a = b := by
  injection h with h
  refine List.map_injective_iff.mpr ?_ h
  intro x y hxy
  injection hxy with hxy
  refine List.map_injective_iff.mpr ?_ hxy
  intro x y hxy
  injection hxy

theorem bextValue_eq (t : Str) : bextValue t = Spec.clauseValue ((splitOn (ch 'a') (t.map fun c => if c = ch 's' then ch '/' else c)).map fun clause => splitOn (ch 'c') clause) := by
  unfold bextValue Spec.clauseValue
  rw [List.map_map]
  rfl

/-- Every Base64 text stands for exactly one list of clauses. -/
theorem limen_clauses {t : Str} (ht : ch '/' ∉ t) (cl : List (List Str)) : Spec.LimenClauses t cl ↔ bextValue t = Spec.clauseValue cl := by
  have un : ∀ c : UInt8, c ∉ lit "acs" → (if (if c = ch '/' then ch 's' else c) = ch 's' then ch '/' else (if c = ch '/' then ch 's' else c)) = c :=
    byte_forall (P := fun c => c ∉ lit "acs" → (if (if c = ch '/' then ch 's' else c) = ch 's' then ch '/' else (if c = ch '/' then ch 's' else c)) = c) (by decide +kernel)
  rw [bextValue_eq]
  constructor
  · rintro ⟨h1, h2, rfl⟩
    congr 1
    rw [map_joinWith _ (by decide +kernel), List.map_map]
    have e : cl.map ((fun w => w.map fun c => if c = ch 's' then ch '/' else c) ∘ fun ws => joinWith (ch 'c') (ws.map fun w => w.map fun c => if c = ch '/' then ch 's' else c))
        = cl.map (joinWith (ch 'c')) := by
      apply List.map_congr_left
      intro ws hws
      simp only [Function.comp]
      rw [map_joinWith _ (by decide +kernel), List.map_map]
      congr 1
      conv => rhs; rw [← List.map_id ws]
      apply List.map_congr_left
      intro w hw
      simp only [Function.comp, List.map_map, id]
      conv => rhs; rw [← List.map_id w]
      apply List.map_congr_left
      intro c hc
      exact un c ((h2 ws hws).2 w hw c hc)
    rw [e, splitOn_join _ (by simpa using h1), List.map_map]
    · conv => rhs; rw [← List.map_id cl]
      apply List.map_congr_left
      intro ws hws
      simp only [Function.comp, id]
      refine splitOn_join _ (h2 ws hws).1 ?_
      intro w hw hc
      exact (h2 ws hws).2 w hw _ hc (by decide +kernel)
    · intro s hs
      obtain ⟨ws, hws, rfl⟩ := List.mem_map.mp hs
      intro h
      rcases mem_joinWith h with h | ⟨w, hw, h⟩
      · revert h; decide +kernel
      · exact (h2 ws hws).2 w hw _ h (by decide +kernel)
  · intro h
    have h := clauseValue_inj h
    subst h
    refine ⟨by simpa using splitOn_ne_nil _ _, ?_, ?_⟩
    · intro ws hws
      obtain ⟨clause, hcl, rfl⟩ := List.mem_map.mp hws
      refine ⟨splitOn_ne_nil _ _, ?_⟩
      intro w hw c hc hin
      have hcc : c ∈ clause := by
        have := part_mem_joinWith (c := ch 'c') hw c hc
        rwa [join_splitOn] at this
      have hct : c ∈ t.map fun c => if c = ch 's' then ch '/' else c := by
        have := part_mem_joinWith (c := ch 'a') hcl c hcc
        rwa [join_splitOn] at this
      rw [show lit "acs" = [ch 'a', ch 'c', ch 's'] from rfl] at hin
      simp only [List.mem_cons, List.not_mem_nil, or_false] at hin
      rcases hin with rfl | rfl | rfl
      · exact splitOn_no_sep _ _ _ hcl hcc
      · exact splitOn_no_sep _ _ _ hw hc
      · obtain ⟨x, _, hx⟩ := List.mem_map.mp hct
        split at hx
        · revert hx; decide +kernel
        · rename_i hne; exact hne hx
    · rw [List.map_map]
      have e : ((fun ws => joinWith (ch 'c') (ws.map fun w => w.map fun c => if c = ch '/' then ch 's' else c)) ∘ fun clause => splitOn (ch 'c') clause)
          = fun clause : Str => clause.map fun c => if c = ch '/' then ch 's' else c := by
        funext clause
        simp only [Function.comp]
        rw [← map_joinWith _ (by decide +kernel), join_splitOn]
      rw [e, ← map_joinWith _ (by decide +kernel), join_splitOn, List.map_map]
      conv => lhs; rw [← List.map_id t]
      apply List.map_congr_left
      intro c hc
      simp only [Function.comp, id]
      by_cases hs : c = ch 's'
      · subst hs; decide +kernel
      · rw [if_neg hs, if_neg (by rintro rfl; exact ht hc)]

theorem bext_text {m : Matter} (hc : m.code ∈ Spec.Typed.textCodes) : ∃ t, Bexter.bext m = .ok t ∧ ch '/' ∉ t := by
  have hz : ∀ c ∈ Spec.Typed.textCodes, (Matter.sizage c).isOk = true := by decide +kernel
  have hz := hz _ hc
  cases h : Bexter.bext m with
  | panic => exact absurd h (Pather.bext_ne_panic m)
  | err e =>
    exfalso
    unfold Bexter.bext at h
    cases hs : Matter.sizage m.code with
    | panic => rw [hs] at hz; cases hz
    | err e => rw [hs] at hz; cases hz
    | ok z =>
      rw [hs, Res.ok_bind] at h
      simp only at h
      generalize (if z.ls = 0 then (if (b64Encode (List.replicate z.ls 0 ++ m.raw)).head? = some (ch 'A') then 1 else 0) else (z.ls + 1) % 4) = ws at h
      unfold sliceStr at h
      split at h <;> cases h
  | ok t =>
    refine ⟨t, rfl, ?_⟩
    unfold Bexter.bext at h
    obtain ⟨z, _, h⟩ := Res.bind_eq_ok.mp h
    simp only at h
    generalize (if z.ls = 0 then (if (b64Encode (List.replicate z.ls 0 ++ m.raw)).head? = some (ch 'A') then 1 else 0) else (z.ls + 1) % 4) = ws at h
    unfold sliceStr at h
    split at h
    · have h := Res.ok.inj h
      rw [← h]
      intro hin
      have hin := List.mem_of_mem_take (List.mem_of_mem_drop hin)
      obtain ⟨B, pads, hB, hb, _⟩ := b64Encode_pads (List.replicate z.ls 0 ++ m.raw)
      rw [hB] at hin
      rcases List.mem_append.mp hin with hin | hin
      · have := hb _ hin
        revert this; decide +kernel
      · have := List.eq_of_mem_replicate hin
        revert this; decide +kernel
    · cases h

theorem limen_read (E : Env) (F : Str → Option Str) {l : List UInt8} {m : Matter} (h : Matter.ofTextBytes E l = .ok m) :
    ofLimen E F l = if m.code ∈ Spec.Typed.numberCodes then (do let n ← Number.num m; if n < 2 ^ 63 then processUnweighted E n else .err .tryFrom)
      else if m.code ∈ Spec.Typed.textCodes then (do let t ← Bexter.bext m; processWeighted E (bextValue t))
      else .err .unexpectedCode := by
  have hnum : ∀ code : Str, Number.hasCode code = true ↔ code ∈ Spec.Typed.numberCodes := by
    intro code; simp [Number.hasCode, Spec.Typed.numberCodes]
  have hbex : ∀ code : Str, Bexter.hasCode code = true ↔ code ∈ Spec.Typed.textCodes := by
    intro code; simp [Bexter.hasCode, Spec.Typed.textCodes]
  have h : (do let q ← fromUtf8 l; Matter.exfil q) = .ok m := h
  obtain ⟨q, hq, hx⟩ := Res.bind_eq_ok.mp h
  have hql : q = l := by
    unfold fromUtf8 at hq
    split at hq
    · exact (Res.ok.inj hq).symm
    · cases hq
  subst hql
  cases q with
  | nil => cases hx
  | cons c r =>
    rw [ofLimen_eq E F (by simp)]
    unfold processLimen
    rw [hq, Res.ok_bind]
    simp only
    have hx' := hx
    unfold Matter.exfil at hx'
    simp only at hx'
    obtain ⟨n, hn, hx'⟩ := Res.bind_eq_ok.mp hx'
    split at hx'
    · cases hx'
    obtain ⟨hard, hh, _⟩ := Res.bind_eq_ok.mp hx'
    have hcode := read_code hx rfl hn
    have hhard : hard = m.code := by
      unfold sliceStr at hh
      split at hh
      · rw [hcode]; have := Res.ok.inj hh; simpa using this.symm
      · cases hh
    rw [hn, Res.ok_bind, hh, Res.ok_bind, hhard]
    by_cases h1 : m.code ∈ Spec.Typed.numberCodes
    · rw [if_pos ((hnum _).mpr h1), if_pos h1]
      rw [show Number.new E none none none none none (some (c :: r)) none = .ok m from hx, Res.ok_bind]
    · rw [if_neg (fun h => h1 ((hnum _).mp h)), if_neg h1]
      by_cases h2 : m.code ∈ Spec.Typed.textCodes
      · rw [if_pos ((hbex _).mpr h2), if_pos h2]
        rw [show Bexter.new E none none none none (some (c :: r)) none = (do let m ← Matter.exfil (c :: r); if Bexter.hasCode m.code then .ok m else .err .unexpectedCode) from rfl,
          hx, Res.ok_bind, if_pos ((hbex _).mpr h2), Res.ok_bind]
      · rw [if_neg (fun h => h2 ((hbex _).mp h)), if_neg h2]

/-- C101. A limen: a number primitive stands for its value, a Base64 text for the clauses written in it; anything else, and a number from 2^32 on, is
refused. (Which ones panic: C38.) -/
theorem C101_limen (E : Env) (F : Str → Option Str) (l : List UInt8) :
    (∀ m n, Matter.ofTextBytes E l = .ok m → m.code ∈ Spec.Typed.numberCodes → Number.num m = .ok n → n < 2 ^ 32 → ofLimen E F l = ofThold E F (.int n)) ∧
    (∀ m n, Matter.ofTextBytes E l = .ok m → m.code ∈ Spec.Typed.numberCodes → Number.num m = .ok n → 2 ^ 32 ≤ n → ∃ e, ofLimen E F l = .err e) ∧
    (∀ m, Matter.ofTextBytes E l = .ok m → m.code ∈ Spec.Typed.textCodes →
      ∃ t cl, Bexter.bext m = .ok t ∧ Spec.LimenClauses t cl ∧ (∀ cl', Spec.LimenClauses t cl' → cl' = cl) ∧ ofLimen E F l = ofThold E F (Spec.clauseValue cl)) ∧
    (∀ m, Matter.ofTextBytes E l = .ok m → m.code ∉ Spec.Typed.numberCodes → m.code ∉ Spec.Typed.textCodes → ∃ e, ofLimen E F l = .err e) ∧
    (∀ e, Matter.ofTextBytes E l = .err e → ∀ t, ofLimen E F l ≠ .ok t) := by
  have hdisj : ∀ code : Str, code ∈ Spec.Typed.textCodes → code ∉ Spec.Typed.numberCodes := by
    have : ∀ code ∈ Spec.Typed.textCodes, code ∉ Spec.Typed.numberCodes := by decide +kernel
    exact this
  refine ⟨?_, ?_, ?_, ?_, ?_⟩
  · intro m n h hc hn hlt
    rw [limen_read E F h, if_pos hc, hn, Res.ok_bind, if_pos (by omega), ofThold_eq]
    rfl
  · intro m n h hc hn hlt
    rw [limen_read E F h, if_pos hc, hn, Res.ok_bind]
    split
    · unfold processUnweighted
      rw [if_neg (by omega), if_pos (by omega)]
      exact ⟨_, rfl⟩
    · exact ⟨_, rfl⟩
  · intro m h hc
    obtain ⟨t, ht, hs⟩ := bext_text hc
    refine ⟨t, _, ht, (limen_clauses hs _).mpr (bextValue_eq t), ?_, ?_⟩
    · intro cl' h'
      exact clauseValue_inj (((limen_clauses hs _).mp h').symm.trans (bextValue_eq t))
    · rw [limen_read E F h, if_neg (hdisj _ hc), if_pos hc, ht, Res.ok_bind, ← bextValue_eq, ofThold_eq]
      rfl
  · intro m h h1 h2
    rw [limen_read E F h, if_neg h1, if_neg h2]
    exact ⟨_, rfl⟩
  · intro e h t ht
    by_cases hl : l = []
    · subst hl
      rw [ofLimen_empty] at ht; cases ht
    rw [ofLimen_eq E F hl] at ht
    have h : (do let q ← fromUtf8 l; Matter.exfil q) = .err e := h
    unfold processLimen at ht
    obtain ⟨q, hq, ht⟩ := Res.bind_eq_ok.mp ht
    rw [hq, Res.ok_bind] at h
    cases q with
    | nil => cases ht
    | cons c r =>
      simp only at ht
      obtain ⟨n, hn, ht⟩ := Res.bind_eq_ok.mp ht
      obtain ⟨hard, hh, ht⟩ := Res.bind_eq_ok.mp ht
      split at ht
      · rw [show Number.new E none none none none none (some (c :: r)) none = .err e from h] at ht
        cases ht
      · split at ht
        · rw [show Bexter.new E none none none none (some (c :: r)) none = (do let m ← Matter.exfil (c :: r); if Bexter.hasCode m.code then .ok m else .err .unexpectedCode) from rfl, h] at ht
          cases ht
        · cases ht

/-- C101. Several forms at once: they are read in the order threshold value, limen (an empty one counts as none), sith; each has to be accepted,
and the last one counts. -/
theorem C101_several (E : Env) (F : Str → Option Str) (thold : Option Value) (limen : Option (List UInt8)) (sith : Option Value) :
    Tholder.new E F thold limen sith =
      Spec.inTurn ((thold.map (ofThold E F)).toList ++ ((limen.filter (fun l => decide (l ≠ []))).map (ofLimen E F)).toList ++ (sith.map (ofSith E F)).toList) := by
  have fin : ∀ {r : Res Tholder}, (∀ t, r = .ok t → Shaped E t) → (do let t ← r; if t.number.isNone ∧ t.bexter.isNone then .err .emptyMaterial else .ok t : Res Tholder) = r := by
    intro r hr
    cases r with
    | ok t => rw [Res.ok_bind, if_neg (shaped_some (hr t rfl))]
    | err e => rfl
    | panic => rfl
  have f1 := fun v => fin (r := processThold E v) fun _ h => processThold_shaped h
  have f2 := fun l => fin (r := processLimen E l) fun _ h => processLimen_shaped h
  have f3 := fun v => fin (r := processSith E F v) fun _ h => processSith_shaped h
  have hl : ∀ l, l ≠ [] → ofLimen E F l = processLimen E l := fun l h => ofLimen_eq E F h
  have key : ∀ lim : Option (List UInt8), (∀ l, lim = some l → l ≠ []) → Tholder.new E F thold lim sith =
      Spec.inTurn ((thold.map (ofThold E F)).toList ++ (lim.map (ofLimen E F)).toList ++ (sith.map (ofSith E F)).toList) := by
    intro lim hlim
    unfold Tholder.new
    cases thold with
    | none =>
      cases lim with
      | none =>
        cases sith with
        | none => rfl
        | some v => simpa [Spec.inTurn, ofSith_eq] using f3 v
      | some l =>
        have hne := hlim l rfl
        cases sith with
        | none => simpa [Spec.inTurn, hl l hne, hne] using f2 l
        | some v => simp only [Res.ok_bind, if_neg hne, f3]; simp [Spec.inTurn, hl l hne, ofSith_eq]
    | some w =>
      cases lim with
      | none =>
        cases sith with
        | none => simpa [Spec.inTurn, ofThold_eq] using f1 w
        | some v => simp only [Res.ok_bind, f3]; simp [Spec.inTurn, ofSith_eq, ofThold_eq]
      | some l =>
        have hne := hlim l rfl
        cases sith with
        | none => simp only [Res.ok_bind, if_neg hne, f2]; simp [Spec.inTurn, hl l hne, ofThold_eq]
        | some v => simp only [if_neg hne, f3]; simp [Spec.inTurn, hl l hne, ofSith_eq, ofThold_eq]
  cases limen with
  | none => exact key none (by simp)
  | some l =>
    by_cases hne : l = []
    · subst hne
      rw [show Option.filter (fun l => decide (l ≠ [])) (some ([] : List UInt8)) = none from rfl, ← key none (by simp)]
      rfl
    · rw [show Option.filter (fun l => decide (l ≠ [])) (some l) = some l by simp [Option.filter, hne]]
      exact key (some l) (by rintro _ ⟨⟩; exact hne)

/-- C101. What an accepted threshold shows of itself: a number shows the number, also as its size; weights show the weights, no number, and how
many they are as the size. -/
theorem C101_shown {E : Env} {F : Str → Option Str} {a : Option Value} {b : Option (List UInt8)} {c : Option Value} {t : Tholder}
    (h : Tholder.new E F a b c = .ok t) :
    (∃ n : Nat, n < 2 ^ 32 ∧ t.thold = .int n ∧ t.num = .ok (some n) ∧ t.weighted = false ∧ t.size = n) ∨
    (∃ cs, Spec.ThresholdValue t.thold cs ∧ t.num = .ok none ∧ t.weighted = true ∧ t.size = Spec.positions cs) := by
  rcases new_shaped h with ⟨n, hm⟩ | ⟨cs, hw⟩
  · exact .inl ⟨n, hm.fits, hm.thold, num_number hm, hm.weighted, hm.size⟩
  · exact .inr ⟨cs, hw.thold ▸ stored_value hw.good, by simp [num, hw.weighted], hw.weighted, hw.size⟩

/-! ## Non-trivial cases -/

example : Spec.SithNumeral (lit "+0a") 10 := .inl ⟨lit "+", lit "0a", [0, 10], rfl, .inr rfl, by decide +kernel, ⟨by decide +kernel, by decide +kernel, trivial⟩, rfl⟩
example : Spec.SithNumeral (lit "-00") 0 := .inr ⟨rfl, lit "00", rfl, by decide +kernel, by decide +kernel⟩
example : (lit "[1]").head? = some (ch '[') := rfl
example : Spec.LimenClauses (lit "1s2c1s2a1") [[lit "1/2", lit "1/2"], [lit "1"]] := by
  refine ⟨by simp, by decide +kernel, by decide +kernel⟩
example (E : Env) : ∃ m, Matter.ofTextBytes E (lit "MAAL") = .ok m ∧ m.code ∈ Spec.Typed.numberCodes ∧ Number.num m = .ok 11 :=
  ⟨⟨lit "M", 0, [0, 11]⟩, (show (do let q ← fromUtf8 (lit "MAAL"); Matter.exfil q) = _ by decide +kernel), by decide +kernel, by decide +kernel⟩
example (E : Env) : ∃ m, Matter.ofTextBytes E (lit "4AAC1a01s2c1") = .ok m ∧ m.code ∈ Spec.Typed.textCodes ∧ Bexter.bext m = .ok (lit "1a01s2c1") ∧
    Spec.LimenClauses (lit "1a01s2c1") [[lit "1"], [lit "01/2", lit "1"]] := by
  refine ⟨⟨lit "4A", 2, [213, 173, 53, 179, 103, 53]⟩, (show (do let q ← fromUtf8 (lit "4AAC1a01s2c1"); Matter.exfil q) = _ by decide +kernel), by decide +kernel, by decide +kernel, by simp, by decide +kernel, by decide +kernel⟩

end Cesride
