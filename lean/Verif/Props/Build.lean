import Verif.Props.Altered
import Verif.Props.Panics
import Verif.Props.Args
import Verif.Props.Signer
import Verif.Lemmas.Reencode
import Verif.Spec.Build

/-! # C99: building a primitive from a code and raw bytes, whatever the code -/

namespace Cesride
open Matter

theorem groupsFor_eq (n : Nat) : (n + (3 - n % 3) % 3) / 3 = Spec.groupsFor n := by
  unfold Spec.groupsFor; omega

open Classical in
theorem slice_after_first {d : UInt8} {rest : Str} (hd : d < 0x80) (hu : utf8Valid (d :: rest) = true) {w : Nat} (hw : 1 ≤ w) :
    sliceStr (d :: rest) 1 w = if Spec.WholeChars (d :: rest) w then .ok (((d :: rest).take w).drop 1) else .panic := by
  have hb : isBoundary (d :: rest) 1 = true := by
    have hA : Ascii [d] := by intro c hc; rw [List.mem_singleton] at hc; rw [hc]; exact hd
    exact isBoundary_prefix (q := [d]) hA (by rw [← utf8_cons hd]; exact hu) (by simp)
  by_cases hl : w ≤ (d :: rest).length
  · rw [sliceStr_if hw hl hb]
    by_cases hm : Spec.MidChar (d :: rest) w
    · rw [if_neg (by rw [(midChar_iff hl (by omega)).mpr hm]; simp), if_neg (fun h => h.2 hm)]
    · have : isBoundary (d :: rest) w = true := by
        cases h : isBoundary (d :: rest) w with
        | true => rfl
        | false => exact absurd ((midChar_iff hl (by omega)).mp h) hm
      rw [if_pos this, if_pos ⟨hl, hm⟩]
  · rw [if_neg (fun h => hl h.1)]
    unfold sliceStr
    rw [if_neg (fun h => hl h.2.1)]

theorem dex_small (d : UInt8) : d ∈ smallVrzDex ↔ d ∈ lit "456" := by
  rw [show lit "456" = smallVrzDex from rfl]
theorem dex_large (d : UInt8) : d ∈ largeVrzDex ↔ d ∈ lit "789" := by
  rw [show lit "789" = largeVrzDex from rfl]

theorem dex_ascii {d : UInt8} (h : d ∈ lit "456" ∨ d ∈ lit "789") : d < 0x80 := by
  revert h
  exact byte_forall (P := fun d => d ∈ lit "456" ∨ d ∈ lit "789" → d < 0x80) (by decide +kernel) d

theorem dex_disjoint {d : UInt8} (h : d ∈ lit "789") : d ∉ lit "456" := by
  revert h
  exact byte_forall (P := fun d => d ∈ lit "789" → d ∉ lit "456") (by decide +kernel) d

theorem fixed_first : ∀ e ∈ Spec.fixedCodes, ∀ d, e.1.head? = some d → d ∉ lit "456" ∧ d ∉ lit "789" := by
  intro e he
  have : ∀ e ∈ Spec.fixedCodes, (match e.1.head? with | some d => decide (d ∉ lit "456" ∧ d ∉ lit "789") | none => true) = true := by decide +kernel
  intro d hd
  have := this e he
  rw [hd] at this
  simpa using this

open Classical in
/-- C99. Building a primitive from a code and raw bytes, for every text given as code. With a fixed-size code the first bytes of the raw are
taken. When the first character is one of `4`…`9`, the rest of the code is not looked at: the built code has the digit for the lead bytes,
followed by the second (`456`) or the second to fourth (`789`) of the given characters, and the build panics when these are missing or
split a character. Everything else is an error. -/
theorem C99_build (E : Env) (code : Str) (raw : List UInt8) (hu : utf8Valid code = true) :
    (code = [] → Matter.new E (some code) (some raw) none none none = .err .emptyMaterial) ∧
    (∀ n, (code, n) ∈ Spec.fixedCodes → Matter.new E (some code) (some raw) none none none =
      if raw.length < n then .err .shortage else .ok { code := code, size := 0, raw := raw.take n }) ∧
    (∀ d rest len lead groups, code = d :: rest → len = raw.length % 2 ^ 32 → lead = Spec.leadFor len → groups = Spec.groupsFor len → 
      (d ∈ lit "456" → Matter.new E (some code) (some raw) none none none =
        if 64 ^ 4 ≤ groups then .err .invalidVarRawSize
        else if Spec.WholeChars code 2 then
          .ok { code := (if groups < 64 ^ 2 then [(lit "456").getD lead 0] else (lit "789").getD lead 0 :: lit "AA") ++ (code.take 2).drop 1,
                size := groups, raw := raw.take len }
        else .panic) ∧
      (d ∈ lit "789" → Matter.new E (some code) (some raw) none none none =
        if 64 ^ 4 ≤ groups then .err .invalidVarRawSize
        else if Spec.WholeChars code 4 then
          .ok { code := (lit "789").getD lead 0 :: (code.take 4).drop 1, size := groups, raw := raw.take len }
        else .panic)) ∧
    (code ≠ [] → (∀ n, (code, n) ∉ Spec.fixedCodes) → (∀ d, code.head? = some d → d ∉ lit "456" ∧ d ∉ lit "789") →
      ∃ e, Matter.new E (some code) (some raw) none none none = .err e) := by
  have hnew : Matter.new E (some code) (some raw) none none none = newWithCodeAndRaw code raw := rfl
  rw [hnew]
  refine ⟨?_, ?_, ?_, ?_⟩
  · rintro rfl; rfl
  · intro n hn
    obtain ⟨z, hz, hf, rfl⟩ := fixed_sizage hn
    exact new_fixed hz hf raw
  · rintro d rest len lead groups rfl rfl rfl rfl
    have hle : raw.length % 2 ^ 32 ≤ raw.length := Nat.mod_le _ _
    constructor
    · intro hd
      unfold newWithCodeAndRaw selectCode
      simp only [dex_small, dex_large, hd, true_or, if_true]
      rw [slice_after_first (dex_ascii (.inl hd)) hu (by omega), groupsFor_eq, show (3 - raw.length % 2 ^ 32 % 3) % 3 = Spec.leadFor (raw.length % 2 ^ 32) from rfl]
      generalize raw.length % 2 ^ 32 = len at hle ⊢
      by_cases hW : Spec.WholeChars (d :: rest) 2
      · rw [if_pos hW, if_pos hW]
        by_cases h2 : Spec.groupsFor len < 64 ^ 2
        · rw [if_pos h2, if_neg (by omega), if_pos h2]
          simp only [Res.ok_bind]
          rw [if_neg (by omega)]
          rfl
        · rw [if_neg h2, if_neg h2]
          by_cases h4 : Spec.groupsFor len < 64 ^ 4
          · rw [if_pos h4, if_neg (by omega)]
            simp only [Res.ok_bind]
            rw [if_neg (by omega)]
            rfl
          · rw [if_neg h4, if_pos (by omega)]; rfl
      · rw [if_neg hW, if_neg hW]
        by_cases h2 : Spec.groupsFor len < 64 ^ 2
        · rw [if_pos h2, if_neg (by omega)]; rfl
        · rw [if_neg h2]
          by_cases h4 : Spec.groupsFor len < 64 ^ 4
          · rw [if_pos h4, if_neg (by omega)]; rfl
          · rw [if_neg h4, if_pos (by omega)]; rfl
    · intro hd
      unfold newWithCodeAndRaw selectCode
      simp only [dex_small, dex_large, hd, dex_disjoint hd, or_true, if_true, if_false]
      rw [slice_after_first (dex_ascii (.inr hd)) hu (by omega), groupsFor_eq, show (3 - raw.length % 2 ^ 32 % 3) % 3 = Spec.leadFor (raw.length % 2 ^ 32) from rfl]
      generalize raw.length % 2 ^ 32 = len at hle ⊢
      by_cases hW : Spec.WholeChars (d :: rest) 4
      · rw [if_pos hW, if_pos hW]
        by_cases h4 : Spec.groupsFor len < 64 ^ 4
        · rw [if_pos h4, if_neg (by omega)]
          simp only [Res.ok_bind]
          rw [if_neg (by omega)]
          rfl
        · rw [if_neg h4, if_pos (by omega)]; rfl
      · rw [if_neg hW, if_neg hW]
        by_cases h4 : Spec.groupsFor len < 64 ^ 4
        · rw [if_pos h4, if_neg (by omega)]; rfl
        · rw [if_neg h4, if_pos (by omega)]; rfl
  · intro hne hfix hfirst
    cases code with
    | nil => exact absurd rfl hne
    | cons d rest =>
      obtain ⟨h1, h2⟩ := hfirst d rfl
      unfold newWithCodeAndRaw selectCode
      simp only [dex_small, dex_large, h1, h2, or_self, if_false]
      unfold rawSize
      cases hz : sizage (d :: rest) with
      | panic => exact absurd hz (sizage_ne_panic _)
      | err e => exact ⟨e, rfl⟩
      | ok z =>
        rcases sizage_spec hz with ⟨hf, _⟩ | ⟨hf, hm⟩
        · simp only [Res.ok_bind, hf, if_true]; exact ⟨_, rfl⟩
        · exact absurd hm (hfix _)

/-- C99. The build panics exactly on a code that starts with one of `4`…`9` and has too few characters (or ones of several bytes) after it, when
the raw is not too large; never with a code of the library. -/
theorem C99_panics_exactly (E : Env) (code : Str) (raw : List UInt8) (hu : utf8Valid code = true) :
    (Matter.new E (some code) (some raw) none none none = .panic ↔
      Spec.groupsFor (raw.length % 2 ^ 32) < 64 ^ 4 ∧ ∃ d rest, code = d :: rest ∧
        ((d ∈ lit "456" ∧ ¬ Spec.WholeChars code 2) ∨ (d ∈ lit "789" ∧ ¬ Spec.WholeChars code 4))) ∧
    (Spec.IsCode code → Matter.new E (some code) (some raw) none none none ≠ .panic) := by
  obtain ⟨h1, h2, h3, h4⟩ := C99_build E code raw hu
  have main : Matter.new E (some code) (some raw) none none none = .panic ↔
      Spec.groupsFor (raw.length % 2 ^ 32) < 64 ^ 4 ∧ ∃ d rest, code = d :: rest ∧
        ((d ∈ lit "456" ∧ ¬ Spec.WholeChars code 2) ∨ (d ∈ lit "789" ∧ ¬ Spec.WholeChars code 4)) := by
    cases hc : code with
    | nil => rw [← hc, h1 hc]; simp [hc]
    | cons d rest =>
      rw [← hc]
      obtain ⟨hs, hl⟩ := h3 d rest _ _ _ hc rfl rfl rfl
      by_cases ds : d ∈ lit "456"
      · have dl : d ∉ lit "789" := fun h => dex_disjoint h ds
        rw [hs ds]
        by_cases hg : 64 ^ 4 ≤ Spec.groupsFor (raw.length % 2 ^ 32)
        · rw [if_pos hg]
          simp only [reduceCtorEq, false_iff]
          rintro ⟨h, _⟩; omega
        · rw [if_neg hg]
          by_cases hW : Spec.WholeChars code 2
          · rw [if_pos hW]
            simp only [reduceCtorEq, false_iff]
            rintro ⟨_, d', rest', he, h⟩
            rw [hc] at he; injection he with he _; subst he
            rcases h with h | h
            · exact h.2 hW
            · exact dl h.1
          · rw [if_neg hW]
            simp only [true_iff]
            exact ⟨by omega, d, rest, hc, .inl ⟨ds, hW⟩⟩
      · by_cases dl : d ∈ lit "789"
        · rw [hl dl]
          by_cases hg : 64 ^ 4 ≤ Spec.groupsFor (raw.length % 2 ^ 32)
          · rw [if_pos hg]
            simp only [reduceCtorEq, false_iff]
            rintro ⟨h, _⟩; omega
          · rw [if_neg hg]
            by_cases hW : Spec.WholeChars code 4
            · rw [if_pos hW]
              simp only [reduceCtorEq, false_iff]
              rintro ⟨_, d', rest', he, h⟩
              rw [hc] at he; injection he with he _; subst he
              rcases h with h | h
              · exact ds h.1
              · exact h.2 hW
            · rw [if_neg hW]
              simp only [true_iff]
              exact ⟨by omega, d, rest, hc, .inr ⟨dl, hW⟩⟩
        · have hr : ¬ (Spec.groupsFor (raw.length % 2 ^ 32) < 64 ^ 4 ∧ ∃ d rest, code = d :: rest ∧
              ((d ∈ lit "456" ∧ ¬ Spec.WholeChars code 2) ∨ (d ∈ lit "789" ∧ ¬ Spec.WholeChars code 4))) := by
            rintro ⟨_, d', rest', he, h⟩
            rw [hc] at he; injection he with he _; subst he
            rcases h with h | h
            · exact ds h.1
            · exact dl h.1
          simp only [hr, iff_false]
          by_cases hf : ∃ n, (code, n) ∈ Spec.fixedCodes
          · obtain ⟨n, hn⟩ := hf
            rw [h2 n hn]
            split <;> simp
          · obtain ⟨e, he⟩ := h4 (by simp [hc]) (fun n hn => hf ⟨n, hn⟩) (by intro d' hd'; rw [hc] at hd'; injection hd' with hd'; subst hd'; exact ⟨ds, dl⟩)
            rw [he]; simp
  refine ⟨main, ?_⟩
  rintro (⟨n, hn⟩ | ⟨large, lead, f, hl, hf, rfl⟩) hp
  · rw [h2 n hn] at hp; split at hp <;> cases hp
  · obtain ⟨_, d, rest, he, h⟩ := main.mp hp
    have hMid : ∀ (s : Str), ¬ Spec.MidChar s s.length := by
      rintro s ⟨b, hb, _⟩; simp at hb
    cases large
    · rcases h with ⟨_, h⟩ | ⟨h, _⟩
      · exact h ⟨by simp [Spec.varCode], hMid _⟩
      · simp only [Spec.varCode, Bool.false_eq_true, if_false] at he
        injection he with he _; subst he
        rcases lead with _ | _ | _ | lead
        · revert h; decide +kernel
        · revert h; decide +kernel
        · revert h; decide +kernel
        · omega
    · rcases h with ⟨h, _⟩ | ⟨_, h⟩
      · simp only [Spec.varCode, if_true] at he
        injection he with he _; subst he
        rcases lead with _ | _ | _ | lead
        · revert h; decide +kernel
        · revert h; decide +kernel
        · revert h; decide +kernel
        · omega
      · exact h ⟨by simp [Spec.varCode, show (lit "AA").length = 2 from rfl], hMid _⟩


theorem digit_mem {lead : Nat} (h : lead ≤ 2) : (lit "456").getD lead 0 ∈ lit "456" ∧ (lit "789").getD lead 0 ∈ lit "789" := by
  match lead, h with
  | 0, _ => decide +kernel
  | 1, _ => decide +kernel
  | 2, _ => decide +kernel

theorem isCode_small {d : UInt8} (hd : d ∈ lit "456") (t : Str) : Spec.IsCode (d :: t) ↔ t = [ch 'A'] ∨ t = [ch 'B'] := by
  constructor
  · rintro (⟨n, h⟩ | ⟨l, lead, f, hl, hf, h⟩)
    · exact absurd hd (fixed_first _ h d rfl).1
    · cases l with
      | true =>
        simp only [Spec.varCode, if_true] at h
        injection h with h _
        rw [h] at hd
        exact absurd hd (dex_disjoint (digit_mem hl).2)
      | false =>
        simp only [Spec.varCode, Bool.false_eq_true, if_false] at h
        injection h with _ h
        rcases hf with rfl | rfl
        · exact .inl h
        · exact .inr h
  · intro ht
    have : ∃ lead, lead ≤ 2 ∧ d = (lit "456").getD lead 0 := by
      rw [show lit "456" = [ch '4', ch '5', ch '6'] from rfl] at hd ⊢
      simp only [List.mem_cons, List.not_mem_nil, or_false] at hd
      rcases hd with rfl | rfl | rfl
      · exact ⟨0, by omega, rfl⟩
      · exact ⟨1, by omega, rfl⟩
      · exact ⟨2, by omega, rfl⟩
    obtain ⟨lead, hl, rfl⟩ := this
    rcases ht with rfl | rfl
    · exact .inr ⟨false, lead, ch 'A', hl, .inl rfl, rfl⟩
    · exact .inr ⟨false, lead, ch 'B', hl, .inr rfl, rfl⟩

theorem isCode_large {d : UInt8} (hd : d ∈ lit "789") (t : Str) : Spec.IsCode (d :: t) ↔ t = lit "AAA" ∨ t = lit "AAB" := by
  constructor
  · rintro (⟨n, h⟩ | ⟨l, lead, f, hl, hf, h⟩)
    · exact absurd hd (fixed_first _ h d rfl).2
    · cases l with
      | false =>
        simp only [Spec.varCode, Bool.false_eq_true, if_false] at h
        injection h with h _
        rw [h] at hd
        exact absurd (digit_mem hl).1 (dex_disjoint hd)
      | true =>
        simp only [Spec.varCode, if_true] at h
        injection h with _ h
        rcases hf with rfl | rfl
        · exact .inl h
        · exact .inr h
  · intro ht
    have : ∃ lead, lead ≤ 2 ∧ d = (lit "789").getD lead 0 := by
      rw [show lit "789" = [ch '7', ch '8', ch '9'] from rfl] at hd ⊢
      simp only [List.mem_cons, List.not_mem_nil, or_false] at hd
      rcases hd with rfl | rfl | rfl
      · exact ⟨0, by omega, rfl⟩
      · exact ⟨1, by omega, rfl⟩
      · exact ⟨2, by omega, rfl⟩
    obtain ⟨lead, hl, rfl⟩ := this
    rcases ht with rfl | rfl
    · exact .inr ⟨true, lead, ch 'A', hl, .inl rfl, rfl⟩
    · exact .inr ⟨true, lead, ch 'B', hl, .inr rfl, rfl⟩

/-- C99. What was built has a text, and a binary form, exactly when its code is one of the library. After one of `4`, `5`, `6` this is so when
the second character is `A` or `B`, after one of `7`, `8`, `9` when `AAA` or `AAB` follows; what comes later in the given code is ignored. -/
theorem C99_usable (E : Env) {code : Str} {raw : List UInt8} {m : Matter} (hu : utf8Valid code = true)
    (h : Matter.new E (some code) (some raw) none none none = .ok m) :
    ((∃ t, m.qb64 E = .ok t) ↔ Spec.IsCode m.code) ∧ ((∃ b, m.qb2 E = .ok b) ↔ Spec.IsCode m.code) ∧
    (∀ d, code.head? = some d → d ∈ lit "456" → (Spec.IsCode m.code ↔ code[1]? = some (ch 'A') ∨ code[1]? = some (ch 'B'))) ∧
    (∀ d, code.head? = some d → d ∈ lit "789" → (Spec.IsCode m.code ↔ (code.take 4).drop 1 = lit "AAA" ∨ (code.take 4).drop 1 = lit "AAB")) := by
  have hfit : Spec.IsCode m.code → Spec.RawFits m.code m.size m.raw.length := by
    intro hc
    obtain ⟨z, hz⟩ := isCode_sizage hc
    have w := built_wf h hz
    rcases sizage_spec hz with ⟨hf, l, f, h1, h2, h3⟩ | ⟨hf, hm⟩
    · right
      have hw := w.var hf
      have hz' := varCode_sizage l h1 h2
      rw [← h3, hz] at hz'
      refine ⟨l, z.ls, f, h1, h2, h3, ?_, ?_⟩
      · have h1' := hw.1
        rw [Res.ok.inj hz'] at h1'
        exact h1'
      · exact hw.2
    · left
      rw [(w.fix hf).2]; exact hm
  have hbin : (∃ b, m.qb2 E = .ok b) ↔ Spec.IsCode m.code := by
    rw [(C84_binary E m).2.1]
    refine ⟨?_, hfit⟩
    rintro (h | ⟨l, ld, f, h1, h2, h3, _⟩)
    · exact .inl ⟨_, h⟩
    · exact .inr ⟨l, ld, f, h1, h2, h3⟩
  refine ⟨?_, hbin, ?_, ?_⟩
  · constructor
    · intro ht
      rcases (C84_text E m).1.mp ht with ⟨n, h, _⟩ | ⟨l, ld, f, h1, h2, h3, _⟩
      · exact .inl ⟨_, h⟩
      · exact .inr ⟨l, ld, f, h1, h2, h3⟩
    · intro hc
      obtain ⟨b, hb⟩ := hbin.mpr hc
      obtain ⟨t, y, ht, _⟩ := (C84_binary E m).2.2 b hb
      exact ⟨t, ht⟩
  · intro d hd hds
    cases code with
    | nil => cases hd
    | cons d' rest =>
      obtain rfl : d' = d := by simpa using hd
      obtain ⟨hs, _⟩ := (C99_build E (d' :: rest) raw hu).2.2.1 d' rest _ _ _ rfl rfl rfl rfl
      rw [h] at hs
      have hs := (hs hds).symm
      split at hs
      · cases hs
      split at hs
      case isFalse => cases hs
      rename_i hW
      have hc := congrArg Matter.code (Res.ok.inj hs)
      simp only at hc
      have hl : Spec.leadFor (raw.length % 2 ^ 32) ≤ 2 := by unfold Spec.leadFor; omega
      cases rest with
      | nil => have := hW.1; simp at this
      | cons c r =>
        simp only [List.take_succ_cons, List.take_zero, List.drop_succ_cons, List.drop_zero] at hc
        rw [← hc]
        simp only [List.getElem?_cons_succ, List.getElem?_cons_zero, Option.some.injEq]
        split
        · rw [List.cons_append, List.nil_append, isCode_small (digit_mem hl).1]
          simp
        · rw [List.cons_append, isCode_large (digit_mem hl).2]
          rw [show lit "AAA" = lit "AA" ++ [ch 'A'] from rfl, show lit "AAB" = lit "AA" ++ [ch 'B'] from rfl]
          simp only [List.append_cancel_left_eq, List.cons.injEq, and_true]
  · intro d hd hds
    cases code with
    | nil => cases hd
    | cons d' rest =>
      obtain rfl : d' = d := by simpa using hd
      obtain ⟨_, hs⟩ := (C99_build E (d' :: rest) raw hu).2.2.1 d' rest _ _ _ rfl rfl rfl rfl
      rw [h] at hs
      have hs := (hs hds).symm
      split at hs
      · cases hs
      split at hs
      case isFalse => cases hs
      have hc := congrArg Matter.code (Res.ok.inj hs)
      simp only at hc
      have hl : Spec.leadFor (raw.length % 2 ^ 32) ≤ 2 := by unfold Spec.leadFor; omega
      rw [← hc]
      exact isCode_large (digit_mem hl).2 _

/-- C99. The typed constructors, given raw and a code: those that look at the code only after building panic when the build does, the others
never. A signer looks at the code first unless another input is given besides the raw. -/
theorem C99_typed (E : Env) (H : Hash) (C : Crypto) (code : Str) (raw : List UInt8) (qb64b : Option (List UInt8)) (qb64 : Option Str) (qb2 : Option (List UInt8))
    (hu : utf8Valid code = true) :
    (let P := Matter.new E (some code) (some raw) none none none = .panic
     (Verfer.new E (some code) (some raw) qb64b qb64 qb2 = .panic ↔ P) ∧
     (∀ v, Cigar.new E v (some code) (some raw) qb64b qb64 qb2 = .panic ↔ P) ∧
     (∀ ser, Diger.new E H ser (some code) (some raw) qb64b qb64 qb2 = .panic ↔ P) ∧
     (∀ sn snh, Seqner.new E sn snh (some code) (some raw) qb64b qb64 qb2 = .panic ↔ P) ∧
     (∀ now dts, Dater.new E now dts (some code) (some raw) qb64b qb64 qb2 = .panic ↔ P) ∧
     (Bexter.new E none (some code) (some raw) qb64b qb64 qb2 = .panic ↔ P) ∧
     (∀ path, Pather.new E path none (some code) (some raw) qb64b qb64 qb2 = .panic ↔ P)) ∧
    (∀ num numh, Number.new E num numh (some code) (some raw) qb64b qb64 qb2 ≠ .panic) ∧
    (∀ rnd tier, Salter.new E rnd tier (some code) (some raw) qb64b qb64 qb2 ≠ .panic) ∧
    (∀ ked allows, Prefixer.new E H ked allows (some code) (some raw) qb64b qb64 qb2 ≠ .panic) ∧
    (∀ r t, Signer.new E C r t (some code) (some raw) none none none ≠ .panic) ∧
    (∀ r t, Signer.new E C r t (some code) (some raw) qb64b qb64 qb2 = .panic →
      Matter.new E (some code) (some raw) none none none = .panic ∧ ¬ (qb64b = none ∧ qb64 = none ∧ qb2 = none)) ∧
    (∀ sad label kind ignore, Saider.new E H sad label kind ignore (some code) (some raw) qb64b qb64 qb2 ≠ .panic) ∧
    (∀ v index ondex, Siger.new E v index ondex (some code) (some raw) qb64b qb64 qb2 ≠ .panic) := by
  have hm : Matter.new E (some code) (some raw) qb64b qb64 qb2 = Matter.new E (some code) (some raw) none none none := rfl
  have hfix : ∀ {c n}, (c, n) ∈ Spec.fixedCodes → Matter.new E (some c) (some raw) qb64b qb64 qb2 ≠ .panic := by
    intro c n hc
    obtain ⟨z, hz, hf, _⟩ := fixed_sizage hc
    show newWithCodeAndRaw c raw ≠ .panic
    rw [new_fixed hz hf]
    split <;> simp
  have vd : ∀ c, validateDigestCode c = .ok () → ∀ d, Matter.new E (some c) (some d) none none none ≠ .panic := by
    intro c hc d
    obtain ⟨n, hn⟩ := digestSizes_contains hc
    have : ∀ e ∈ digestSizes, e ∈ Spec.fixedCodes := by decide +kernel
    obtain ⟨z, hz, hf, _⟩ := fixed_sizage (this _ hn)
    show newWithCodeAndRaw c d ≠ .panic
    rw [new_fixed hz hf]
    split <;> simp
  have hS0 : ∀ r t, Signer.new E C r t (some code) (some raw) none none none ≠ .panic := by
    intro r t
    by_cases hc : ∃ c, code = (schemeOf c).seed
    · obtain ⟨c, rfl⟩ := hc
      rw [C65_from_raw]
      split
      · simp
      · split <;> simp
    · rw [(C65_codes E C r t (some raw)).2 code]
      · simp
      · intro S hS he
        refine hc ?_
        have : ∀ S ∈ Spec.schemes, ∃ c ∈ [Curve.ed25519, .k1, .r1], S.seed = (schemeOf c).seed := by decide +kernel
        obtain ⟨c, _, h⟩ := this S hS
        exact ⟨c, he.trans h⟩
  have hS1 : ∀ r t, Signer.new E C r t (some code) (some raw) qb64b qb64 qb2 = .panic →
      Matter.new E (some code) (some raw) none none none = .panic ∧ ¬ (qb64b = none ∧ qb64 = none ∧ qb2 = none) := by
    intro r t h
    by_cases hn : qb64b = none ∧ qb64 = none ∧ qb2 = none
    · obtain ⟨rfl, rfl, rfl⟩ := hn
      exact absurd h (hS0 r t)
    refine ⟨?_, hn⟩
    have hn' : ¬ (qb64b.isNone = true ∧ qb64.isNone = true ∧ qb2.isNone = true) := by
      simpa only [Option.isNone_iff_eq_none] using hn
    unfold Signer.new at h
    simp only [if_neg hn'] at h
    rw [hm] at h
    cases hb : Matter.new E (some code) (some raw) none none none with
    | panic => rfl
    | err e => rw [hb] at h; cases h
    | ok m =>
      exfalso
      rw [hb] at h
      simp only [Res.ok_bind] at h
      rcases Res.bind_eq_panic.mp h with h | ⟨m', h', h⟩
      · rcases Res.bind_eq_panic.mp h with h | ⟨u, _, h⟩
        · unfold Signer.validateCode at h; split at h <;> cases h
        · cases h
      obtain ⟨u, hv, h'⟩ := Res.bind_eq_ok.mp h'
      have h' := Res.ok.inj h'
      subst h'
      obtain ⟨c, hc⟩ : ∃ c, m.code = (schemeOf c).seed := by
        unfold Signer.validateCode at hv
        split at hv
        · rename_i hh
          simp only [List.contains_cons, List.contains_nil, Bool.or_false, Bool.or_eq_true, beq_iff_eq] at hh
          rcases hh with h | h | h
          · exact ⟨.ed25519, h⟩
          · exact ⟨.k1, h⟩
          · exact ⟨.r1, h⟩
        · cases hv
      obtain ⟨z, hz, hf, hl⟩ := fixed_sizage (scheme_rows c).2.2.2.1
      have hw := built_wf hb (by rw [hc]; exact hz)
      have hlen : m.raw.length = 32 := by rw [(hw.fix hf).2, hl]
      rw [hc, Signer.deriveVerfer_full E C c _ hlen] at h
      split at h <;> cases h
  refine ⟨⟨?_, ?_, ?_, ?_, ?_, ?_, ?_⟩, ?_, ?_, ?_, hS0, hS1, ?_, ?_⟩
  · unfold Verfer.new
    simp only [Option.getD_some]
    rw [hm]
    cases Matter.new E (some code) (some raw) none none none with
    | panic => simp
    | err e => simp
    | ok m => simp only [Res.ok_bind, reduceCtorEq, iff_false]; unfold Verfer.validateCode; split <;> simp
  · intro v
    unfold Cigar.new
    rw [hm]
    cases Matter.new E (some code) (some raw) none none none with
    | panic => simp
    | err e => simp
    | ok m => simp only [Res.ok_bind, reduceCtorEq, iff_false]; unfold Cigar.validateCode; split <;> simp
  · intro ser
    unfold Diger.new
    rw [hm]
    cases Matter.new E (some code) (some raw) none none none with
    | panic => simp
    | err e =>
      cases ser with
      | none => simp
      | some ser =>
        simp only [Option.getD_some, reduceCtorEq, iff_false]
        intro h
        rcases Res.bind_eq_panic.mp h with h | ⟨u, hv, h⟩
        · exact validateDigestCode_ne_panic _ h
        rcases Res.bind_eq_panic.mp h with h | ⟨d, _, h⟩
        · unfold hashDigest at h; split at h <;> cases h
        exact vd _ hv _ h
    | ok m =>
      simp only [reduceCtorEq, iff_false]
      intro h
      rcases Res.bind_eq_panic.mp h with h | ⟨u, hv, h⟩
      · exact validateDigestCode_ne_panic _ h
      · cases h
  · intro sn snh
    unfold Seqner.new
    simp only [Option.isNone_some, Bool.false_eq_true, false_and, if_false, Res.ok_bind, Option.getD_some]
    rw [hm]
    cases Matter.new E (some code) (some raw) none none none with
    | panic => simp
    | err e => simp
    | ok m => simp only [Res.ok_bind, reduceCtorEq, iff_false]; split <;> simp
  · intro now dts
    unfold Dater.new
    simp only [Option.isNone_some, Bool.false_eq_true, false_and, if_false, Option.getD_some]
    rw [hm]
    cases Matter.new E (some code) (some raw) none none none with
    | panic => simp
    | err e => simp
    | ok m => simp only [Res.ok_bind, reduceCtorEq, iff_false]; split <;> simp
  · unfold Bexter.new
    simp only [Option.isNone_some, Bool.false_eq_true, false_and, and_false, if_false, Option.getD_some]
    rw [hm]
    cases Matter.new E (some code) (some raw) none none none with
    | panic => simp
    | err e => simp
    | ok m => simp only [Res.ok_bind, reduceCtorEq, iff_false]; split <;> simp
  · intro path
    unfold Pather.new
    simp only [Option.isNone_some, Bool.false_eq_true, false_and, and_false, if_false, Option.getD_some]
    rw [hm]
    cases Matter.new E (some code) (some raw) none none none with
    | panic => simp
    | err e => simp
    | ok m => simp only [Res.ok_bind, reduceCtorEq, iff_false]; split <;> simp
  · intro num numh
    unfold Number.new
    simp only [Option.isNone_some, Bool.false_eq_true, false_and, if_false, Option.getD_some]
    split
    · rename_i hc
      have hc : code ∈ Spec.Typed.numberCodes := by simpa [Number.hasCode, Spec.Typed.numberCodes] using hc
      have : ∀ c ∈ Spec.Typed.numberCodes, ∃ n ∈ [2, 4, 8, 16], (c, n) ∈ Spec.fixedCodes := by decide +kernel
      obtain ⟨n, _, hn⟩ := this _ hc
      exact hfix hn
    · simp
  · intro rnd tier
    unfold Salter.new
    simp only [Option.isNone_some, Bool.false_eq_true, false_and, if_false, Option.getD_some]
    split
    · simp
    · rename_i hc
      have hc := Decidable.not_not.mp hc
      intro h
      rcases Res.bind_eq_panic.mp h with h | ⟨m, _, h⟩
      · exact hfix (c := code) (n := 16) (by rw [hc]; decide +kernel) h
      · cases h
  · intro ked allows
    have hcodes : ∀ c ∈ Prefixer.nontransferableCodes ++ Prefixer.transferableCodes ++ Prefixer.digestCodes,
        ∃ n ∈ [32, 33, 64], (c, n) ∈ Spec.fixedCodes := by decide +kernel
    unfold Prefixer.new
    simp only [Option.isSome_some, true_or, if_true, Option.getD_some]
    intro h
    rcases Res.bind_eq_panic.mp h with h | ⟨u, hv, h⟩
    · unfold Prefixer.validateCode at h; split at h <;> cases h
    · obtain ⟨n, _, hn⟩ := hcodes _ (Prefixer.validateCode_ok.mp hv)
      exact hfix hn h
  · intro sad label kind ignore
    unfold Saider.new
    simp only [Option.isSome_some, true_or, if_true]
    intro h
    rcases Res.bind_eq_panic.mp h with h | ⟨⟨c, r⟩, hv, h⟩
    · rcases Res.bind_eq_panic.mp h with h | ⟨u, hv, h⟩
      · exact validateDigestCode_ne_panic _ h
      · cases h
    · obtain ⟨u, hu', hv⟩ := Res.bind_eq_ok.mp hv
      injection Res.ok.inj hv with h1 h2
      subst h1
      exact vd _ hu' _ h
  · intro v index ondex
    unfold Siger.new
    intro h
    rcases Res.bind_eq_panic.mp h with h | ⟨x, hv, h⟩
    · have h : Indexer.newWithCodeAndRaw code raw (index.getD 0) ondex = .panic := h
      cases hz : Indexer.sizage code with
      | panic => exact Indexer.sizage_ne_panic _ hz
      | err e =>
        unfold Indexer.newWithCodeAndRaw at h
        split at h
        · cases h
        · rw [hz] at h; cases h
      | ok z =>
        rw [Indexer.new_eq hz] at h
        generalize (if z.fs = u32Max then 3 * index.getD 0 else (z.fs - (z.hs + z.ss)) * 3 / 4) = k at h
        split at h
        · cases h
        · split at h <;> cases h
    · rcases Res.bind_eq_panic.mp h with h | ⟨u, hv, h⟩
      · unfold Siger.validateCode at h; split at h <;> cases h
      · cases h

/-- C99 (the defects, on concrete codes). A lone `4` panics; `4Z` builds an object that has neither text nor binary form; the characters after
`4A` are ignored. -/
theorem C99_defects (E : Env) :
    Matter.new E (some (lit "4")) (some [1, 2, 3]) none none none = .panic ∧
    Matter.new E (some (lit "7AA")) (some [1, 2, 3]) none none none = .panic ∧
    (∃ m, Matter.new E (some (lit "4Z")) (some [1, 2, 3]) none none none = .ok m ∧ (∀ t, m.qb64 E ≠ .ok t) ∧ ∀ b, m.qb2 E ≠ .ok b) ∧
    Matter.new E (some (lit "4Axyz")) (some [1, 2, 3]) none none none = Matter.new E (some (lit "4A")) (some [1, 2, 3]) none none none := by
  refine ⟨(by decide +kernel : newWithCodeAndRaw (lit "4") [1, 2, 3] = .panic), (by decide +kernel : newWithCodeAndRaw (lit "7AA") [1, 2, 3] = .panic),
    ⟨{ code := lit "4Z", size := 1, raw := [1, 2, 3] }, ?h, ?_, ?_⟩,
    (by decide +kernel : newWithCodeAndRaw (lit "4Axyz") [1, 2, 3] = newWithCodeAndRaw (lit "4A") [1, 2, 3])⟩
  case h => exact (by decide +kernel : newWithCodeAndRaw (lit "4Z") [1, 2, 3] = .ok { code := lit "4Z", size := 1, raw := [1, 2, 3] })
  all_goals
    have hu : utf8Valid (lit "4Z") = true := by decide +kernel
    have hb : Matter.new E (some (lit "4Z")) (some [1, 2, 3]) none none none = .ok { code := lit "4Z", size := 1, raw := [1, 2, 3] } :=
      (by decide +kernel : newWithCodeAndRaw (lit "4Z") [1, 2, 3] = .ok { code := lit "4Z", size := 1, raw := [1, 2, 3] })
    obtain ⟨h1, h2, h3, _⟩ := C99_usable E hu hb
    have h3 := h3 (ch '4') rfl (by decide +kernel)
    have hn : ¬ Spec.IsCode (lit "4Z") := by
      intro h
      have := h3.mp h
      revert this
      decide +kernel
    intro t ht
  · exact hn (h1.mp ⟨t, ht⟩)
  · exact hn (h2.mp ⟨t, ht⟩)

end Cesride
