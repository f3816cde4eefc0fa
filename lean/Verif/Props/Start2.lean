import Verif.Props.Start

/-! # Property C113, continued: byte strings -/

namespace Cesride
open Spec

theorem bits_sext (b : List UInt8) : ((sext b).flatMap digitBits) = bytesBits b ++ bytesBits (List.replicate (3 - b.length % 3) 0) := by
  unfold sext
  rw [sextets_bits (padded_length b)]
  simp [bytesBits]

theorem digits_take (d : List Nat) (n : Nat) : (d.take n).flatMap digitBits = (d.flatMap digitBits).take (6 * n) := by
  induction d generalizing n with
  | nil => simp
  | cons x d ih =>
    cases n with
    | zero => simp
    | succ n =>
      have : (digitBits x).length = 6 := rfl
      rw [List.take_succ_cons, List.flatMap_cons, List.flatMap_cons, ih, show 6 * (n + 1) = (digitBits x).length + 6 * n by omega, List.take_length_add_append]

theorem shows_take {b : List UInt8} {n : Nat} (h : 6 * n ≤ 8 * b.length) : Shows b (encD ((sext b).take n)) := by
  have hlt : ∀ d ∈ (sext b).take n, d < 64 := fun d hd => sext_lt b d (List.mem_of_mem_take hd)
  refine ⟨(isB64Text_iff _).mpr (encD_isB64 hlt), ?_⟩
  rw [textBits_encD hlt, digits_take, bits_sext, List.take_append_of_le_length (by rw [bytesBits_length']; exact h)]
  exact List.take_prefix _ _

theorem shows_length {b : List UInt8} {t : Str} (h : Shows b t) : 6 * t.length ≤ 8 * b.length := by
  have := h.2.length_le
  rwa [textBits_length', bytesBits_length'] at this

theorem shows_unique {b : List UInt8} {t : Str} (h : Shows b t) : t = encD ((sext b).take t.length) := by
  have h2 := shows_take (b := b) (n := t.length) (shows_length h)
  refine textBits_inj h.1 h2.1 ?_
  have e : (encD ((sext b).take t.length)).length = t.length := by
    have := shows_length h
    simp only [encD, List.length_map, List.length_take, sext_length]
    omega
  refine (List.prefix_iff_eq_take.mp h.2).trans ((List.prefix_iff_eq_take.mp h2.2).trans ?_).symm
  rw [textBits_length', textBits_length', e]

theorem sext_cons (b : List UInt8) : ∃ i r, sext b = i :: r ∧ i < 64 := by
  cases hs : sext b with
  | nil =>
    have := sext_length b
    rw [hs] at this
    simp at this
  | cons i r => exact ⟨i, r, rfl, sext_lt b i (by rw [hs]; simp)⟩

/-- The start of the readers of byte strings. -/
theorem binaryStart {α ζ : Type} (E : Env) {read : List UInt8 → Res α} {bardage : Nat → Res Nat} {sizage : Str → Res ζ} {rest : List UInt8 → Nat → List Nat → Nat → Str → ζ → Res α}
    {len : UInt8 → Option Nat} {isCode : Str → Prop} {late : List Err} (h0 : read [] = .err .emptyMaterial)
    (h1 : ∀ b, b ≠ [] → read b = do
      let firsts ← nabSextets b 1
      match firsts with
      | [] => .panic
      | first :: more => do
        let hs ← bardage first
        if b.length < (hs * 3 + 3) / 4 then .err .shortage
        else do
          let hard ← codeB2ToB64 E b hs
          let z ← sizage hard
          rest b first more hs hard z)
    (hb : ∀ i, i < 64 → bardage i = match len (sextetChar i) with
      | some n => .ok n
      | none => if sextetChar i = ch '-' ∨ sextetChar i = ch '_' then .err .unexpectedCode else .err .unknownBardage)
    (hm : len (ch '-') = none ∧ len (ch '_') = none ∧ ∀ c n, len c = some n → 0 < n ∧ n ≤ 8)
    (hs : ∀ t, (isCode t ∧ ∃ z, sizage t = .ok z) ∨ (¬ isCode t ∧ sizage t = .err .unknownSizage))
    (hl : ∀ b i r n t z, sizage t = .ok z → Errs late (rest b i r n t z)) (hsh : .shortage ∈ late)
    (hlate : ∀ e ∈ [Err.emptyMaterial, .unexpectedCode, .unknownBardage, .unknownSizage], e ∉ late) : BinaryStart read len isCode late := by
  intro b
  have hne : ∀ e, e ∈ late → e ≠ .emptyMaterial ∧ e ≠ .unexpectedCode ∧ e ≠ .unknownBardage ∧ e ≠ .unknownSizage := by
    intro e he
    refine ⟨?_, ?_, ?_, ?_⟩ <;> rintro rfl <;> exact hlate _ (by simp) he
  by_cases h : b = []
  · subst h
    rw [h0]
    have no : ∀ c t, ¬ Shows [] (c :: t) := fun c t h => by
      have := shows_length h
      simp at this
    have hd : (lit "-" : Str) = [ch '-'] := rfl
    have hu : (lit "_" : Str) = [ch '_'] := rfl
    simp [hd, hu, no]
  · have hpos : 0 < b.length := List.length_pos_iff.mpr h
    obtain ⟨i, r, hsx, hi⟩ := sext_cons b
    have p1 : ∀ x : UInt8, Shows b [x] ↔ x = sextetChar i := by
      intro x
      constructor
      · intro hx
        have := shows_unique hx
        rw [hsx] at this
        simpa [encD] using this
      · rintro rfl
        have := shows_take (b := b) (n := 1) (by omega)
        rw [hsx] at this
        simpa [encD] using this
    have hd : (lit "-" : Str) = [ch '-'] := rfl
    have hu : (lit "_" : Str) = [ch '_'] := rfl
    have hdu : (lit "-_" : Str) = [ch '-', ch '_'] := rfl
    simp only [hd, hu, hdu, p1, exists_eq_left, List.mem_cons, List.not_mem_nil, or_false]
    rw [h1 b h, nabSextets_eq b (by omega), Res.ok_bind, hsx]
    simp only [List.take_succ_cons]
    rw [hb i hi]
    have first : ∀ {c t}, Shows b (c :: t) → c = sextetChar i := by
      intro c t hx
      have := shows_unique hx
      rw [hsx, List.length_cons, List.take_succ_cons] at this
      simp only [encD, List.map_cons, List.cons.injEq] at this
      exact this.1
    cases hc : len (sextetChar i) with
    | none =>
      dsimp only
      have no : ¬ ∃ c t, Shows b (c :: t) ∧ len c = some (t.length + 1) ∧ ¬ isCode (c :: t) := by
        rintro ⟨c, t, hx, hlen, _⟩
        rw [first hx, hc] at hlen
        cases hlen
      split
      · rename_i hx
        rw [Res.err_bind]
        exact ⟨by simp [h], ⟨fun _ => hx.imp Eq.symm Eq.symm, fun _ => rfl⟩, by simp [hx], ⟨by simp, fun h => absurd h no⟩, by rintro e ⟨⟩; simp⟩
      · rename_i hx
        rw [Res.err_bind]
        exact ⟨by simp [h], ⟨by simp, fun h => absurd (h.imp Eq.symm Eq.symm) hx⟩, by simp [hx], ⟨by simp, fun h => absurd h no⟩, by rintro e ⟨⟩; simp⟩
    | some n =>
      obtain ⟨n0, n8⟩ := hm.2.2 _ n hc
      have hx : ¬ (ch '-' = sextetChar i ∨ ch '_' = sextetChar i) := by
        rintro (hx | hx) <;> rw [← hx] at hc
        · rw [hm.1] at hc; cases hc
        · rw [hm.2.1] at hc; cases hc
      dsimp only
      rw [Res.ok_bind]
      have plain : ∀ x : Res α, Errs late x → (¬ ∃ c t, Shows b (c :: t) ∧ len c = some (t.length + 1) ∧ ¬ isCode (c :: t)) →
          (x = .err .emptyMaterial ↔ b = []) ∧ (x = .err .unexpectedCode ↔ ch '-' = sextetChar i ∨ ch '_' = sextetChar i) ∧
          (x = .err .unknownBardage ↔ ¬ (sextetChar i = ch '-' ∨ sextetChar i = ch '_') ∧ some n = none) ∧
          (x = .err .unknownSizage ↔ ∃ c t, Shows b (c :: t) ∧ len c = some (t.length + 1) ∧ ¬ isCode (c :: t)) ∧
          ∀ e, x = .err e → e ∈ [.emptyMaterial, .unexpectedCode, .unknownBardage, .unknownSizage] ++ late := by
        intro x hx' hno
        refine ⟨⟨fun h => absurd rfl (hne _ (hx' _ h)).1, fun h' => absurd h' h⟩, ⟨fun h => absurd rfl (hne _ (hx' _ h)).2.1, fun h => absurd h hx⟩,
          ⟨fun h => absurd rfl (hne _ (hx' _ h)).2.2.1, fun h => by cases h.2⟩, ⟨fun h => absurd rfl (hne _ (hx' _ h)).2.2.2, fun h => absurd h hno⟩,
          fun e he => List.mem_append_right _ (hx' e he)⟩
      have len' : ∀ {c t}, Shows b (c :: t) → len c = some (t.length + 1) → n = t.length + 1 ∧ encD ((sext b).take n) = c :: t ∧ 6 * n ≤ 8 * b.length := by
        intro c t hp hlen
        rw [first hp, hc] at hlen
        injection hlen with hlen
        subst hlen
        exact ⟨rfl, (shows_unique hp).symm, shows_length hp⟩
      split
      · rename_i hlt
        refine plain _ (Errs.err hsh) ?_
        rintro ⟨c', t', hp, hx, _⟩
        have := (len' hp hx).2.2
        omega
      · rename_i hge
        rw [codeB2ToB64_eq E b n8 (by omega), Res.ok_bind]
        rcases hs (encD ((sext b).take n)) with ⟨hcode, z, hz⟩ | ⟨hcode, hz⟩
        · rw [hz, Res.ok_bind]
          refine plain _ (hl _ _ _ _ _ _ hz) ?_
          rintro ⟨c', t', hp, hx, hno⟩
          rw [(len' hp hx).2.1] at hcode
          exact hno hcode
        · rw [hz, Res.err_bind]
          refine ⟨by simp [h], by simp [hx], by simp, ⟨fun _ => ?_, fun _ => rfl⟩, by rintro e ⟨⟩; simp⟩
          have sh := shows_take (b := b) (n := n) (by omega)
          have e : encD ((sext b).take n) = sextetChar i :: encD (r.take (n - 1)) := by
            rw [hsx]
            cases n with
            | zero => omega
            | succ n => simp [encD]
          have hl' : (encD (r.take (n - 1))).length + 1 = n := by
            have := sext_length b
            rw [hsx, List.length_cons] at this
            simp only [encD, List.length_map, List.length_take]
            omega
          exact ⟨sextetChar i, _, by rw [← e]; exact sh, by rw [hl']; exact hc, by rw [← e]; exact hcode⟩

theorem Errs.codeB2ToB64 (E : Env) (b : List UInt8) {n : Nat} (hn : n ≤ 8) (h : (n + 1) * 3 / 4 ≤ b.length) {l : List Err} : Errs l (Cesride.codeB2ToB64 E b n) := by
  rw [codeB2ToB64_eq E b hn h]
  exact Errs.ok _

theorem Errs.digits {s : Str} (m n : Nat) (h : ∀ c ∈ s, isB64 c = true) {l : List Err} : Errs l (Cesride.b64ToUint m n s) := by
  induction s generalizing n with
  | nil => exact Errs.ok _
  | cons c s ih =>
    unfold Cesride.b64ToUint
    refine Errs.bind ?_ fun i _ => ih _ fun x hx => h x (by simp [hx])
    have := h c (by simp)
    unfold isB64 at this
    unfold b64CharToIndex
    repeat' split
    all_goals first | exact Errs.ok _ | simp_all

/-- Digits that are cut out of the head of a byte string. -/
theorem Errs.headDigits {E : Env} {b : List UInt8} {n i j : Nat} (hn : n ≤ 8) (h : (n + 1) * 3 / 4 ≤ b.length) {both t : Str} (hb : Cesride.codeB2ToB64 E b n = .ok both)
    (ht : Cesride.sliceStr both i j = .ok t) : ∀ c ∈ t, isB64 c = true := by
  rw [codeB2ToB64_eq E b hn h] at hb
  obtain rfl := Res.ok.inj hb
  unfold Cesride.sliceStr at ht
  split at ht
  · obtain rfl := Res.ok.inj ht
    intro c hc
    exact encD_isB64 (fun d hd => sext_lt b d (List.mem_of_mem_take hd)) c (List.mem_of_mem_take (List.mem_of_mem_drop hc))
  · cases ht

theorem Matter.bardage_spec : ∀ i, i < 64 → Matter.bardage i = match codeLength (sextetChar i) with
    | some n => .ok n
    | none => if sextetChar i = ch '-' ∨ sextetChar i = ch '_' then .err .unexpectedCode else .err .unknownBardage := by
  decide +kernel

theorem Indexer.bardage_spec : ∀ i, i < 64 → Indexer.bardage i = match idxCodeLength (sextetChar i) with
    | some n => .ok n
    | none => if sextetChar i = ch '-' ∨ sextetChar i = ch '_' then .err .unexpectedCode else .err .unknownBardage := by
  decide +kernel

theorem codeLength_bound (c : UInt8) (n : Nat) (h : codeLength c = some n) : 0 < n ∧ n ≤ 8 := by
  unfold codeLength at h
  repeat' split at h
  all_goals cases h <;> decide

theorem idxCodeLength_bound (c : UInt8) (n : Nat) (h : idxCodeLength c = some n) : 0 < n ∧ n ≤ 8 := by
  unfold idxCodeLength at h
  repeat' split at h
  all_goals cases h <;> decide

theorem matter_heads : ∀ e ∈ Matter.sizes, e.2.hs + e.2.ss ≤ 8 := by decide +kernel
theorem idx_heads : ∀ e ∈ Indexer.sizes, e.2.hs + e.2.ss ≤ 8 := by decide +kernel

/-- C113. What the reader of primitives says of the start of a byte string. -/
theorem C113_matter_binary (E : Env) :
    BinaryStart (Matter.ofBinary E) codeLength IsCode [.shortage, .nonZeroedPadBits, .nonZeroedLeadByte, .nonZeroedLeadBytes] := by
  refine binaryStart E (bardage := Matter.bardage) (sizage := Matter.sizage) rfl (fun b h => by show Matter.bexfil E b = _; unfold Matter.bexfil; rw [if_neg h]; rfl) Matter.bardage_spec
    ⟨by decide +kernel, by decide +kernel, codeLength_bound⟩ Matter.sizage_cases ?_ (by simp) (by decide)
  intro b _ _ _ hard szg hz
  have hal := variable_aligned _ (Matter.sizage_mem hz)
  have h8 := matter_heads _ (Matter.sizage_mem hz)
  dsimp only at hal h8 ⊢
  refine Errs.bind ?_ fun p _ => ?_
  · split
    · rename_i hfs
      rw [if_neg (by simp [hal hfs])]
      split
      · exact Errs.err (by simp)
      · rename_i hge
        exact Errs.bind (Errs.codeB2ToB64 E b h8 (by omega)) fun both hb => Errs.bind (Errs.sliceStr _ _ _) fun t ht => Errs.bind (Errs.digits _ _ (Errs.headDigits h8 (by omega) hb ht)) fun _ _ => Errs.ok _
    · exact Errs.ok _
  · obtain ⟨fs, size⟩ := p
    split
    · exact Errs.err (by simp)
    · split
      · split
        · exact Errs.panic
        · split
          · exact Errs.err (by simp)
          · exact Errs.bind (Errs.slice _ _ _) fun _ _ => Errs.ok _
      · split
        · split <;> exact Errs.err (by simp)
        · exact Errs.bind (Errs.slice _ _ _) fun _ _ => Errs.ok _

/-- C113. What the reader of indexed signatures says of the start of a byte string. -/
theorem C113_indexer_binary (E : Env) :
    BinaryStart (Indexer.ofBinary E) idxCodeLength IsIdxCode [.shortage, .value, .nonZeroedPadBits, .nonZeroedLeadByte, .nonZeroedLeadBytes] := by
  refine binaryStart E (bardage := Indexer.bardage) (sizage := Indexer.sizage) rfl (fun b h => by show Indexer.bexfil E b = _; unfold Indexer.bexfil; rw [if_neg h]; rfl) Indexer.bardage_spec
    ⟨by decide +kernel, by decide +kernel, idxCodeLength_bound⟩ Indexer.sizage_cases ?_ (by simp) (by decide)
  intro b _ _ n hard szg hz
  have hal := idx_aligned _ (Indexer.sizage_mem hz)
  have h8 := idx_heads _ (Indexer.sizage_mem hz)
  dsimp only at hal h8 ⊢
  split
  · exact Errs.err (by simp)
  rename_i hge
  refine Errs.bind (Errs.codeB2ToB64 E b h8 (by omega)) fun both hb => Errs.bind (Errs.sliceStr _ _ _) fun t ht => Errs.bind (Errs.digits _ _ (Errs.headDigits h8 (by omega) hb ht)) fun _ _ =>
    Errs.bind (Errs.sliceStr _ _ _) fun u hu => Errs.bind ?_ fun _ _ => Errs.bind ?_ fun _ _ => ?_
  · have := Errs.headDigits h8 (by omega) hb hu
    unfold Indexer.readOndex
    split
    · split
      · refine Errs.bind (Errs.digits _ _ this) fun _ _ => ?_
        split
        · exact Errs.err (by simp)
        · exact Errs.ok _
      · exact Errs.ok _
    · split
      · exact Errs.digits _ _ this
      · exact Errs.ok _
  · split
    · rename_i hfs
      rw [if_neg (by simp [(hal hfs).1]), if_neg (by simp [(hal hfs).2])]
      exact Errs.ok _
    · exact Errs.ok _
  · split
    · exact Errs.err (by simp)
    · split
      · split
        · exact Errs.panic
        · split
          · exact Errs.err (by simp)
          · exact Errs.bind (Errs.slice _ _ _) fun _ _ => Errs.ok _
      · split
        · split <;> exact Errs.err (by simp)
        · exact Errs.bind (Errs.slice _ _ _) fun _ _ => Errs.ok _

/-! ## Counters -/

theorem Counter.hardage_spec (t : Str) : Counter.hardage t = match counterHeads.lookup t with
    | some n => .ok n
    | none => .err .unknownHardage := by
  cases h : counterHeads.lookup t with
  | some n =>
    have := Matter.lookup_mem h
    have all : ∀ e ∈ counterHeads, Counter.hardage e.1 = .ok e.2 := by decide +kernel
    exact all _ this
  | none =>
    have no : ∀ e ∈ counterHeads, t ≠ e.1 := by
      rintro e he rfl
      have all : ∀ e ∈ counterHeads, counterHeads.lookup e.1 ≠ none := by decide +kernel
      exact all e he h
    unfold Counter.hardage
    rw [if_neg, if_neg, if_neg]
    · exact no (lit "--", 5) (by simp [counterHeads])
    · exact no (lit "-0", 3) (by simp [counterHeads])
    · rw [List.contains_iff_mem]
      intro hm
      have all : ∀ x ∈ [lit "-A", lit "-B", lit "-C", lit "-D", lit "-E", lit "-F", lit "-G", lit "-H", lit "-I", lit "-J", lit "-K", lit "-L", lit "-V"], (x, 2) ∈ counterHeads := by decide +kernel
      exact no _ (all _ hm) rfl

theorem Counter.bardage_spec : ∀ i, i < 64 → ∀ j, j < 64 → Counter.bardage [i, j] = match counterHeads.lookup [sextetChar i, sextetChar j] with
    | some n => .ok n
    | none => .err .unknownBardage := by
  decide +kernel

/-- A counter code. -/
def IsCounterCode (t : Str) : Prop := ∃ n, (t, n) ∈ counterCodes

theorem Counter.sizage_cases (t : Str) : (IsCounterCode t ∧ ∃ z, Counter.sizage t = .ok z ∧ z.hs + z.ss ≤ 8) ∨ (¬ IsCounterCode t ∧ Counter.sizage t = .err .unknownSizage) := by
  cases hz : Counter.sizage t with
  | ok z =>
    have all : ∀ e ∈ Counter.sizes, ∃ x ∈ counterCodes, x.1 = e.1 := by decide +kernel
    obtain ⟨x, hx, e⟩ := all _ (Counter.mem_of_sizage hz)
    refine .inl ⟨⟨x.2, ?_⟩, z, rfl, (Counter.row_all _ (Counter.mem_of_sizage hz)).2.2.2.1⟩
    rw [← show x.1 = t from e]
    exact hx
  | err e =>
    refine .inr ⟨?_, ?_⟩
    · rintro ⟨n, hn⟩
      have all : ∀ x ∈ counterCodes, (Counter.sizage x.1).isOk = true := by decide +kernel
      have := all _ hn
      rw [show Counter.sizage (t, n).1 = _ from hz] at this
      cases this
    · unfold Counter.sizage at hz
      split at hz
      · cases hz
      · exact hz.symm
  | panic =>
    unfold Counter.sizage at hz
    split at hz <;> cases hz

theorem counter_head_size : ∀ x ∈ counterHeads, x.1.length = 2 ∧ 2 ≤ x.2 ∧ x.2 ≤ 5 ∧ counterHeads.lookup x.1 = some x.2 := by decide +kernel

theorem lookup_none_heads {t : Str} (h : counterHeads.lookup t = none) : ∀ n, (t, n) ∉ counterHeads := by
  intro n hn
  rw [(counter_head_size _ hn).2.2.2] at h
  cases h

/-- C113. What the reader of counters says of the start of a text. There is no special error for op codes. -/
theorem C113_counter_text (E : Env) (s : Str) :
    (Counter.ofText E s = .err .emptyMaterial ↔ s = []) ∧
    (Counter.ofText E s = .err .unknownHardage ↔ ∃ t, t <+: s ∧ t.length = 2 ∧ ¬ MidChar s 2 ∧ ∀ n, (t, n) ∉ counterHeads) ∧
    (Counter.ofText E s = .err .unknownSizage ↔ ∃ t, t <+: s ∧ (t.take 2, t.length) ∈ counterHeads ∧ ¬ MidChar s 2 ∧ ¬ MidChar s t.length ∧ ¬ IsCounterCode t) ∧
    ∀ e, Counter.ofText E s = .err e → e ∈ [.emptyMaterial, .unknownHardage, .unknownSizage, .shortage, .invalidBase64Character] := by
  show (Counter.exfil s = _ ↔ _) ∧ (Counter.exfil s = _ ↔ _) ∧ (Counter.exfil s = _ ↔ _) ∧ ∀ e, Counter.exfil s = _ → _
  by_cases h : s = []
  · subst h
    rw [show Counter.exfil [] = .err .emptyMaterial from rfl]
    refine ⟨by simp, ⟨by simp, ?_⟩, ⟨by simp, ?_⟩, by rintro e ⟨⟩; simp⟩
    · rintro ⟨t, hp, hl, _⟩
      rw [List.prefix_nil.mp hp] at hl
      cases hl
    · rintro ⟨t, hp, hl, _⟩
      have := (counter_head_size _ hl).2.1
      rw [List.prefix_nil.mp hp] at this
      simp at this
  · unfold Counter.exfil
    rw [if_neg h]
    have plain : ∀ {x : Res Counter}, Errs [.shortage, .invalidBase64Character] x → (¬ ∃ t, t <+: s ∧ t.length = 2 ∧ ¬ MidChar s 2 ∧ ∀ n, (t, n) ∉ counterHeads) →
        (¬ ∃ t, t <+: s ∧ (t.take 2, t.length) ∈ counterHeads ∧ ¬ MidChar s 2 ∧ ¬ MidChar s t.length ∧ ¬ IsCounterCode t) →
        (x = .err .emptyMaterial ↔ s = []) ∧ (x = .err .unknownHardage ↔ ∃ t, t <+: s ∧ t.length = 2 ∧ ¬ MidChar s 2 ∧ ∀ n, (t, n) ∉ counterHeads) ∧
        (x = .err .unknownSizage ↔ ∃ t, t <+: s ∧ (t.take 2, t.length) ∈ counterHeads ∧ ¬ MidChar s 2 ∧ ¬ MidChar s t.length ∧ ¬ IsCounterCode t) ∧
        ∀ e, x = .err e → e ∈ [.emptyMaterial, .unknownHardage, .unknownSizage, .shortage, .invalidBase64Character] := by
      intro x hx h1 h2
      refine ⟨⟨fun e => ?_, fun e => absurd e h⟩, ⟨fun e => ?_, fun e => absurd e h1⟩, ⟨fun e => ?_, fun e => absurd e h2⟩, fun e he => ?_⟩
      · exact absurd (hx _ e) (by simp)
      · exact absurd (hx _ e) (by simp)
      · exact absurd (hx _ e) (by simp)
      · have := hx _ he
        simp only [List.mem_cons, List.not_mem_nil, or_false] at this ⊢
        rcases this with rfl | rfl <;> simp
    have two : ∀ {t : Str}, t <+: s → t.length = 2 → t = s.take 2 ∧ 2 ≤ s.length := by
      intro t hp hl
      have := List.prefix_iff_eq_take.mp hp
      rw [hl] at this
      exact ⟨this, hl ▸ hp.length_le⟩
    have heads : ∀ {t : Str}, t <+: s → (t.take 2, t.length) ∈ counterHeads → t.take 2 = s.take 2 ∧ 2 ≤ s.length ∧ counterHeads.lookup (s.take 2) = some t.length ∧ t = s.take t.length ∧ t.length ≤ s.length := by
      intro t hp hl
      have c := counter_head_size _ hl
      have hle := hp.length_le
      have e := List.prefix_iff_eq_take.mp hp
      have c1 : 2 ≤ t.length := c.2.1
      have : t.take 2 = s.take 2 := by
        rw [e, List.take_take, Nat.min_eq_left c1]
      exact ⟨this, by omega, by rw [← this]; exact c.2.2.2, e, hle⟩
    have b0 : isBoundary s 0 = true := by
      cases s with
      | nil => exact absurd rfl h
      | cons c t => simp [isBoundary]
    by_cases hb : 2 ≤ s.length ∧ isBoundary s 2 = true
    · rw [show sliceStr s 0 2 = .ok (s.take 2) by
        unfold sliceStr
        rw [if_pos ⟨Nat.zero_le _, hb.1, b0, hb.2⟩, List.drop_zero], Res.ok_bind, Counter.hardage_spec]
      have hmid : ¬ MidChar s 2 := fun hm => by
        have := (midChar_iff hb.1 (by decide)).mpr hm
        rw [hb.2] at this
        cases this
      have l2 : (s.take 2).length = 2 := by rw [List.length_take]; omega
      cases hk : counterHeads.lookup (s.take 2) with
      | none =>
        dsimp only
        rw [Res.err_bind]
        refine ⟨by simp [h], ⟨fun _ => ⟨s.take 2, List.take_prefix _ _, l2, hmid, lookup_none_heads hk⟩, fun _ => rfl⟩, ⟨by simp, ?_⟩, by rintro e ⟨⟩; simp⟩
        rintro ⟨t, hp, hl, _⟩
        have := (heads hp hl).2.2.1
        rw [hk] at this
        cases this
      | some n =>
        have hmem := Matter.lookup_mem hk
        have n2 : 2 ≤ n ∧ n ≤ 5 := ⟨(counter_head_size _ hmem).2.1, (counter_head_size _ hmem).2.2.1⟩
        dsimp only
        rw [Res.ok_bind]
        have no1 : ¬ ∃ t, t <+: s ∧ t.length = 2 ∧ ¬ MidChar s 2 ∧ ∀ n, (t, n) ∉ counterHeads := by
          rintro ⟨t, hp, hl, _, hn⟩
          rw [(two hp hl).1] at hn
          exact hn n hmem
        split
        · rename_i hlt
          refine plain (Errs.err (by simp)) no1 ?_
          rintro ⟨t, hp, hl, _⟩
          obtain ⟨_, _, h3, _, h5⟩ := heads hp hl
          rw [hk] at h3
          injection h3 with h3
          omega
        · rename_i hge
          have tn : (s.take n).length = n := by rw [List.length_take]; omega
          by_cases hbn : isBoundary s n = true
          · have hmidn : ¬ MidChar s n := fun hm => by
              have := (midChar_iff (by omega) (by omega)).mpr hm
              rw [hbn] at this
              cases this
            rw [show sliceStr s 0 n = .ok (s.take n) by
              unfold sliceStr
              rw [if_pos ⟨Nat.zero_le _, by omega, b0, hbn⟩, List.drop_zero], Res.ok_bind]
            rcases Counter.sizage_cases (s.take n) with ⟨hcode, z, hz, _⟩ | ⟨hcode, hz⟩
            · rw [hz, Res.ok_bind]
              refine plain ?_ no1 ?_
              · split
                · exact Errs.err (by simp)
                · exact Errs.bind (Errs.sliceStr _ _ _) fun _ _ => Errs.bind ((Errs.b64ToUint _ _ _).weaken (by simp)) fun _ _ => Errs.ok _
              · rintro ⟨t, hp, hl, _, _, hno⟩
                obtain ⟨_, _, h3, h4, _⟩ := heads hp hl
                rw [hk] at h3
                injection h3 with h3
                rw [h4, ← h3] at hno
                exact hno hcode
            · rw [hz, Res.err_bind]
              refine ⟨by simp [h], ⟨by simp, fun e => absurd e no1⟩, ⟨fun _ => ⟨s.take n, List.take_prefix _ _, ?_, hmid, by rw [tn]; exact hmidn, hcode⟩, fun _ => rfl⟩, by rintro e ⟨⟩; simp⟩
              rw [tn, List.take_take, Nat.min_eq_left n2.1]
              exact hmem
          · rw [show sliceStr s 0 n = .panic by
              unfold sliceStr
              rw [if_neg (fun h => hbn h.2.2.2)], Res.panic_bind]
            refine plain Errs.panic no1 ?_
            rintro ⟨t, hp, hl, _, hm, _⟩
            obtain ⟨_, _, h3, _, h5⟩ := heads hp hl
            rw [hk] at h3
            injection h3 with h3
            rw [← h3] at hm h5
            exact hm ((midChar_iff h5 (by omega)).mp (by simpa using hbn))
    · rw [show sliceStr s 0 2 = .panic by
        unfold sliceStr
        rw [if_neg (fun h => hb ⟨h.2.1, h.2.2.2⟩)], Res.panic_bind]
      refine plain Errs.panic ?_ ?_
      · rintro ⟨t, hp, hl, hm, _⟩
        have := (two hp hl).2
        exact hm ((midChar_iff this (by decide)).mp (by simpa [this] using hb))
      · rintro ⟨t, hp, hl, hm, _⟩
        have := (heads hp hl).2.1
        exact hm ((midChar_iff this (by decide)).mp (by simpa [this] using hb))

theorem sext_cons2 (b : List UInt8) : ∃ i j r, sext b = i :: j :: r ∧ i < 64 ∧ j < 64 := by
  have hl := sext_length b
  match hs : sext b with
  | [] => rw [hs] at hl; simp at hl
  | [_] => rw [hs] at hl; simp at hl; omega
  | i :: j :: r => exact ⟨i, j, r, rfl, sext_lt b i (by rw [hs]; simp), sext_lt b j (by rw [hs]; simp)⟩

/-- C113. What the reader of counters says of the start of a byte string. -/
theorem C113_counter_binary (E : Env) (b : List UInt8) :
    (Counter.ofBinary E b = .err .emptyMaterial ↔ b = []) ∧ (Counter.ofBinary E b = .err .tooSmall ↔ b.length = 1) ∧
    (Counter.ofBinary E b = .err .unexpectedOpCode ↔ Shows b (lit "_") ∧ 2 ≤ b.length) ∧
    (Counter.ofBinary E b = .err .unknownBardage ↔ ∃ c d, Shows b [c, d] ∧ c ≠ ch '_' ∧ ∀ n, ([c, d], n) ∉ counterHeads) ∧
    (Counter.ofBinary E b = .err .unknownSizage ↔ ∃ t, Shows b t ∧ (t.take 2, t.length) ∈ counterHeads ∧ ¬ IsCounterCode t) ∧
    ∀ e, Counter.ofBinary E b = .err e → e ∈ [.emptyMaterial, .tooSmall, .unexpectedOpCode, .unknownBardage, .unknownSizage, .shortage] := by
  show (Counter.bexfil E b = _ ↔ _) ∧ (Counter.bexfil E b = _ ↔ _) ∧ (Counter.bexfil E b = _ ↔ _) ∧ (Counter.bexfil E b = _ ↔ _) ∧ (Counter.bexfil E b = _ ↔ _) ∧ ∀ e, Counter.bexfil E b = _ → _
  have none2 : b.length ≤ 1 → (∀ c d, ¬ Shows b [c, d]) ∧ ∀ t, Shows b t → (t.take 2, t.length) ∉ counterHeads := by
    intro hb
    constructor
    · intro c d h
      have := shows_length h
      simp at this
      omega
    · intro t h hm
      have := shows_length h
      have : 2 ≤ t.length := (counter_head_size _ hm).2.1
      omega
  by_cases h : b = []
  · subst h
    obtain ⟨n1, n2⟩ := none2 (by simp)
    rw [show Counter.bexfil E [] = .err .emptyMaterial from rfl]
    refine ⟨by simp, by simp, by simp, ⟨by simp, ?_⟩, ⟨by simp, ?_⟩, by rintro e ⟨⟩; simp⟩
    · rintro ⟨c, d, hs, _⟩
      exact absurd hs (n1 c d)
    · rintro ⟨t, hs, hm, _⟩
      exact absurd hm (n2 t hs)
  · have hpos : 0 < b.length := List.length_pos_iff.mpr h
    unfold Counter.bexfil
    rw [if_neg h]
    by_cases h1 : b.length = 1
    · obtain ⟨n1, n2⟩ := none2 (by omega)
      rw [show nabSextets b 2 = .err .tooSmall by unfold nabSextets; rw [if_pos (by omega)], Res.err_bind]
      refine ⟨by simp [h], by simp [h1], ⟨by simp, fun hs => by omega⟩, ⟨by simp, ?_⟩, ⟨by simp, ?_⟩, by rintro e ⟨⟩; simp⟩
      · rintro ⟨c, d, hs, _⟩
        exact absurd hs (n1 c d)
      · rintro ⟨t, hs, hm, _⟩
        exact absurd hm (n2 t hs)
    · have h2 : 2 ≤ b.length := by omega
      obtain ⟨i, j, r, hsx, hi, hj⟩ := sext_cons2 b
      rw [nabSextets_eq b (by omega), Res.ok_bind, hsx]
      simp only [List.take_succ_cons, List.take_zero]
      have su : Shows b (lit "_") ↔ i = 63 := by
        constructor
        · intro hs
          have := shows_unique hs
          rw [hsx] at this
          have this : ch '_' = sextetChar i := by
            have e : (lit "_" : Str) = [ch '_'] := rfl
            rw [e] at this
            simpa [encD] using this
          have all : ∀ i, i < 64 → ch '_' = sextetChar i → i = 63 := by decide +kernel
          exact all i hi this
        · rintro rfl
          have := shows_take (b := b) (n := 1) (by omega)
          rw [hsx] at this
          exact this
      have s2 : ∀ c d, Shows b [c, d] ↔ c = sextetChar i ∧ d = sextetChar j := by
        intro c d
        constructor
        · intro hs
          have := shows_unique hs
          rw [hsx] at this
          simpa [encD] using this
        · rintro ⟨rfl, rfl⟩
          have := shows_take (b := b) (n := 2) (by omega)
          rw [hsx] at this
          simpa [encD] using this
      have notOp : sextetChar i ≠ ch '_' ↔ i ≠ 63 := by
        have all : ∀ i, i < 64 → (sextetChar i ≠ ch '_' ↔ i ≠ 63) := by decide +kernel
        exact all i hi
      have heads : ∀ {t : Str}, Shows b t → (t.take 2, t.length) ∈ counterHeads → t.take 2 = [sextetChar i, sextetChar j] ∧ counterHeads.lookup [sextetChar i, sextetChar j] = some t.length ∧
          t = encD ((sext b).take t.length) ∧ 6 * t.length ≤ 8 * b.length ∧ i ≠ 63 := by
        intro t hs hm
        have c := counter_head_size _ hm
        have e := shows_unique hs
        have c1 : 2 ≤ t.length := c.2.1
        have e2 : t.take 2 = [sextetChar i, sextetChar j] := by
          rw [e, ← encD_take, List.take_take, Nat.min_eq_left c1, hsx]
          rfl
        refine ⟨e2, by rw [← e2]; exact c.2.2.2, e, shows_length hs, ?_⟩
        rintro rfl
        have all : ∀ j, j < 64 → counterHeads.lookup [sextetChar 63, sextetChar j] = none := by decide +kernel
        have := c.2.2.2
        rw [show (t.take 2, t.length).1 = _ from e2, all j hj] at this
        cases this
      by_cases hop : i = 63
      · subst hop
        rw [if_pos (by decide), if_pos rfl]
        refine ⟨by simp [h], by simp [h1], by simp [su, h2], ⟨by simp, ?_⟩, ⟨by simp, ?_⟩, by rintro e ⟨⟩; simp⟩
        · rintro ⟨c, d, hs, hne, _⟩
          exact absurd (((s2 c d).mp hs).1) fun e => hne e
        · rintro ⟨t, hs, hm, _⟩
          exact absurd rfl (heads hs hm).2.2.2.2
      · rw [if_neg (by omega), Counter.bardage_spec i hi j hj]
        have nu : ¬ (Shows b (lit "_") ∧ 2 ≤ b.length) := fun hx => hop (su.mp hx.1)
        cases hk : counterHeads.lookup [sextetChar i, sextetChar j] with
        | none =>
          dsimp only
          rw [Res.err_bind]
          refine ⟨by simp [h], by simp [h1], ⟨by simp, fun e => absurd e nu⟩, ⟨fun _ => ⟨_, _, (s2 _ _).mpr ⟨rfl, rfl⟩, notOp.mpr hop, lookup_none_heads hk⟩, fun _ => rfl⟩, ⟨by simp, ?_⟩,
            by rintro e ⟨⟩; simp⟩
          rintro ⟨t, hs, hm, _⟩
          have := (heads hs hm).2.1
          rw [hk] at this
          cases this
        | some n =>
          have hmem := Matter.lookup_mem hk
          have n2 : 2 ≤ n ∧ n ≤ 5 := ⟨(counter_head_size _ hmem).2.1, (counter_head_size _ hmem).2.2.1⟩
          dsimp only
          rw [Res.ok_bind]
          have no1 : ¬ ∃ c d, Shows b [c, d] ∧ c ≠ ch '_' ∧ ∀ n, ([c, d], n) ∉ counterHeads := by
            rintro ⟨c, d, hs, _, hn⟩
            obtain ⟨rfl, rfl⟩ := (s2 c d).mp hs
            exact hn n hmem
          have plain : ∀ {x : Res Counter}, Errs [.shortage] x → (¬ ∃ t, Shows b t ∧ (t.take 2, t.length) ∈ counterHeads ∧ ¬ IsCounterCode t) →
              (x = .err .emptyMaterial ↔ b = []) ∧ (x = .err .tooSmall ↔ b.length = 1) ∧ (x = .err .unexpectedOpCode ↔ Shows b (lit "_") ∧ 2 ≤ b.length) ∧
              (x = .err .unknownBardage ↔ ∃ c d, Shows b [c, d] ∧ c ≠ ch '_' ∧ ∀ n, ([c, d], n) ∉ counterHeads) ∧
              (x = .err .unknownSizage ↔ ∃ t, Shows b t ∧ (t.take 2, t.length) ∈ counterHeads ∧ ¬ IsCounterCode t) ∧
              ∀ e, x = .err e → e ∈ [.emptyMaterial, .tooSmall, .unexpectedOpCode, .unknownBardage, .unknownSizage, .shortage] := by
            intro x hx hno
            refine ⟨⟨fun e => ?_, fun e => absurd e h⟩, ⟨fun e => ?_, fun e => absurd e h1⟩, ⟨fun e => ?_, fun e => absurd e nu⟩, ⟨fun e => ?_, fun e => absurd e no1⟩, ⟨fun e => ?_, fun e => absurd e hno⟩, fun e he => ?_⟩
            · exact absurd (hx _ e) (by simp)
            · exact absurd (hx _ e) (by simp)
            · exact absurd (hx _ e) (by simp)
            · exact absurd (hx _ e) (by simp)
            · exact absurd (hx _ e) (by simp)
            · have := hx _ he
              simp only [List.mem_cons, List.not_mem_nil, or_false] at this
              subst this
              simp
          split
          · rename_i hlt
            refine plain (Errs.err (by simp)) ?_
            rintro ⟨t, hs, hm, _⟩
            obtain ⟨_, h3, _, h5, _⟩ := heads hs hm
            rw [hk] at h3
            injection h3 with h3
            omega
          · rename_i hge
            rw [codeB2ToB64_eq E b (by omega) (by omega), Res.ok_bind]
            have tn : (encD ((sext b).take n)).length = n := by
              rw [encD_length, List.length_take, sext_length]
              omega
            rcases Counter.sizage_cases (encD ((sext b).take n)) with ⟨hcode, z, hz, z8⟩ | ⟨hcode, hz⟩
            · rw [hz, Res.ok_bind]
              refine plain ?_ ?_
              · split
                · exact Errs.err (by simp)
                · exact Errs.bind (Errs.codeB2ToB64 E b z8 (by omega)) fun both hb => Errs.bind (Errs.sliceStr _ _ _) fun t ht =>
                    Errs.bind (Errs.digits _ _ (Errs.headDigits z8 (by omega) hb ht)) fun _ _ => Errs.ok _
              · rintro ⟨t, hs, hm, hno⟩
                obtain ⟨_, h3, h4, _⟩ := heads hs hm
                rw [hk] at h3
                injection h3 with h3
                rw [h4, ← h3] at hno
                exact hno hcode
            · rw [hz, Res.err_bind]
              refine ⟨by simp [h], by simp [h1], ⟨by simp, fun e => absurd e nu⟩, ⟨by simp, fun e => absurd e no1⟩, ⟨fun _ => ⟨_, shows_take (n := n) (by omega), ?_, hcode⟩, fun _ => rfl⟩, by rintro e ⟨⟩; simp⟩
              rw [tn, ← encD_take, List.take_take, Nat.min_eq_left n2.1, hsx]
              exact hmem

end Cesride
