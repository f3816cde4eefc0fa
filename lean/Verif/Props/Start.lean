import Verif.Props.Stream
import Verif.Props.Panics2
import Verif.Spec.Start

/-! # Property C113: what readers say of the start of a stream -/

namespace Cesride
open Spec

/-- The errors of a computation are among these. -/
def Errs {α : Type} (l : List Err) (x : Res α) : Prop := ∀ e, x = .err e → e ∈ l

namespace Errs

variable {α β : Type} {l : List Err}

theorem ok (a : α) : Errs l (.ok a) := by rintro e ⟨⟩
theorem panic : Errs l (.panic : Res α) := by rintro e ⟨⟩
theorem err {e : Err} (h : e ∈ l) : Errs l (.err e : Res α) := by rintro e' ⟨⟩; exact h

theorem bind {x : Res α} {f : α → Res β} (hx : Errs l x) (hf : ∀ a, x = .ok a → Errs l (f a)) : Errs l (x >>= f) := by
  intro e h
  cases x with
  | ok a => exact hf a rfl e h
  | err e' => rw [Res.err_bind] at h; cases h; exact hx _ rfl
  | panic => cases h

theorem weaken {l' : List Err} {x : Res α} (h : Errs l x) (hl : ∀ e ∈ l, e ∈ l') : Errs l' x := fun e he => hl e (h e he)

theorem slice (v : List α) (a b : Nat) : Errs l (Cesride.slice v a b) := by
  unfold Cesride.slice
  split
  · exact ok _
  · exact panic

theorem sliceStr (v : Str) (a b : Nat) : Errs l (Cesride.sliceStr v a b) := by
  unfold Cesride.sliceStr
  split
  · exact ok _
  · exact panic

theorem b64ToUint (m : Nat) : ∀ (s : Str) (n : Nat), Errs [.invalidBase64Character] (Cesride.b64ToUint m n s)
  | [], n => ok _
  | c :: s, n => by
    unfold Cesride.b64ToUint
    refine bind ?_ fun i _ => b64ToUint m s _
    unfold b64CharToIndex
    repeat' split
    all_goals first | exact ok _ | exact err (by simp)

theorem b64Decode (s : Str) : Errs [.decode] (Cesride.b64Decode s) := by
  unfold Cesride.b64Decode
  split
  · exact ok _
  · exact err (by simp)

end Errs

/-! ## Text -/

/-- The start of the text readers. -/
theorem textStart {α ζ : Type} {read : Str → Res α} {hardage : UInt8 → Res Nat} {sizage : Str → Res ζ} {rest : UInt8 → Str → Nat → Str → ζ → Res α} {len : UInt8 → Option Nat} {isCode : Str → Prop}
    {late : List Err} (h0 : read [] = .err .emptyMaterial)
    (h1 : ∀ c t, read (c :: t) = do
      let hs ← hardage c
      if (c :: t).length < hs then .err .shortage
      else do
        let hard ← sliceStr (c :: t) 0 hs
        let z ← sizage hard
        rest c t hs hard z)
    (hh : ∀ c, hardage c = match len c with
      | some n => .ok n
      | none => if c = ch '-' ∨ c = ch '_' then .err .unexpectedCode else .err .unknownHardage)
    (hm : len (ch '-') = none ∧ len (ch '_') = none ∧ ∀ c n, len c = some n → 0 < n)
    (hs : ∀ t, (isCode t ∧ ∃ z, sizage t = .ok z) ∨ (¬ isCode t ∧ sizage t = .err .unknownSizage))
    (hl : ∀ c s n t z, sizage t = .ok z → Errs late (rest c s n t z)) (hsh : .shortage ∈ late)
    (hlate : ∀ e ∈ [Err.emptyMaterial, .unexpectedCode, .unknownHardage, .unknownSizage], e ∉ late) : TextStart read len isCode late := by
  intro s
  have hne : ∀ e, e ∈ late → e ≠ .emptyMaterial ∧ e ≠ .unexpectedCode ∧ e ≠ .unknownHardage ∧ e ≠ .unknownSizage := by
    intro e he
    refine ⟨?_, ?_, ?_, ?_⟩ <;> rintro rfl <;> exact hlate _ (by simp) he
  cases s with
  | nil =>
    rw [h0]
    simp [List.prefix_nil, lit]
  | cons c t =>
    have p1 : ∀ x : UInt8, [x] <+: c :: t ↔ x = c := by intro x; simp [List.cons_prefix_cons]
    have hd : (lit "-" : Str) = [ch '-'] := rfl
    have hu : (lit "_" : Str) = [ch '_'] := rfl
    have hdu : (lit "-_" : Str) = [ch '-', ch '_'] := rfl
    simp only [hd, hu, hdu, p1, exists_eq_left, List.mem_cons, List.not_mem_nil, or_false]
    rw [h1, hh]
    cases hc : len c with
    | none =>
      dsimp only
      split
      · rename_i hx
        rw [Res.err_bind]
        refine ⟨by simp, ⟨fun _ => by rcases hx with rfl | rfl <;> simp, fun _ => rfl⟩, by simp [hx], ⟨by simp, ?_⟩, by rintro e ⟨⟩; simp⟩
        rintro ⟨x, u, hp, hlen, _⟩
        obtain ⟨rfl, _⟩ := List.cons_prefix_cons.mp hp
        rw [hc] at hlen
        cases hlen
      · rename_i hx
        rw [Res.err_bind]
        refine ⟨by simp, ⟨by simp, fun h => absurd (h.imp Eq.symm Eq.symm) hx⟩, by simp [hx], ⟨by simp, ?_⟩, by rintro e ⟨⟩; simp⟩
        rintro ⟨x, u, hp, hlen, _⟩
        obtain ⟨rfl, _⟩ := List.cons_prefix_cons.mp hp
        rw [hc] at hlen
        cases hlen
    | some n =>
      have n0 := hm.2.2 c n hc
      have hx : ¬ (ch '-' = c ∨ ch '_' = c) := by
        rintro (rfl | rfl)
        · rw [hm.1] at hc; cases hc
        · rw [hm.2.1] at hc; cases hc
      dsimp only
      rw [Res.ok_bind]
      -- a reader that does not fail with an early error
      have plain : ∀ x : Res α, Errs late x → (¬ ∃ c' t', c' :: t' <+: c :: t ∧ len c' = some (t'.length + 1) ∧ ¬ MidChar (c :: t) (t'.length + 1) ∧ ¬ isCode (c' :: t')) →
          (x = .err .emptyMaterial ↔ c :: t = []) ∧ (x = .err .unexpectedCode ↔ ch '-' = c ∨ ch '_' = c) ∧ (x = .err .unknownHardage ↔ ¬ (c = ch '-' ∨ c = ch '_') ∧ False) ∧
          (x = .err .unknownSizage ↔ ∃ c' t', c' :: t' <+: c :: t ∧ len c' = some (t'.length + 1) ∧ ¬ MidChar (c :: t) (t'.length + 1) ∧ ¬ isCode (c' :: t')) ∧
          ∀ e, x = .err e → e ∈ [.emptyMaterial, .unexpectedCode, .unknownHardage, .unknownSizage] ++ late := by
        intro x hx' hno
        refine ⟨⟨fun h => absurd rfl (hne _ (hx' _ h)).1, fun h => by cases h⟩, ⟨fun h => absurd rfl (hne _ (hx' _ h)).2.1, fun h => absurd h hx⟩,
          ⟨fun h => absurd rfl (hne _ (hx' _ h)).2.2.1, fun h => h.2.elim⟩, ⟨fun h => absurd rfl (hne _ (hx' _ h)).2.2.2, fun h => absurd h hno⟩,
          fun e he => List.mem_append_right _ (hx' e he)⟩
      have len' : ∀ {c' t'}, c' :: t' <+: c :: t → len c' = some (t'.length + 1) → n = t'.length + 1 ∧ (c :: t).take n = c' :: t' ∧ n ≤ (c :: t).length := by
        intro c' t' hp hlen
        obtain ⟨rfl, hp'⟩ := List.cons_prefix_cons.mp hp
        rw [hc] at hlen
        injection hlen with hlen
        subst hlen
        exact ⟨rfl, (List.prefix_iff_eq_take.mp hp).symm, hp.length_le⟩
      simp only [reduceCtorEq, and_false]
      have plain := fun x a b => by
        have := plain x a b
        simpa only [and_false, reduceCtorEq] using this
      split
      · rename_i hlt
        refine plain _ (Errs.err hsh) ?_
        rintro ⟨c', t', hp, hx, _⟩
        have := (len' hp hx).2.2
        omega
      · rename_i hge
        by_cases hb : isBoundary (c :: t) n = true
        · have hmid : ¬ MidChar (c :: t) n := fun h => by
            have := (midChar_iff (Nat.le_of_not_lt hge) n0).mpr h
            rw [hb] at this
            cases this
          rw [show sliceStr (c :: t) 0 n = .ok ((c :: t).take n) by
            unfold sliceStr
            rw [if_pos ⟨Nat.zero_le _, Nat.le_of_not_lt hge, by simp [isBoundary], hb⟩, List.drop_zero], Res.ok_bind]
          rcases hs ((c :: t).take n) with ⟨hcode, z, hz⟩ | ⟨hcode, hz⟩
          · rw [hz, Res.ok_bind]
            refine plain _ (hl _ _ _ _ _ hz) ?_
            rintro ⟨c', t', hp, hx, _, hno⟩
            rw [(len' hp hx).2.1] at hcode
            exact hno hcode
          · rw [hz, Res.err_bind]
            refine ⟨by simp, by simp [hx], by simp, ⟨fun _ => ?_, fun _ => rfl⟩, by rintro e ⟨⟩; simp⟩
            have e : (c :: t).take n = c :: t.take (n - 1) := by
              cases n with
              | zero => omega
              | succ n => simp
            have hl' : (t.take (n - 1)).length + 1 = n := by
              simp only [List.length_cons] at hge
              rw [List.length_take]
              omega
            refine ⟨c, t.take (n - 1), ?_, by rw [hl']; exact hc, by rw [hl']; exact hmid, by rw [← e]; exact hcode⟩
            rw [← e]
            exact List.take_prefix _ _
        · rw [show sliceStr (c :: t) 0 n = .panic by
            unfold sliceStr
            rw [if_neg (fun h => hb h.2.2.2)], Res.panic_bind]
          refine plain _ Errs.panic ?_
          rintro ⟨c', t', hp, hx, hmid, _⟩
          obtain ⟨e, _, h3⟩ := len' hp hx
          exact hmid (by rw [← e]; exact (midChar_iff h3 n0).mp (by simpa using hb))

theorem Matter.sizage_cases (t : Str) : (IsCode t ∧ ∃ z, Matter.sizage t = .ok z) ∨ (¬ IsCode t ∧ Matter.sizage t = .err .unknownSizage) := by
  by_cases h : IsCode t
  · exact .inl ⟨h, Matter.isCode_sizage h⟩
  · refine .inr ⟨h, ?_⟩
    cases hz : Matter.sizage t with
    | ok z => exact absurd (Matter.sizage_isCode hz) h
    | err e =>
      unfold Matter.sizage at hz
      split at hz
      · cases hz
      · exact hz.symm
    | panic => exact absurd hz (Matter.sizage_ne_panic t)

theorem Matter.hardage_spec (c : UInt8) : Matter.hardage c = match codeLength c with
    | some n => .ok n
    | none => if c = ch '-' ∨ c = ch '_' then .err .unexpectedCode else .err .unknownHardage := by
  revert c
  apply byte_forall
  decide +kernel

theorem codeLength_pos (c : UInt8) (n : Nat) (h : codeLength c = some n) : 0 < n := by
  unfold codeLength at h
  repeat' split at h
  all_goals cases h <;> decide

theorem idxCodeLength_pos (c : UInt8) (n : Nat) (h : idxCodeLength c = some n) : 0 < n := by
  unfold idxCodeLength at h
  repeat' split at h
  all_goals cases h <;> decide

theorem variable_aligned : ∀ e ∈ Matter.sizes, e.2.fs = u32Max → (e.2.hs + e.2.ss) % 4 = 0 := by decide +kernel

/-- C113. What the reader of primitives says of the start of a text. -/
theorem C113_matter_text (E : Env) :
    TextStart (Matter.ofText E) codeLength IsCode [.shortage, .invalidBase64Character, .decode, .prepad, .nonZeroedLeadByte, .nonZeroedLeadBytes] := by
  refine textStart (hardage := Matter.hardage) (sizage := Matter.sizage) rfl (fun c t => by show Matter.exfil (c :: t) = _; unfold Matter.exfil; rfl) Matter.hardage_spec ⟨by decide +kernel, by decide +kernel, codeLength_pos⟩ Matter.sizage_cases ?_ (by simp) (by decide)
  intro c s _ hard szg hz
  have hal := variable_aligned _ (Matter.sizage_mem hz)
  dsimp only at hal ⊢
  refine Errs.bind ?_ fun p _ => ?_
  · split
    · rename_i hfs
      rw [if_neg (by simp [hal hfs])]
      split
      · exact Errs.err (by simp)
      · exact Errs.bind (Errs.sliceStr _ _ _) fun _ _ => Errs.bind ((Errs.b64ToUint _ _ _).weaken (by simp)) fun _ _ => Errs.ok _
    · exact Errs.ok _
  · obtain ⟨fs, size⟩ := p
    split
    · exact Errs.err (by simp)
    · refine Errs.bind (Errs.sliceStr _ _ _) fun _ _ => Errs.bind (Errs.sliceStr _ _ _) fun _ _ => ?_
      split
      · refine Errs.bind ((Errs.b64Decode _).weaken (by simp)) fun _ _ => Errs.bind (Errs.slice _ _ _) fun _ _ => ?_
        split
        · exact Errs.err (by simp)
        · exact Errs.bind (Errs.slice _ _ _) fun _ _ => Errs.ok _
      · refine Errs.bind ((Errs.b64Decode _).weaken (by simp)) fun _ _ => Errs.bind (Errs.slice _ _ _) fun _ _ => ?_
        split
        · split <;> exact Errs.err (by simp)
        · exact Errs.bind (Errs.slice _ _ _) fun _ _ => Errs.ok _

/-- A code of an indexed signature, or one of the three test codes. -/
def IsIdxCode (t : Str) : Prop := ∃ h ∈ idxHeads, t = h.code

theorem Indexer.sizage_cases (t : Str) : (IsIdxCode t ∧ ∃ z, Indexer.sizage t = .ok z) ∨ (¬ IsIdxCode t ∧ Indexer.sizage t = .err .unknownSizage) := by
  by_cases h : IsIdxCode t
  · refine .inl ⟨h, ?_⟩
    obtain ⟨x, hx, rfl⟩ := h
    have : ∀ h ∈ idxHeads, (Indexer.sizage h.code).isOk = true := by decide +kernel
    have := this x hx
    cases hz : Indexer.sizage x.code with
    | ok z => exact ⟨z, rfl⟩
    | err e => rw [hz] at this; cases this
    | panic => rw [hz] at this; cases this
  · refine .inr ⟨h, ?_⟩
    cases hz : Indexer.sizage t with
    | ok z =>
      have : ∀ e ∈ Indexer.sizes, ∃ h ∈ idxHeads, e.1 = h.code := by decide +kernel
      exact absurd (this _ (Indexer.sizage_mem hz)) h
    | err e =>
      unfold Indexer.sizage at hz
      split at hz
      · cases hz
      · exact hz.symm
    | panic => exact absurd hz (Indexer.sizage_ne_panic t)

theorem Indexer.hardage_spec (c : UInt8) : Indexer.hardage c = match idxCodeLength c with
    | some n => .ok n
    | none => if c = ch '-' ∨ c = ch '_' then .err .unexpectedCode else .err .unknownHardage := by
  revert c
  apply byte_forall
  decide +kernel

theorem Errs.readOndex (hard : Str) (os index : Nat) (odx : Str) : Errs [.invalidBase64Character, .value] (Indexer.readOndex hard os index odx) := by
  unfold Indexer.readOndex
  split
  · split
    · refine Errs.bind ((Errs.b64ToUint _ _ _).weaken (by simp)) fun _ _ => ?_
      split
      · exact Errs.err (by simp)
      · exact Errs.ok _
    · exact Errs.ok _
  · split
    · exact (Errs.b64ToUint _ _ _).weaken (by simp)
    · exact Errs.ok _

theorem idx_aligned : ∀ e ∈ Indexer.sizes, e.2.fs = u32Max → (e.2.hs + e.2.ss) % 4 = 0 ∧ e.2.os = 0 := by decide +kernel

/-- C113. What the reader of indexed signatures says of the start of a text. -/
theorem C113_indexer_text (E : Env) :
    TextStart (Indexer.ofText E) idxCodeLength IsIdxCode [.shortage, .invalidBase64Character, .value, .decode, .prepad, .nonZeroedLeadByte, .nonZeroedLeadBytes] := by
  refine textStart (hardage := Indexer.hardage) (sizage := Indexer.sizage) rfl (fun c t => by show Indexer.exfil (c :: t) = _; unfold Indexer.exfil; rfl) Indexer.hardage_spec ⟨by decide +kernel, by decide +kernel, idxCodeLength_pos⟩ Indexer.sizage_cases ?_
    (by simp) (by decide)
  intro c s n hard szg hz
  have hal := idx_aligned _ (Indexer.sizage_mem hz)
  dsimp only at hal ⊢
  split
  · exact Errs.err (by simp)
  refine Errs.bind (Errs.sliceStr _ _ _) fun _ _ => Errs.bind ((Errs.b64ToUint _ _ _).weaken (by simp)) fun _ _ => Errs.bind (Errs.sliceStr _ _ _) fun _ _ =>
    Errs.bind ((Errs.readOndex _ _ _ _).weaken (by simp)) fun _ _ => Errs.bind ?_ fun _ _ => ?_
  · split
    · rename_i hfs
      rw [if_neg (by simp [(hal hfs).1]), if_neg (by simp [(hal hfs).2])]
      exact Errs.ok _
    · exact Errs.ok _
  · split
    · exact Errs.err (by simp)
    · refine Errs.bind (Errs.sliceStr _ _ _) fun _ _ => Errs.bind (Errs.sliceStr _ _ _) fun _ _ => ?_
      split
      · refine Errs.bind ((Errs.b64Decode _).weaken (by simp)) fun _ _ => Errs.bind (Errs.slice _ _ _) fun _ _ => ?_
        split
        · exact Errs.err (by simp)
        · exact Errs.bind (Errs.slice _ _ _) fun _ _ => Errs.ok _
      · refine Errs.bind ((Errs.b64Decode _).weaken (by simp)) fun _ _ => Errs.bind (Errs.slice _ _ _) fun _ _ => ?_
        split
        · split <;> exact Errs.err (by simp)
        · exact Errs.bind (Errs.slice _ _ _) fun _ _ => Errs.ok _

end Cesride
