import Verif.Model.Told
import Verif.Spec.Told
import Verif.Lemmas.Signer

/-! # For C118: messages -/

namespace Cesride

open Spec

/-! ## Without the messages, the model is the one of the other properties -/

namespace Told

@[simp] theorem plain_ok {α : Type} (a : α) : (Told.ok a).plain = .ok a := rfl
@[simp] theorem plain_err {α : Type} (e : Err) (t : Str) : (Told.err e t : Told α).plain = .err e := rfl
@[simp] theorem plain_panic {α : Type} (t : Str) : (Told.panic t : Told α).plain = .panic := rfl
@[simp] theorem plain_bind {α β : Type} (x : Told α) (f : α → Told β) : (x >>= f).plain = (x.plain >>= fun a => (f a).plain) := by cases x <;> rfl
@[simp] theorem plain_tell {α : Type} (f : Err → Str) (p : Str) (r : Res α) : (tell f p r).plain = r := by cases r <;> rfl
@[simp] theorem ok_bind {α β : Type} (a : α) (f : α → Told β) : (Told.ok a >>= f) = f a := rfl
@[simp] theorem err_bind {α β : Type} (e : Err) (t : Str) (f : α → Told β) : ((Told.err e t : Told α) >>= f) = .err e t := rfl
@[simp] theorem panic_bind {α β : Type} (t : Str) (f : α → Told β) : ((Told.panic t : Told α) >>= f) = .panic t := rfl

theorem plain_ite {α : Type} (p : Prop) [Decidable p] (x y : Told α) : (if p then x else y).plain = if p then x.plain else y.plain := by split <;> rfl

theorem bind_eq_err {α β : Type} {x : Told α} {f : α → Told β} {e : Err} {t : Str} :
    (x >>= f) = .err e t ↔ x = .err e t ∨ ∃ a, x = .ok a ∧ f a = .err e t := by
  cases x <;> simp

theorem tell_err {α : Type} {f : Err → Str} {p : Str} {r : Res α} {e : Err} {t : Str} (h : tell f p r = .err e t) : r = .err e ∧ t = f e := by
  cases r with
  | ok a => simp [tell] at h
  | panic => simp [tell] at h
  | err e' =>
    simp only [tell, Told.err.injEq] at h
    exact ⟨by rw [h.1], by rw [← h.2, h.1]⟩

theorem tell_ok {α : Type} {f : Err → Str} {p : Str} {r : Res α} {a : α} (h : tell f p r = .ok a) : r = .ok a := by
  cases r <;> simp_all [tell]

theorem tell_panic {α : Type} {f : Err → Str} {p : Str} {r : Res α} {t : Str} (h : tell f p r = .panic t) : r = .panic ∧ t = p := by
  cases r <;> simp_all [tell]

end Told

open Told

theorem b64ToUintTold_plain (m : Nat) : ∀ (o : Nat) (s : Str), (b64ToUintTold m o s).plain = b64ToUint m o s
  | _, [] => rfl
  | o, c :: r => by
    unfold b64ToUintTold b64ToUint
    simp only [plain_bind, plain_tell, b64ToUintTold_plain m]

namespace Matter

theorem newWithCodeAndRawTold_plain (V : Voice) (code : Str) (raw : List UInt8) : (newWithCodeAndRawTold V code raw).plain = newWithCodeAndRaw code raw := by
  unfold newWithCodeAndRawTold newWithCodeAndRaw selectCodeTold
  cases code with
  | nil => rfl
  | cons first rest => simp only [plain_bind, plain_tell, plain_ite, plain_err, plain_ok]

theorem infilTold_plain (V : Voice) (E : Env) (m : Matter) : (infilTold V E m).plain = infil E m := by
  unfold infilTold infil sizageTold
  simp only [plain_bind, plain_tell, plain_ite, plain_err, plain_ok]

theorem binfilTold_plain (E : Env) (m : Matter) : (binfilTold E m).plain = binfil E m := by
  unfold binfilTold binfil sizageTold binfilFinishTold binfil.finish b64ToU32 b64ToU64
  simp only [plain_bind, plain_tell, plain_ite, plain_err, plain_ok, b64ToUintTold_plain]

theorem exfilTold_plain (V : Voice) (s : Str) : (exfilTold V s).plain = exfil s := by
  unfold exfilTold exfil exfilHeadTold exfilTailTold
  cases s with
  | nil => rfl
  | cons first rest =>
    simp only [plain_bind, plain_tell, plain_ite, plain_err, plain_ok, hardageTold, sizageTold, b64ToUintTold_plain, b64ToU32]
    cases hardage first with
    | err e => rfl
    | panic => rfl
    | ok hs =>
      simp only [Res.ok_bind]
      split
      · rfl
      · cases sliceStr (first :: rest) 0 hs with
        | err e => rfl
        | panic => rfl
        | ok hard =>
          simp only [Res.ok_bind]
          cases sizage hard with
          | err e => rfl
          | panic => rfl
          | ok z =>
            simp only [Res.ok_bind]
            generalize (if z.fs = u32Max then _ else _ : Res (Nat × Nat)) = q
            cases q with
            | err e => rfl
            | panic => rfl
            | ok q =>
              obtain ⟨fs, size⟩ := q
              simp only [Res.ok_bind]
              split <;> rfl

theorem bexfilTold_plain (V : Voice) (E : Env) (b : List UInt8) : (bexfilTold V E b).plain = bexfil E b := by
  unfold bexfilTold bexfil bexfilHeadTold
  by_cases hb : b = []
  · simp [hb]
  · simp only [hb, if_false, plain_bind, plain_tell]
    cases nabSextets b 1 with
    | err e => rfl
    | panic => rfl
    | ok firsts =>
      simp only [Res.ok_bind]
      cases firsts with
      | nil => rfl
      | cons first more =>
        simp only [plain_bind, plain_tell, plain_ite, plain_err, plain_ok, bardageTold, sizageTold, codeB2ToB64Told, b64ToUintTold_plain, b64ToU32]
        cases bardage first with
        | err e => rfl
        | panic => rfl
        | ok hs =>
          simp only [Res.ok_bind]
          split
          · rfl
          · cases codeB2ToB64 E b hs with
            | err e => rfl
            | panic => rfl
            | ok hard =>
              simp only [Res.ok_bind]
              cases sizage hard with
              | err e => rfl
              | panic => rfl
              | ok z =>
                simp only [Res.ok_bind]
                generalize (if z.fs = u32Max then _ else _ : Res (Nat × Nat)) = q
                cases q with
                | err e => rfl
                | panic => rfl
                | ok q =>
                  obtain ⟨fs, size⟩ := q
                  simp only [Res.ok_bind]
                  split
                  · rfl
                  · simp only [Res.ok_bind]
                    unfold bexfilTailTold
                    dsimp only
                    simp only [plain_ite, plain_err, plain_bind, plain_tell, plain_ok]
                    generalize (List.take ((fs + 1) * 3 / 4) b)[(z.hs + z.ss + 1) * 3 / 4 - 1]? = o
                    cases o with
                    | none => rfl
                    | some x => simp only [plain_ite, plain_err, plain_bind, plain_tell, plain_ok]

theorem newTold_plain (V : Voice) (E : Env) (code : Option Str) (raw : Option (List UInt8)) (qb64b : Option (List UInt8)) (qb64 : Option Str)
    (qb2 : Option (List UInt8)) : (newTold V E code raw qb64b qb64 qb2).plain = new E code raw qb64b qb64 qb2 := by
  unfold newTold new
  cases raw with
  | some raw => cases code <;> simp [newWithCodeAndRawTold_plain]
  | none =>
    cases qb64b with
    | some s => simp [newWithQb64bTold, newWithQb64b, exfilTold_plain]
    | none =>
      cases qb64 with
      | some s => simp [exfilTold_plain, newWithQb64]
      | none => cases qb2 <;> simp [bexfilTold_plain, newWithQb2]

end Matter

/-! ## Two runs that agree: the same outcome with the same message, unless one of them panics -/

namespace Told

/-- The same outcome and message, or at least one of the two is a panic. -/
def Same {α : Type} (x y : Told α) : Prop := x = y ∨ (∃ t, x = .panic t) ∨ ∃ t, y = .panic t

theorem Same.refl {α : Type} (x : Told α) : Same x x := Or.inl rfl

theorem Same.bind {α β : Type} {x y : Told α} {f g : α → Told β} (h : Same x y) (hf : ∀ a, x = .ok a → Same (f a) (g a)) : Same (x >>= f) (y >>= g) := by
  rcases h with rfl | ⟨t, rfl⟩ | ⟨t, rfl⟩
  · cases x with
    | ok a => exact hf a rfl
    | err e t => exact Or.inl rfl
    | panic t => exact Or.inl rfl
  · exact Or.inr (Or.inl ⟨t, rfl⟩)
  · exact Or.inr (Or.inr ⟨t, rfl⟩)

theorem Same.ite {α : Type} {p : Prop} [Decidable p] {x y x' y' : Told α} (h : p → Same x x') (h' : ¬ p → Same y y') :
    Same (if p then x else y) (if p then x' else y') := by
  split
  · exact h ‹_›
  · exact h' ‹_›

theorem Same.ok {α : Type} {x y : Told α} (h : Same x y) {a b : α} (hx : x = .ok a) (hy : y = .ok b) : a = b := by
  rcases h with h | ⟨t, h⟩ | ⟨t, h⟩ <;> simp_all

theorem Same.err {α : Type} {x y : Told α} (h : Same x y) {e f : Err} {t u : Str} (hx : x = .err e t) (hy : y = .err f u) : e = f ∧ t = u := by
  rcases h with h | ⟨t, h⟩ | ⟨t, h⟩ <;> simp_all

theorem Same.not {α : Type} {x y : Told α} (h : Same x y) {a : α} {e : Err} {t : Str} (hx : x = .ok a) (hy : y = .err e t) : False := by
  rcases h with h | ⟨t, h⟩ | ⟨t, h⟩ <;> simp_all

theorem Same.symm {α : Type} {x y : Told α} (h : Same x y) : Same y x := by
  rcases h with h | h | h
  · exact Or.inl h.symm
  · exact Or.inr (Or.inr h)
  · exact Or.inr (Or.inl h)

end Told

theorem take_le {α : Type} {s t : List α} {k j : Nat} (h : s.take k = t.take k) (hj : j ≤ k) : s.take j = t.take j := by
  have := congrArg (List.take j) h
  rwa [List.take_take, List.take_take, Nat.min_eq_left hj] at this

theorem same_sliceStr (V : Voice) {s t : Str} {k a b : Nat} (h : s.take k = t.take k) (hb : b ≤ k) :
    Same (tell (fun _ => []) (V.slicing s a b) (sliceStr s a b)) (tell (fun _ => []) (V.slicing t a b) (sliceStr t a b)) := by
  unfold sliceStr
  split
  · split
    · rw [take_le h hb]; exact Same.refl _
    · exact Or.inr (Or.inr ⟨_, rfl⟩)
  · exact Or.inr (Or.inl ⟨_, rfl⟩)

theorem firstChar_take {s t : Str} (h : s.take 4 = t.take 4) : firstChar s = firstChar t := by
  cases s with
  | nil =>
    cases t with
    | nil => rfl
    | cons c t => simp at h
  | cons c s =>
    cases t with
    | nil => simp at h
    | cons d t =>
      simp only [List.take_succ_cons, List.cons.injEq] at h
      simp only [firstChar, h.1, h.2]

namespace Matter

theorem codeChars_rows : ∀ p ∈ sizes, p.1.length = p.2.hs ∧ (p.2.fs = u32Max → p.2.hs + p.2.ss ≤ codeChars p.1) := by decide +kernel

theorem hardage_chars : ∀ (c : UInt8) (r : Str), (∀ hs, hardage c = .ok hs → hs ≤ codeChars (c :: r)) ∧
    (hardage c = .err .unknownHardage → codeChars (c :: r) = 4) := by
  intro c r
  have h : ∀ c : UInt8, (∀ hs, hardage c = .ok hs → hs ≤ codeChars [c]) ∧ (hardage c = .err .unknownHardage → codeChars [c] = 4) := by
    intro c
    unfold hardage codeChars
    have e : ∀ a b : UInt8, a ≤ b ↔ a.toNat ≤ b.toNat := fun a b => UInt8.le_iff_toNat_le
    have q : ∀ a b : UInt8, a = b ↔ a.toNat = b.toNat := fun a b => UInt8.toNat_inj.symm
    simp only [e, q, show (ch 'A').toNat = 65 from rfl, show (ch 'Z').toNat = 90 from rfl, show (ch 'a').toNat = 97 from rfl,
      show (ch 'z').toNat = 122 from rfl, show (ch '0').toNat = 48 from rfl, show (ch '1').toNat = 49 from rfl, show (ch '2').toNat = 50 from rfl,
      show (ch '3').toNat = 51 from rfl, show (ch '4').toNat = 52 from rfl, show (ch '5').toNat = 53 from rfl, show (ch '6').toNat = 54 from rfl,
      show (ch '7').toNat = 55 from rfl, show (ch '8').toNat = 56 from rfl, show (ch '9').toNat = 57 from rfl, show (ch '-').toNat = 45 from rfl,
      show (ch '_').toNat = 95 from rfl]
    generalize c.toNat = n
    constructor
    · intro hs h
      split at h
      · simp only [Res.ok.injEq] at h; subst h; split <;> (try split) <;> (try split) <;> omega
      · split at h
        · simp only [Res.ok.injEq] at h; subst h; split <;> (try split) <;> (try split) <;> omega
        · split at h
          · simp only [Res.ok.injEq] at h; subst h; split <;> (try split) <;> (try split) <;> omega
          · split at h
            · simp at h
            · split at h <;> simp at h
    · intro h
      split at h
      · simp at h
      · split at h
        · simp at h
        · split at h
          · simp at h
          · rw [if_neg (by omega), if_neg (by omega), if_neg (by omega)]
  exact h c

theorem exfilHead_same (V : Voice) {s t : Str} (hl : s.length = t.length) (ht : s.take (codeChars s) = t.take (codeChars s)) :
    Same (exfilHeadTold V s) (exfilHeadTold V t) := by
  cases s with
  | nil =>
    have : t = [] := List.length_eq_zero_iff.mp (by simpa using hl.symm)
    subst this
    exact Same.refl _
  | cons c s' =>
    cases t with
    | nil => simp at hl
    | cons d t' =>
      have hpos : 1 ≤ codeChars (c :: s') := by
        dsimp only [codeChars]
        repeat' split
        all_goals decide
      have hcd : c = d := by
        have := take_le ht hpos
        simpa using this
      subst hcd
      generalize hk : codeChars (c :: s') = k at ht
      unfold exfilHeadTold
      dsimp only
      obtain ⟨hc1, hc2⟩ := hardage_chars c s'
      rw [hk] at hc1 hc2
      refine Same.bind ?_ ?_
      · left
        unfold hardageTold
        cases hh : hardage c with
        | ok a => rfl
        | panic => rfl
        | err e =>
          by_cases he : e = .unknownHardage
          · subst he
            simp only [tell, if_true]
            have h4 := hc2 hh
            subst h4
            rw [firstChar_take ht]
          · simp only [tell, he, if_false]
      · intro hs hhs
        have hsk := hc1 hs (by unfold hardageTold at hhs; exact tell_ok hhs)
        rw [hl]
        refine Same.ite (fun _ => Same.refl _) (fun hge => ?_)
        refine Same.bind (same_sliceStr V ht hsk) ?_
        intro hard hhard
        refine Same.bind (Same.refl _) ?_
        intro z hz
        have hrow := codeChars_rows _ (sizage_mem (tell_ok hz))
        have hcc : codeChars hard ≤ k := by
          have hx := tell_ok hhard
          unfold sliceStr at hx
          split at hx
          · simp only [Res.ok.injEq, List.drop_zero] at hx
            subst hx
            cases hs with
            | zero => simp [codeChars]
            | succ n => rw [← hk]; exact Nat.le_refl _
          · simp at hx
        refine Same.bind ?_ ?_
        · refine Same.ite (fun hf => ?_) (fun _ => Same.refl _)
          refine Same.ite (fun _ => Same.refl _) (fun _ => ?_)
          refine Same.ite (fun _ => Same.refl _) (fun _ => ?_)
          refine Same.bind (same_sliceStr V ht ?_) ?_
          · exact Nat.le_trans (hrow.2 hf) hcc
          · intro soft _
            exact Same.refl _
        · rintro ⟨fs, size⟩ _
          exact Same.refl _

/-- The messages about the material itself. -/
def lateText : Err → Str
  | .prepad => lit "prepad error"
  | .nonZeroedLeadByte => lit "non-zeroed lead byte"
  | .nonZeroedLeadBytes => lit "non-zeroed lead bytes"
  | .nonZeroedPadBits => lit "non-zeroed pad bits"
  | _ => []

/-- The errors about the material itself. -/
def Late (e : Err) : Prop := e = .prepad ∨ e = .nonZeroedLeadByte ∨ e = .nonZeroedLeadBytes ∨ e = .nonZeroedPadBits

theorem sliceStr_ne_err {s : Str} {a b : Nat} {e : Err} : sliceStr s a b ≠ .err e := by unfold sliceStr; split <;> simp
theorem slice_ne_err {α : Type} {s : List α} {a b : Nat} {e : Err} : slice s a b ≠ .err e := by unfold slice; split <;> simp
theorem b64Decode_err {s : Str} {e : Err} (h : b64Decode s = .err e) : e = .decode ∧ b64DecodeOpt s = none := by
  unfold b64Decode at h
  cases hd : b64DecodeOpt s <;> simp_all

theorem exfilTail_err {V : Voice} {s hard : Str} {z : Sizage} {fs size : Nat} {e : Err} {x : Str} (h : exfilTailTold V s hard z fs size = .err e x) :
    (e = .decode ∧ ∃ trim material, sliceStr s 0 fs = .ok trim ∧ sliceStr trim (z.hs + z.ss) trim.length = .ok material ∧
      b64DecodeOpt (List.replicate ((z.hs + z.ss) % 4) (ch 'A') ++ material) = none ∧
      x = (V.decode (List.replicate ((z.hs + z.ss) % 4) (ch 'A') ++ material)).text) ∨ (Late e ∧ x = lateText e) := by
  unfold exfilTailTold at h
  dsimp only at h
  rcases bind_eq_err.mp h with h | ⟨trim, htrim, h⟩
  · exact absurd (tell_err h).1 sliceStr_ne_err
  rcases bind_eq_err.mp h with h | ⟨material, hmat, h⟩
  · exact absurd (tell_err h).1 sliceStr_ne_err
  split at h
  · rcases bind_eq_err.mp h with h | ⟨paw, hpaw, h⟩
    · obtain ⟨h1, h2⟩ := tell_err h
      obtain ⟨he, hn⟩ := b64Decode_err h1
      exact Or.inl ⟨he, trim, material, tell_ok htrim, tell_ok hmat, hn, h2⟩
    rcases bind_eq_err.mp h with h | ⟨pad, hpad, h⟩
    · exact absurd (tell_err h).1 slice_ne_err
    split at h
    · simp only [Told.err.injEq] at h
      obtain ⟨rfl, rfl⟩ := h
      exact Or.inr ⟨Or.inl rfl, rfl⟩
    · rcases bind_eq_err.mp h with h | ⟨raw, hraw, h⟩
      · exact absurd (tell_err h).1 slice_ne_err
      · simp at h
  · rename_i h0
    have h0 : (z.hs + z.ss) % 4 = 0 := by omega
    rcases bind_eq_err.mp h with h | ⟨paw, hpaw, h⟩
    · obtain ⟨h1, h2⟩ := tell_err h
      obtain ⟨he, hn⟩ := b64Decode_err h1
      refine Or.inl ⟨he, trim, material, tell_ok htrim, tell_ok hmat, ?_, ?_⟩
      · rw [h0]; exact hn
      · rw [h0]; exact h2
    rcases bind_eq_err.mp h with h | ⟨lead, hlead, h⟩
    · exact absurd (tell_err h).1 slice_ne_err
    split at h
    · split at h
      · simp only [Told.err.injEq] at h
        obtain ⟨rfl, rfl⟩ := h
        exact Or.inr ⟨Or.inr (Or.inl rfl), rfl⟩
      · simp only [Told.err.injEq] at h
        obtain ⟨rfl, rfl⟩ := h
        exact Or.inr ⟨Or.inr (Or.inr (Or.inl rfl)), rfl⟩
    · rcases bind_eq_err.mp h with h | ⟨raw, hraw, h⟩
      · exact absurd (tell_err h).1 slice_ne_err
      · simp at h


/-! ### Binary -/

theorem sext_head (b : UInt8) (r : List UInt8) : ∃ more, sext (b :: r) = b.toNat / 4 :: more := by
  have key : ∀ l : List UInt8, 2 ≤ l.length → ∃ more, sextets (b :: l) = b.toNat / 4 :: more := by
    intro l hl
    match l, hl with
    | x :: y :: l, _ =>
      refine ⟨(b.toNat * 65536 + x.toNat * 256 + y.toNat) / 4096 % 64 :: (b.toNat * 65536 + x.toNat * 256 + y.toNat) / 64 % 64 ::
        (b.toNat * 65536 + x.toNat * 256 + y.toNat) % 64 :: sextets l, ?_⟩
      rw [sextets]
      congr 1
      have h1 := b.toNat_lt
      have h2 := x.toNat_lt
      have h3 := y.toNat_lt
      omega
  unfold sext
  rw [List.cons_append]
  apply key
  simp
  omega

theorem codeBytes_rows : ∀ i < 64, ∀ p ∈ sizes, p.1.head? = some (sextetChar i) → p.2.fs = u32Max →
    (p.2.hs + p.2.ss + 1) * 3 / 4 ≤ codeBytes [UInt8.ofNat (i * 4)] := by decide +kernel

theorem bardage_bytes : ∀ i < 64, ∀ hs, bardage i = .ok hs → 1 ≤ hs ∧ hs ≤ 8 ∧ (hs + 1) * 3 / 4 = (hs * 3 + 3) / 4 ∧ (hs * 3 + 3) / 4 ≤ codeBytes [UInt8.ofNat (i * 4)] := by
  intro i hi hs h
  have hq : (UInt8.ofNat (i * 4)).toNat / 4 = i := by
    rw [UInt8.toNat_ofNat_of_lt' (by show _ < 256; omega)]; omega
  unfold bardage at h
  unfold codeBytes
  simp only [hq]
  split at h
  · simp only [Res.ok.injEq] at h; subst h
    rw [if_pos (by omega)]; omega
  · split at h
    · simp only [Res.ok.injEq] at h; subst h
      rw [if_neg (by omega)]
      split
      · omega
      · split <;> omega
    · split at h
      · simp only [Res.ok.injEq] at h; subst h
        rw [if_neg (by omega)]
        split
        · omega
        · split <;> omega
      · split at h
        · simp at h
        · split at h <;> simp at h

theorem codeBytes_eq (b : UInt8) (r : List UInt8) : codeBytes (b :: r) = codeBytes [UInt8.ofNat (b.toNat / 4 * 4)] := by
  have hb := b.toNat_lt
  have hq : (UInt8.ofNat (b.toNat / 4 * 4)).toNat / 4 = b.toNat / 4 := by
    rw [UInt8.toNat_ofNat_of_lt' (by show _ < 256; omega)]; omega
  simp only [codeBytes, hq]

theorem codeB2ToB64Told_take (E : Env) {a b : List UInt8} {k n : Nat} (hl : a.length = b.length) (h : a.take k = b.take k) (hn : (n + 1) * 3 / 4 ≤ k) :
    codeB2ToB64Told E a n = codeB2ToB64Told E b n := by
  unfold codeB2ToB64Told codeB2ToB64
  dsimp only
  rw [hl, take_le h hn]

theorem bexfilHead_same (V : Voice) (E : Env) {a b : List UInt8} (hl : a.length = b.length) (ht : a.take (codeBytes a) = b.take (codeBytes a)) :
    Same (bexfilHeadTold V E a) (bexfilHeadTold V E b) := by
  cases a with
  | nil =>
    have : b = [] := List.length_eq_zero_iff.mp (by simpa using hl.symm)
    subst this
    exact Same.refl _
  | cons c a' =>
    cases b with
    | nil => simp at hl
    | cons d b' =>
      have hpos : 1 ≤ codeBytes (c :: a') := by
        dsimp only [codeBytes]; repeat' split
        all_goals decide
      have hcd : c = d := by
        have := take_le ht hpos
        simpa using this
      subst hcd
      have hc64 : c.toNat / 4 < 64 := by have := c.toNat_lt; omega
      unfold bexfilHeadTold
      rw [if_neg (by simp), if_neg (by simp), nabSextets_eq _ (by simp), nabSextets_eq _ (by simp)]
      obtain ⟨m1, hm1⟩ := sext_head c a'
      obtain ⟨m2, hm2⟩ := sext_head c b'
      rw [hm1, hm2]
      simp only [tell, Told.ok_bind, List.take_succ_cons, List.take_zero]
      refine Same.bind (Same.refl _) ?_
      intro hs hhs
      obtain ⟨hs1, hs8, hsn, hsk⟩ := bardage_bytes _ hc64 hs (tell_ok hhs)
      rw [← codeBytes_eq c a'] at hsk
      rw [hl]
      refine Same.ite (fun _ => Same.refl _) (fun hge => ?_)
      refine Same.bind ?_ ?_
      · left
        exact codeB2ToB64Told_take E hl ht (by omega)
      · intro hard hhard
        refine Same.bind (Same.refl _) ?_
        intro z hz
        have hx := tell_ok hhard
        rw [codeB2ToB64_eq E _ hs8 (by rw [hl]; omega), hm1] at hx
        simp only [Res.ok.injEq] at hx
        have hhead : hard.head? = some (sextetChar (c.toNat / 4)) := by
          rw [← hx]
          obtain ⟨n, rfl⟩ : ∃ n, hs = n + 1 := ⟨hs - 1, by omega⟩
          simp [encD]
        have hrow := codeBytes_rows _ hc64 _ (sizage_mem (tell_ok hz)) hhead
        rw [← codeBytes_eq c a'] at hrow
        refine Same.bind ?_ ?_
        · refine Same.ite (fun hf => ?_) (fun _ => Same.refl _)
          refine Same.ite (fun _ => Same.refl _) (fun _ => ?_)
          refine Same.ite (fun _ => Same.refl _) (fun _ => ?_)
          refine Same.bind ?_ (fun both _ => Same.refl _)
          left
          exact codeB2ToB64Told_take E hl ht (hrow hf)
        · rintro ⟨fs, size⟩ _
          exact Same.refl _

theorem bexfilTail_err {V : Voice} {b : List UInt8} {hard : Str} {z : Sizage} {fs size : Nat} {e : Err} {x : Str}
    (h : bexfilTailTold V b hard z fs size = .err e x) : Late e ∧ x = lateText e := by
  unfold bexfilTailTold at h
  dsimp only at h
  split at h
  · split at h
    · simp at h
    · split at h
      · simp only [Told.err.injEq] at h
        obtain ⟨rfl, rfl⟩ := h
        exact ⟨Or.inr (Or.inr (Or.inr rfl)), rfl⟩
      · rcases bind_eq_err.mp h with h | ⟨raw, hraw, h⟩
        · exact absurd (tell_err h).1 slice_ne_err
        · simp at h
  · split at h
    · split at h
      · simp only [Told.err.injEq] at h
        obtain ⟨rfl, rfl⟩ := h
        exact ⟨Or.inr (Or.inl rfl), rfl⟩
      · simp only [Told.err.injEq] at h
        obtain ⟨rfl, rfl⟩ := h
        exact ⟨Or.inr (Or.inr (Or.inl rfl)), rfl⟩
    · rcases bind_eq_err.mp h with h | ⟨raw, hraw, h⟩
      · exact absurd (tell_err h).1 slice_ne_err
      · simp at h

end Matter
end Cesride
