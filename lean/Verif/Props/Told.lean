import Verif.Lemmas.Told
import Verif.Props.Signer
import Verif.Lemmas.KernelRfl

/-! # C118: what error messages show of secrets -/

namespace Cesride

open Spec Told

/-! ## Two runs on arguments with the same outline -/

namespace Matter

theorem codeChars_pos (x : UInt8) (s : Str) : 1 ≤ codeChars (x :: s) := by
  dsimp only [codeChars]
  repeat' split
  all_goals decide

theorem codeBytes_pos (x : UInt8) (s : List UInt8) : 1 ≤ codeBytes (x :: s) := by
  dsimp only [codeBytes]
  repeat' split
  all_goals decide

/-- Two ways to make a primitive that differ at most in their material: an error of the same kind has the same message (unless it comes from a decoder);
they make primitives of the same code; and where only one of them fails, it is about the material. -/
structure Kin (x y : Told Matter) : Prop where
  err : ∀ e t u, x = .err e t → y = .err e u → e ≠ .decode → e ≠ .utf8 → t = u
  ok : ∀ m n, x = .ok m → y = .ok n → m.code = n.code
  left : ∀ m e t, x = .ok m → y = .err e t → Late e ∨ e = .decode ∨ e = .utf8
  right : ∀ m e t, y = .ok m → x = .err e t → Late e ∨ e = .decode ∨ e = .utf8

theorem Kin.symm {x y : Told Matter} (h : Kin x y) : Kin y x where
  err e t u ht hu h1 h2 := (h.err e u t hu ht h1 h2).symm
  ok m n hm hn := (h.ok n m hn hm).symm
  left := h.right
  right := h.left

theorem Kin.same {x y : Told Matter} (h : Same x y) : Kin x y where
  err _ _ _ ht hu _ _ := (h.err ht hu).2
  ok _ _ hm hn := by rw [h.ok hm hn]
  left _ _ _ hm he := (h.not hm he).elim
  right _ _ _ hm he := (h.symm.not hm he).elim

/-- Reading a code, the same in both runs, and then material. -/
theorem Kin.parts {α : Type} {x y : Told α} {f g : α → Told Matter} {c : α → Str} (h : Same x y)
    (hf : ∀ a e t, f a = .err e t → e = .decode ∨ (Late e ∧ t = lateText e)) (hg : ∀ a e t, g a = .err e t → e = .decode ∨ (Late e ∧ t = lateText e))
    (cf : ∀ a m, f a = .ok m → m.code = c a) (cg : ∀ a m, g a = .ok m → m.code = c a) : Kin (x >>= f) (y >>= g) := by
  cases x with
  | panic t => exact Kin.same (Or.inr (Or.inl ⟨t, rfl⟩))
  | err e t =>
    cases y with
    | panic t => exact Kin.same (Or.inr (Or.inr ⟨t, rfl⟩))
    | err e' t' => obtain ⟨rfl, rfl⟩ := h.err rfl rfl; exact Kin.same (Same.refl _)
    | ok a => exact (h.symm.not rfl rfl).elim
  | ok a =>
    cases y with
    | panic t => exact Kin.same (Or.inr (Or.inr ⟨t, rfl⟩))
    | err e' t' => exact (h.not rfl rfl).elim
    | ok b =>
      obtain rfl := h.ok rfl rfl
      simp only [Told.ok_bind]
      refine ⟨?_, ?_, ?_, ?_⟩
      · intro e t u ht hu hd _
        rcases hf a e t ht with h1 | ⟨_, h1⟩
        · exact absurd h1 hd
        · rcases hg a e u hu with h2 | ⟨_, h2⟩
          · exact absurd h2 hd
          · rw [h1, h2]
      · intro m n hm hn
        rw [cf a m hm, cg a n hn]
      · intro m e t _ he
        rcases hg a e t he with h1 | ⟨h1, _⟩
        · exact Or.inr (Or.inl h1)
        · exact Or.inl h1
      · intro m e t _ he
        rcases hf a e t he with h1 | ⟨h1, _⟩
        · exact Or.inr (Or.inl h1)
        · exact Or.inl h1

theorem told_ok_plain {α : Type} {x : Told α} {a : α} (h : x = .ok a) : x.plain = .ok a := by rw [h]; rfl
theorem bind_eq_ok' {α β : Type} {x : Told α} {f : α → Told β} {b : β} (h : (x >>= f) = .ok b) : ∃ a, x = .ok a ∧ f a = .ok b := by
  cases x <;> simp_all

theorem exfilTail_code {V : Voice} {s hard : Str} {z : Sizage} {fs size : Nat} {m : Matter} (h : exfilTailTold V s hard z fs size = .ok m) :
    m.code = hard := by
  unfold exfilTailTold at h
  dsimp only at h
  obtain ⟨trim, _, h⟩ := bind_eq_ok' h
  obtain ⟨material, _, h⟩ := bind_eq_ok' h
  split at h
  · obtain ⟨paw, _, h⟩ := bind_eq_ok' h
    obtain ⟨pad, _, h⟩ := bind_eq_ok' h
    split at h
    · simp at h
    · obtain ⟨raw, _, h⟩ := bind_eq_ok' h
      simp only [Told.ok.injEq] at h
      rw [← h]
  · obtain ⟨paw, _, h⟩ := bind_eq_ok' h
    obtain ⟨pad, _, h⟩ := bind_eq_ok' h
    split at h
    · split at h <;> simp at h
    · obtain ⟨raw, _, h⟩ := bind_eq_ok' h
      simp only [Told.ok.injEq] at h
      rw [← h]

theorem bexfilTail_code {V : Voice} {b : List UInt8} {hard : Str} {z : Sizage} {fs size : Nat} {m : Matter}
    (h : bexfilTailTold V b hard z fs size = .ok m) : m.code = hard := by
  unfold bexfilTailTold at h
  dsimp only at h
  split at h
  · split at h
    · simp at h
    · split at h
      · simp at h
      · obtain ⟨raw, _, h⟩ := bind_eq_ok' h
        simp only [Told.ok.injEq] at h
        rw [← h]
  · split at h
    · split at h <;> simp at h
    · obtain ⟨raw, _, h⟩ := bind_eq_ok' h
      simp only [Told.ok.injEq] at h
      rw [← h]

theorem exfil_kin (V : Voice) {s t : Str} (hl : s.length = t.length) (ht : s.take (codeChars s) = t.take (codeChars s)) :
    Kin (exfilTold V s) (exfilTold V t) := by
  unfold exfilTold
  refine Kin.parts (c := fun a => a.1) (exfilHead_same V hl ht) ?_ ?_ ?_ ?_
  · rintro ⟨hard, z, fs, size⟩ e x h
    rcases exfilTail_err h with ⟨h, _⟩ | h
    · exact Or.inl h
    · exact Or.inr h
  · rintro ⟨hard, z, fs, size⟩ e x h
    rcases exfilTail_err h with ⟨h, _⟩ | h
    · exact Or.inl h
    · exact Or.inr h
  · rintro ⟨hard, z, fs, size⟩ m h
    exact exfilTail_code h
  · rintro ⟨hard, z, fs, size⟩ m h
    exact exfilTail_code h

theorem bexfil_kin (V : Voice) (E : Env) {a b : List UInt8} (hl : a.length = b.length) (ht : a.take (codeBytes a) = b.take (codeBytes a)) :
    Kin (bexfilTold V E a) (bexfilTold V E b) := by
  unfold bexfilTold
  refine Kin.parts (c := fun a => a.1) (bexfilHead_same V E hl ht) ?_ ?_ ?_ ?_
  · rintro ⟨hard, z, fs, size⟩ e x h
    exact Or.inr (bexfilTail_err h)
  · rintro ⟨hard, z, fs, size⟩ e x h
    exact Or.inr (bexfilTail_err h)
  · rintro ⟨hard, z, fs, size⟩ m h
    exact bexfilTail_code h
  · rintro ⟨hard, z, fs, size⟩ m h
    exact bexfilTail_code h

theorem raw_kin (V : Voice) (code : Str) {a b : List UInt8} (hl : a.length = b.length) :
    Kin (newWithCodeAndRawTold V code a) (newWithCodeAndRawTold V code b) := by
  cases code with
  | nil => exact Kin.same (Same.refl _)
  | cons c r =>
    unfold newWithCodeAndRawTold
    dsimp only
    rw [hl]
    cases selectCodeTold V c (c :: r) b.length with
    | panic t => exact Kin.same (Same.refl _)
    | err e t => exact Kin.same (Same.refl _)
    | ok q =>
      obtain ⟨code', size, rize⟩ := q
      simp only [Told.ok_bind]
      split
      · exact Kin.same (Same.refl _)
      · refine ⟨?_, ?_, ?_, ?_⟩
        · intro e t u h; simp at h
        · intro m n hm hn
          simp only [Told.ok.injEq] at hm hn
          rw [← hm, ← hn]
        · intro m e t _ h; simp at h
        · intro m e t _ h; simp at h

theorem qb64b_kin (V : Voice) {s t : List UInt8} (hl : s.length = t.length) (ht : s.take (codeChars s) = t.take (codeChars s)) :
    Kin (newWithQb64bTold V s) (newWithQb64bTold V t) := by
  have hf : ∀ s, (utf8Valid s = true ∧ newWithQb64bTold V s = exfilTold V s) ∨ newWithQb64bTold V s = .err .utf8 (utf8Text (V.utf8 s)) := by
    intro s
    unfold newWithQb64bTold fromUtf8
    split
    · rename_i h; exact Or.inl ⟨h, rfl⟩
    · exact Or.inr rfl
  have bad : ∀ (x : Told Matter) (u : Str), Kin (.err .utf8 u) x := by
    intro x u
    refine ⟨?_, ?_, ?_, ?_⟩
    · intro e t v h _ _ h2
      simp only [Told.err.injEq] at h
      exact absurd h.1.symm h2
    · intro m n h; simp at h
    · intro m e t h; simp at h
    · intro m e t _ h
      simp only [Told.err.injEq] at h
      exact Or.inr (Or.inr h.1.symm)
  rcases hf s with ⟨_, hs⟩ | hs
  · rcases hf t with ⟨_, ht'⟩ | ht'
    · rw [hs, ht']; exact exfil_kin V hl ht
    · rw [ht']; exact (bad _ _).symm
  · rw [hs]; exact bad _ _

theorem new_kin (V : Voice) (E : Env) {g h : Given} (ho : g.outline = h.outline) :
    Kin (newTold V E g.code g.raw g.qb64b g.qb64 g.qb2) (newTold V E h.code h.raw h.qb64b h.qb64 h.qb2) := by
  obtain ⟨c, r, b, q, n⟩ := g
  obtain ⟨c', r', b', q', n'⟩ := h
  simp only [Given.outline, Prod.mk.injEq] at ho
  obtain ⟨rfl, hr, hb, hq, hn⟩ := ho
  unfold newTold
  cases r with
  | some r =>
    cases r' with
    | none => simp at hr
    | some r' =>
      cases c with
      | none => exact Kin.same (Same.refl _)
      | some c => exact raw_kin V c (by simpa using hr)
  | none =>
    cases r' with
    | some r' => simp at hr
    | none =>
      have key : ∀ s t : Str, (s.length, s.take (codeChars s)) = (t.length, t.take (codeChars t)) →
          s.length = t.length ∧ s.take (codeChars s) = t.take (codeChars s) := by
        intro s t h
        simp only [Prod.mk.injEq] at h
        refine ⟨h.1, ?_⟩
        have : codeChars s = codeChars t := by
          cases s with
          | nil =>
            have : t = [] := List.length_eq_zero_iff.mp (by simpa using h.1.symm)
            rw [this]
          | cons x s =>
            cases t with
            | nil => simp at h
            | cons y t =>
              have hx : 1 ≤ codeChars (x :: s) := codeChars_pos _ _
              have hy : 1 ≤ codeChars (y :: t) := codeChars_pos _ _
              have h2 := congrArg List.head? h.2
              rw [List.head?_take, List.head?_take, if_neg (by omega), if_neg (by omega)] at h2
              simp only [List.head?_cons, Option.some.injEq] at h2
              rw [h2]; rfl
        rw [this] at h ⊢
        exact h.2
      cases b with
      | some s =>
        cases b' with
        | none => simp at hb
        | some t =>
          obtain ⟨h1, h2⟩ := key s t (by simpa using hb)
          exact qb64b_kin V h1 h2
      | none =>
        cases b' with
        | some t => simp at hb
        | none =>
          cases q with
          | some s =>
            cases q' with
            | none => simp at hq
            | some t =>
              obtain ⟨h1, h2⟩ := key s t (by simpa using hq)
              exact exfil_kin V h1 h2
          | none =>
            cases q' with
            | some t => simp at hq
            | none =>
              cases n with
              | none =>
                cases n' with
                | some t => simp at hn
                | none => exact Kin.same (Same.refl _)
              | some s =>
                cases n' with
                | none => simp at hn
                | some t =>
                  simp only [Option.map_some, Option.some.injEq, Prod.mk.injEq] at hn
                  have : codeBytes s = codeBytes t := by
                    cases s with
                    | nil =>
                      have : t = [] := List.length_eq_zero_iff.mp (by simpa using hn.1.symm)
                      rw [this]
                    | cons x s =>
                      cases t with
                      | nil => simp at hn
                      | cons y t =>
                        have hx : 1 ≤ codeBytes (x :: s) := codeBytes_pos _ _
                        have hy : 1 ≤ codeBytes (y :: t) := codeBytes_pos _ _
                        have h2 := congrArg List.head? hn.2
                        rw [List.head?_take, List.head?_take, if_neg (by omega), if_neg (by omega)] at h2
                        simp only [List.head?_cons, Option.some.injEq] at h2
                        rw [h2]; rfl
                  exact bexfil_kin V E hn.1 (by rw [hn.2, this])

end Matter

/-- C118 (primitives). Two primitives are asked for with arguments that differ only in their material: the same code, lengths, and codes at the start of the
texts. When both fail with the same kind of error, the messages are the same, except for what the Base64 and UTF-8 decoders report. -/
theorem C118_primitives (V : Voice) (E : Env) {g h : Given} (ho : g.outline = h.outline) {e : Err} {x y : Str}
    (hg : Matter.newTold V E g.code g.raw g.qb64b g.qb64 g.qb2 = .err e x) (hh : Matter.newTold V E h.code h.raw h.qb64b h.qb64 h.qb2 = .err e y)
    (h1 : e ≠ .decode) (h2 : e ≠ .utf8) : x = y :=
  (Matter.new_kin V E ho).err e x y hg hh h1 h2

/-! ## Signers and salters -/

namespace Signer

/-- `Signer.new` up to the derivation of the public key. -/
def seedTold (V : Voice) (E : Env) (C : Crypto) (r : Nat) (code : Option Str) (raw : Option (List UInt8)) (qb64b : Option (List UInt8))
    (qb64 : Option Str) (qb2 : Option (List UInt8)) : Told Matter :=
  (if qb64b.isNone ∧ qb64.isNone ∧ qb2.isNone then do
      let code := code.getD (lit "A")
      tell (fun _ => unexpectedCodeText code) [] (validateCode code)
      let raw ← tell (fun _ => unexpectedCodeText code) []
        (match raw with
        | some raw => .ok raw
        | none => Sign.generate C code r : Res (List UInt8))
      Matter.newTold V E (some code) (some raw) none none none
    else do
      let m ← Matter.newTold V E code raw qb64b qb64 qb2
      tell (fun _ => unexpectedCodeText m.code) [] (validateCode m.code)
      .ok m : Told Matter)

theorem newTold_eq (V : Voice) (E : Env) (C : Crypto) (r : Nat) (t : Option Bool) (code : Option Str) (raw : Option (List UInt8)) (qb64b : Option (List UInt8))
    (qb64 : Option Str) (qb2 : Option (List UInt8)) : newTold V E C r t code raw qb64b qb64 qb2 = (do
      let m ← seedTold V E C r code raw qb64b qb64 qb2
      let verfer ← deriveVerferTold V E C m.code m.raw (t.getD true)
      .ok { matter := m, verfer := verfer }) := rfl

theorem validateCode_cases (code : Str) : validateCode code = .ok () ∨ validateCode code = .err .unexpectedCode := by
  unfold validateCode
  split
  · exact Or.inl rfl
  · exact Or.inr rfl

theorem seed_kin (V : Voice) (E : Env) (C : Crypto) (r r' : Nat) {g h : Given} (ho : g.outline = h.outline) :
    Matter.Kin (seedTold V E C r g.code g.raw g.qb64b g.qb64 g.qb2) (seedTold V E C r' h.code h.raw h.qb64b h.qb64 h.qb2) := by
  have hnew := Matter.new_kin V E ho
  obtain ⟨c, w, b, q, n⟩ := g
  obtain ⟨c', w', b', q', n'⟩ := h
  simp only [Given.outline, Prod.mk.injEq] at ho
  obtain ⟨rfl, hr, hb, hq, hn⟩ := ho
  have e1 : b.isNone = b'.isNone := by cases b <;> cases b' <;> simp_all
  have e2 : q.isNone = q'.isNone := by cases q <;> cases q' <;> simp_all
  have e3 : n.isNone = n'.isNone := by cases n <;> cases n' <;> simp_all
  unfold seedTold
  dsimp only
  rw [e1, e2, e3]
  split
  · rcases validateCode_cases (c.getD (lit "A")) with hv | hv
    · rw [hv]
      have hlen : ∀ (u u' : List UInt8), u.length = u'.length → Matter.Kin (Matter.newTold V E (some (c.getD (lit "A"))) (some u) none none none)
          (Matter.newTold V E (some (c.getD (lit "A"))) (some u') none none none) := fun u u' h => Matter.raw_kin V _ h
      cases w with
      | some w =>
        cases w' with
        | none => simp at hr
        | some w' => exact hlen w w' (by simpa using hr)
      | none =>
        cases w' with
        | some w' => simp at hr
        | none =>
          unfold Sign.generate
          cases Sign.curveOf (c.getD (lit "A")) with
          | none => exact Matter.Kin.same (Same.refl _)
          | some cv => exact hlen _ _ (by rw [(C.generate_valid cv r).1, (C.generate_valid cv r').1])
    · rw [hv]
      exact Matter.Kin.same (Same.refl _)
  · generalize Matter.newTold V E c w b q n = x at hnew
    generalize Matter.newTold V E c w' b' q' n' = y at hnew
    have bad : ∀ e, e = Err.unexpectedCode → ¬ (Matter.Late e ∨ e = .decode ∨ e = .utf8) := by
      rintro e rfl h
      rcases h with h | h | h
      · rcases h with h | h | h | h <;> simp at h
      · simp at h
      · simp at h
    have step : ∀ m : Matter, ((tell (fun _ => unexpectedCodeText m.code) [] (validateCode m.code) >>= fun _ => (Told.ok m : Told Matter)) = .ok m ∧
          validateCode m.code = .ok ()) ∨
        ((tell (fun _ => unexpectedCodeText m.code) [] (validateCode m.code) >>= fun _ => (Told.ok m : Told Matter)) =
          .err .unexpectedCode (unexpectedCodeText m.code) ∧ validateCode m.code = .err .unexpectedCode) := by
      intro m
      rcases validateCode_cases m.code with h | h
      · rw [h]; exact Or.inl ⟨rfl, rfl⟩
      · rw [h]; exact Or.inr ⟨rfl, rfl⟩
    cases x with
    | panic t => exact Matter.Kin.same (Or.inr (Or.inl ⟨t, rfl⟩))
    | err e t =>
      cases y with
      | panic t => exact Matter.Kin.same (Or.inr (Or.inr ⟨t, rfl⟩))
      | err e' t' => exact hnew
      | ok m =>
        simp only [Told.ok_bind, Told.err_bind]
        rcases step m with ⟨h1, _⟩ | ⟨h1, _⟩
        · rw [h1]; exact hnew
        · rw [h1]
          refine ⟨?_, ?_, ?_, ?_⟩
          · intro f u v hu hv _ _
            simp only [Told.err.injEq] at hu hv
            exact absurd (hnew.right m e t rfl rfl) (bad e (by rw [hu.1, hv.1]))
          · intro a b h; simp at h
          · intro a f u h; simp at h
          · intro a f u h; simp at h
    | ok m =>
      simp only [Told.ok_bind]
      cases y with
      | panic t => exact Matter.Kin.same (Or.inr (Or.inr ⟨t, rfl⟩))
      | err e t =>
        simp only [Told.err_bind]
        rcases step m with ⟨h1, _⟩ | ⟨h1, _⟩
        · rw [h1]; exact hnew
        · rw [h1]
          refine ⟨?_, ?_, ?_, ?_⟩
          · intro f u v hu hv _ _
            simp only [Told.err.injEq] at hu hv
            exact absurd (hnew.left m e t rfl rfl) (bad e (by rw [hv.1, hu.1]))
          · intro a b h; simp at h
          · intro a f u h; simp at h
          · intro a f u h; simp at h
      | ok m' =>
        have hc := hnew.ok m m' rfl rfl
        simp only [Told.ok_bind]
        rcases step m with ⟨h1, h2⟩ | ⟨h1, h2⟩
        · rcases step m' with ⟨h3, h4⟩ | ⟨h3, h4⟩
          · rw [h1, h3]; exact hnew
          · rw [hc, h4] at h2; simp at h2
        · rcases step m' with ⟨h3, h4⟩ | ⟨h3, h4⟩
          · rw [hc, h4] at h2; simp at h2
          · rw [h1, h3, hc]; exact Matter.Kin.same (Same.refl _)

theorem tell_unit {f : Err → Str} {p : Str} {r : Res Unit} {u : Unit} (h : tell f p r = .ok u) : r = .ok () := tell_ok h

theorem seedTold_ok {V : Voice} {E : Env} {C : Crypto} {r : Nat} {code : Option Str} {raw qb64b : Option (List UInt8)} {qb64 : Option Str}
    {qb2 : Option (List UInt8)} {m : Matter} (h : seedTold V E C r code raw qb64b qb64 qb2 = .ok m) : ∃ c, m.code = (schemeOf c).seed := by
  have hp : (seedTold V E C r code raw qb64b qb64 qb2).plain = Signer.seed E C r code raw qb64b qb64 qb2 := by
    unfold seedTold Signer.seed
    simp only [plain_ite, plain_bind, plain_tell, Matter.newTold_plain, plain_ok]
    rfl
  rw [h] at hp
  obtain ⟨c, _, _, hc, _⟩ := Signer.seed_ok hp.symm
  exact ⟨c, hc⟩

theorem publicKey_length_ok {C : Crypto} {c : Curve} {key raw : List UInt8} (h : Sign.publicKey C (schemeOf c).seed key = .ok raw) :
    raw.length = if c = .ed25519 then 32 else 33 := by
  unfold Sign.publicKey at h
  rw [(scheme_rows c).1] at h
  cases c with
  | ed25519 =>
    simp only at h
    obtain ⟨k, hk, h⟩ := Res.bind_eq_ok.mp h
    unfold slice at hk
    split at hk
    · rename_i hlen
      simp only [Res.ok.injEq] at hk h
      rw [← h]
      apply C.publicKey_length
      rw [C.valid_ed, ← hk]
      simp
      omega
    · simp at hk
  | k1 =>
    simp only at h
    split at h
    · rename_i hv
      simp only [Res.ok.injEq] at h
      rw [← h]
      exact C.publicKey_length _ _ hv
    · simp at h
  | r1 =>
    simp only at h
    split at h
    · rename_i hv
      simp only [Res.ok.injEq] at h
      rw [← h]
      exact C.publicKey_length _ _ hv
    · simp at h

theorem publicKey_err {C : Crypto} {c : Curve} {key : List UInt8} {e : Err} (h : Sign.publicKey C (schemeOf c).seed key = .err e) : e = .crypto := by
  unfold Sign.publicKey at h
  rw [(scheme_rows c).1] at h
  cases c with
  | ed25519 =>
    simp only at h
    rcases Res.bind_eq_err.mp h with h | ⟨k, _, h⟩
    · exact absurd h Matter.slice_ne_err
    · simp at h
  | k1 => simp only at h; split at h <;> simp_all
  | r1 => simp only at h; split at h <;> simp_all

theorem verferTold_plain (V : Voice) (E : Env) (code : Option Str) (raw qb64b : Option (List UInt8)) (qb64 : Option Str) (qb2 : Option (List UInt8)) :
    (Verfer.newTold V E code raw qb64b qb64 qb2).plain = Verfer.new E code raw qb64b qb64 qb2 := by
  unfold Verfer.newTold Verfer.new
  simp only [plain_bind, plain_tell, plain_ok, Matter.newTold_plain]

theorem deriveVerferTold_plain (V : Voice) (E : Env) (C : Crypto) (code : Str) (key : List UInt8) (t : Bool) :
    (deriveVerferTold V E C code key t).plain = deriveVerfer E C code key t := by
  unfold deriveVerferTold deriveVerfer Sign.publicKeyTold
  simp only [plain_bind, plain_tell, verferTold_plain]

theorem deriveVerferTold_eq (V : Voice) (E : Env) (C : Crypto) (c : Curve) (key : List UInt8) (t : Bool) :
    deriveVerferTold V E C (schemeOf c).seed key t =
      (do let raw ← Sign.publicKeyTold V C (schemeOf c).seed key; Verfer.newTold V E (some (keyCode c t)) (some raw) none none none) := by
  unfold deriveVerferTold
  cases c <;> cases t <;> rfl

theorem derive_err {V : Voice} {E : Env} {C : Crypto} {c : Curve} {key : List UInt8} {t : Bool} {e : Err} {x : Str}
    (h : deriveVerferTold V E C (schemeOf c).seed key t = .err e x) : e = .crypto ∧ x = V.key := by
  rw [deriveVerferTold_eq] at h
  rcases bind_eq_err.mp h with h | ⟨raw, hraw, h⟩
  · obtain ⟨h1, h2⟩ := tell_err h
    have := publicKey_err h1
    subst this
    exact ⟨rfl, by rw [h2, if_pos rfl]⟩
  · have hp : (Verfer.newTold V E (some (keyCode c t)) (some raw) none none none).plain = .err e := by rw [h]; rfl
    rw [verferTold_plain, Verfer.new_built E c t (publicKey_length_ok (tell_ok hraw))] at hp
    simp at hp

/-- How making a signer fails. -/
theorem newTold_err {V : Voice} {E : Env} {C : Crypto} {r : Nat} {t : Option Bool} {code : Option Str} {raw qb64b : Option (List UInt8)} {qb64 : Option Str}
    {qb2 : Option (List UInt8)} {e : Err} {x : Str} (h : newTold V E C r t code raw qb64b qb64 qb2 = .err e x) :
    seedTold V E C r code raw qb64b qb64 qb2 = .err e x ∨ (∃ m, seedTold V E C r code raw qb64b qb64 qb2 = .ok m) ∧ e = .crypto ∧ x = V.key := by
  rw [newTold_eq] at h
  rcases bind_eq_err.mp h with h | ⟨m, hm, h⟩
  · exact Or.inl h
  · rcases bind_eq_err.mp h with h | ⟨v, _, h⟩
    · obtain ⟨c, hc⟩ := seedTold_ok hm
      rw [hc] at h
      exact Or.inr ⟨⟨m, hm⟩, derive_err h⟩
    · simp at h

end Signer

/-- C118 (signers). The same for making a signer, also with keys drawn at random: the message does not depend on the seed. -/
theorem C118_signers (V : Voice) (E : Env) (C : Crypto) (r r' : Nat) (t t' : Option Bool) {g h : Given} (ho : g.outline = h.outline) {e : Err} {x y : Str}
    (hg : Signer.newTold V E C r t g.code g.raw g.qb64b g.qb64 g.qb2 = .err e x) (hh : Signer.newTold V E C r' t' h.code h.raw h.qb64b h.qb64 h.qb2 = .err e y)
    (h1 : e ≠ .decode) (h2 : e ≠ .utf8) : x = y := by
  have kin := Signer.seed_kin V E C r r' ho
  have bad : ¬ (Matter.Late .crypto ∨ Err.crypto = .decode ∨ Err.crypto = .utf8) := by
    rintro (h | h | h)
    · rcases h with h | h | h | h <;> simp at h
    · simp at h
    · simp at h
  rcases Signer.newTold_err hg with hg | ⟨⟨m, hm⟩, rfl, rfl⟩
  · rcases Signer.newTold_err hh with hh | ⟨⟨m, hm⟩, rfl, rfl⟩
    · exact kin.err e x y hg hh h1 h2
    · exact absurd (kin.right m _ _ hm hg) bad
  · rcases Signer.newTold_err hh with hh | ⟨_, _, rfl⟩
    · exact absurd (kin.left m _ _ hm hh) bad
    · rfl

/-- C118 (salters). The same for making a salter. -/
theorem C118_salters (V : Voice) (E : Env) (rnd rnd' : List UInt8) (hr : rnd.length = rnd'.length) (tier tier' : Option Str) {g h : Given}
    (ho : g.outline = h.outline) {e : Err} {x y : Str}
    (hg : Salter.newTold V E rnd tier g.code g.raw g.qb64b g.qb64 g.qb2 = .err e x)
    (hh : Salter.newTold V E rnd' tier' h.code h.raw h.qb64b h.qb64 h.qb2 = .err e y) (h1 : e ≠ .decode) (h2 : e ≠ .utf8) : x = y := by
  obtain ⟨c, w, b, q, n⟩ := g
  obtain ⟨c', w', b', q', n'⟩ := h
  have ho' := ho
  simp only [Given.outline, Prod.mk.injEq] at ho
  obtain ⟨rfl, hw, hb, hq, hn⟩ := ho
  have e0 : w.isNone = w'.isNone := by cases w <;> cases w' <;> simp_all
  have e1 : b.isNone = b'.isNone := by cases b <;> cases b' <;> simp_all
  have e2 : q.isNone = q'.isNone := by cases q <;> cases q' <;> simp_all
  have e3 : n.isNone = n'.isNone := by cases n <;> cases n' <;> simp_all
  unfold Salter.newTold at hg hh
  dsimp only at hg hh
  rw [e0, e1, e2, e3] at hg
  split at hg
  · rename_i hc
    rw [if_pos hc] at hh
    simp only [Told.err.injEq] at hg hh
    rw [← hg.2, ← hh.2]
  · rename_i hc
    rw [if_neg hc] at hh
    rcases bind_eq_err.mp hg with hg | ⟨_, _, hg⟩
    · rcases bind_eq_err.mp hh with hh | ⟨_, _, hh⟩
      · split at hg
        · rename_i ha
          rw [if_pos ha] at hh
          exact (Matter.raw_kin V _ hr).err e x y hg hh h1 h2
        · rename_i ha
          rw [if_neg ha] at hh
          refine (Matter.new_kin V E (g := ⟨some (c.getD (lit "0A")), w, b, q, n⟩) (h := ⟨some (c.getD (lit "0A")), w', b', q', n'⟩) ?_).err e x y hg hh h1 h2
          simp only [Given.outline, Prod.mk.injEq]
          exact ⟨trivial, hw, hb, hq, hn⟩
      · simp at hh
    · simp at hg

/-! ## Using them -/

theorem validate_told {code x : Str} {e : Err} {r : Res Unit} (h : tell (fun _ => unexpectedCodeText code) [] r = .err e x) : r = .err e := (tell_err h).1

/-- C118 (signing). When a signature fails, the message depends on the code of the signer and on the kind of error only: not on the seed, not on what is signed. -/
theorem C118_signing (V : Voice) (E : Env) (C : Crypto) {s s' : Signer} (hc : s.matter.code = s'.matter.code) {ser ser' : List UInt8} {r r' : Nat} {e : Err}
    {x y : Str} (h : Signer.signUnindexedTold V E C s ser r = .err e x) (h' : Signer.signUnindexedTold V E C s' ser' r' = .err e y) : x = y := by
  have key : ∀ (s : Signer) (ser : List UInt8) (r : Nat) (x : Str), Signer.signUnindexedTold V E C s ser r = .err e x →
      x = if e = .crypto then V.key else if e = .tryFrom then V.array else unexpectedCodeText s.matter.code := by
    intro s ser r x h
    by_cases hs : ∃ c, s.matter.code = (schemeOf c).seed
    · obtain ⟨c, hs⟩ := hs
      have hcode : Signer.signUnindexedTold V E C s ser r = (do
          let sig ← Sign.signTold V C s.matter.code s.matter.raw ser r
          Cigar.newTold V E (some s.verfer) (some (schemeOf c).sig) (some sig) none none none) := by
        unfold Signer.signUnindexedTold
        rw [hs]
        cases c <;> rfl
      rw [hcode] at h
      rcases bind_eq_err.mp h with h | ⟨sig, hsig, h⟩
      · exact (tell_err h).2
      · exfalso
        have hlen : sig.length = 64 := by
          have := tell_ok hsig
          unfold Sign.sign at this
          rw [hs, (scheme_rows c).1] at this
          cases c with
          | ed25519 =>
            simp only at this
            split at this
            · rename_i h32
              simp only [Res.ok.injEq] at this
              rw [← this]
              exact C.sign_length _ _ _ _ ((C.valid_ed _).mpr h32)
            · simp at this
          | k1 =>
            simp only at this
            split at this
            · rename_i hv
              simp only [Res.ok.injEq] at this
              rw [← this]
              exact C.sign_length _ _ _ _ hv
            · simp at this
          | r1 =>
            simp only at this
            split at this
            · rename_i hv
              simp only [Res.ok.injEq] at this
              rw [← this]
              exact C.sign_length _ _ _ _ hv
            · simp at this
        have hp : (Cigar.newTold V E (some s.verfer) (some (schemeOf c).sig) (some sig) none none none).plain = .err e := by rw [h]; rfl
        unfold Cigar.newTold at hp
        simp only [plain_bind, plain_tell, plain_ok, Matter.newTold_plain] at hp
        have hn : Matter.new E (some (schemeOf c).sig) (some sig) none none none = .ok { code := (schemeOf c).sig, size := 0, raw := sig } := by
          show Matter.newWithCodeAndRaw (schemeOf c).sig sig = _
          exact fixed_new (n := 64) (by cases c <;> decide +kernel) hlen
        rw [hn] at hp
        simp only [Res.ok_bind] at hp
        have hv : Cigar.validateCode (schemeOf c).sig = .ok () := by cases c <;> decide +kernel
        rw [hv] at hp
        simp at hp
    · have hn : ∀ c, s.matter.code ≠ (schemeOf c).seed := fun c hc => hs ⟨c, hc⟩
      unfold Signer.signUnindexedTold at h
      have hA : s.matter.code ≠ lit "A" := hn .ed25519
      have hJ : s.matter.code ≠ lit "J" := hn .k1
      have hQ : s.matter.code ≠ lit "Q" := hn .r1
      rw [if_neg hA, if_neg hJ, if_neg hQ] at h
      simp only [tell, Told.err_bind, Told.err.injEq] at h
      obtain ⟨rfl, rfl⟩ := h
      simp
  rw [key s ser r x h, key s' ser' r' y h', hc]

/-- C118 (stretching). When stretching a salt fails, the message depends on the lengths and the kind of error only. -/
theorem C118_stretching (V : Voice) (C : Crypto) {s s' : Salter} (hl : s.matter.raw.length = s'.matter.raw.length) {size : Option Nat}
    {path path' tier tier' : Option Str} (hp : (path.getD []).length = (path'.getD []).length) {temp temp' : Option Bool} {e : Err} {x y : Str}
    (h : Salter.stretchTold V C s size path tier temp = .err e x) (h' : Salter.stretchTold V C s' size path' tier' temp' = .err e y) : x = y := by
  unfold Salter.stretchTold stretchSaltTold at h h'
  rw [(tell_err h).2, (tell_err h').2, hl]
  simp only [hp]

/-- C118 (derived signers). The same for signers derived from a salt. -/
theorem C118_derived (V : Voice) (E : Env) (C : Crypto) {s s' : Salter} (hl : s.matter.raw.length = s'.matter.raw.length) {code : Option Str}
    {t : Option Bool} {path path' tier tier' : Option Str} (hp : (path.getD []).length = (path'.getD []).length) {temp temp' : Option Bool} {e : Err} {x y : Str}
    (h : Salter.signerTold V E C s code t path tier temp = .err e x) (h' : Salter.signerTold V E C s' code t path' tier' temp' = .err e y) : x = y := by
  have kinds : ∀ (n : Nat) (s : Salter) (p : Str) (ti : Option Str) (te : Bool) (e : Err) (x : Str),
      Salter.stretchTold V C s (some n) (some p) ti (some te) = .err e x → e = .value ∨ e = .derivation := by
    intro n s p ti te e x h
    unfold Salter.stretchTold stretchSaltTold at h
    have := (tell_err h).1
    unfold stretchSalt at this
    rcases Res.bind_eq_err.mp this with h | ⟨⟨m, t⟩, _, h⟩
    · left
      repeat' split at h
      all_goals simp_all
    · right
      simp only at h
      split at h <;> simp_all
  have made : ∀ (code : Str) (seed : List UInt8) (e : Err) (x : Str), Signer.newTold V E C 0 (some (t.getD true)) (some code) (some seed) none none none = .err e x →
      e ≠ .value ∧ e ≠ .derivation ∧ e ≠ .decode ∧ e ≠ .utf8 := by
    intro code seed e x h
    have hplain : Signer.new E C 0 (some (t.getD true)) (some code) (some seed) none none none = .err e := by
      have : (Signer.newTold V E C 0 (some (t.getD true)) (some code) (some seed) none none none).plain = .err e := by rw [h]; rfl
      rw [← this]
      unfold Signer.newTold Signer.new
      simp only [plain_ite, plain_bind, plain_tell, Matter.newTold_plain, plain_ok, Signer.deriveVerferTold_plain]
    by_cases hc : ∃ c, code = (schemeOf c).seed
    · obtain ⟨c, rfl⟩ := hc
      rw [C65_from_raw] at hplain
      repeat' split at hplain
      all_goals simp only [Res.err.injEq, reduceCtorEq] at hplain
      all_goals subst hplain
      all_goals simp
    · have := (C65_codes E C 0 (some (t.getD true)) (some seed)).2 code (by
        intro S hS he
        obtain ⟨c, rfl⟩ := mem_schemes hS
        exact hc ⟨c, he⟩)
      rw [this] at hplain
      simp only [Res.err.injEq] at hplain
      subst hplain
      simp
  unfold Salter.signerTold at h h'
  dsimp only at h h'
  cases hsz : Matter.rawSizeTold (code.getD (lit "A")) with
  | panic u => rw [hsz] at h; simp at h
  | err f u =>
    rw [hsz] at h h'
    simp only [Told.err_bind, Told.err.injEq] at h h'
    rw [← h.2, ← h'.2]
  | ok n =>
    rw [hsz] at h h'
    simp only [Told.ok_bind] at h h'
    rcases bind_eq_err.mp h with h1 | ⟨seed, hseed, h1⟩
    · rcases bind_eq_err.mp h' with h2 | ⟨seed', hseed', h2⟩
      · exact C118_stretching V C hl (by simpa using hp) h1 h2
      · have a := made _ _ _ _ h2
        rcases kinds _ _ _ _ _ _ _ h1 with b | b
        · exact absurd b a.1
        · exact absurd b a.2.1
    · rcases bind_eq_err.mp h' with h2 | ⟨seed', hseed', h2⟩
      · have a := made _ _ _ _ h1
        rcases kinds _ _ _ _ _ _ _ h2 with b | b
        · exact absurd b a.1
        · exact absurd b a.2.1
      · have a := made _ _ _ _ h1
        have len : ∀ (s : Salter) (p : Str) (ti : Option Str) (te : Bool) (out : List UInt8),
            Salter.stretchTold V C s (some n) (some p) ti (some te) = .ok out → out.length = n := by
          intro s p ti te out h
          unfold Salter.stretchTold stretchSaltTold at h
          have := tell_ok h
          unfold stretchSalt at this
          obtain ⟨⟨m, t⟩, _, h⟩ := Res.bind_eq_ok.mp this
          simp only at h
          split at h
          · rename_i o ho
            simp only [Res.ok.injEq] at h
            rw [← h]
            exact C.argon_length _ _ _ _ _ _ ho
          · simp at h
        refine C118_signers V E C 0 0 _ _ (g := ⟨some (code.getD (lit "A")), some seed, none, none, none⟩)
          (h := ⟨some (code.getD (lit "A")), some seed', none, none, none⟩) ?_ h1 h2 a.2.2.1 a.2.2.2
        simp only [Given.outline, Option.map_some, len _ _ _ _ _ hseed, len _ _ _ _ _ hseed']

/-- C118 (writing). When writing a primitive as text or binary fails, the message depends on its code, its size and the length of its material only. -/
theorem C118_writing (V : Voice) (E : Env) {m n : Matter} (hc : m.code = n.code) (hs : m.size = n.size) (hl : m.raw.length = n.raw.length) {e : Err}
    {x y : Str} :
    (Matter.infilTold V E m = .err e x → Matter.infilTold V E n = .err e y → x = y) ∧
    (Matter.binfilTold E m = .err e x → Matter.binfilTold E n = .err e y → x = y) := by
  constructor
  · intro hm hn
    unfold Matter.infilTold at hm hn
    dsimp only at hm hn
    rw [hc, hs, hl] at hm
    cases hz : Matter.sizageTold n.code with
    | panic t => rw [hz] at hm; simp at hm
    | err f t =>
      rw [hz] at hm hn
      simp only [Told.err_bind, Told.err.injEq] at hm hn
      rw [← hm.2, ← hn.2]
    | ok z =>
      rw [hz] at hm hn
      simp only [Told.ok_bind] at hm hn
      split at hm
      · rename_i hf
        rw [if_pos hf] at hn
        split at hm
        · rename_i h1
          rw [if_pos h1] at hn
          simp only [Told.err.injEq] at hm hn
          rw [← hm.2, ← hn.2]
        · rename_i h1
          rw [if_neg h1] at hn
          split at hm
          · rename_i h2
            rw [if_pos h2] at hn
            simp only [Told.err.injEq] at hm hn
            rw [← hm.2, ← hn.2]
          · rename_i h2
            rw [if_neg h2] at hn
            cases hu : tell (fun _ => lit "invalid base64 index: ") [] (uintToB64 E n.size z.ss) with
            | panic t => rw [hu] at hm; simp at hm
            | err f t =>
              rw [hu] at hm hn
              simp only [Told.err_bind, Told.err.injEq] at hm hn
              rw [← hm.2, ← hn.2]
            | ok soft =>
              rw [hu] at hm hn
              simp only [Told.ok_bind] at hm hn
              split at hm
              · rename_i h3
                rw [if_pos h3] at hn
                simp only [Told.err.injEq] at hm hn
                rw [← hm.2, ← hn.2]
              · rename_i h3
                rw [if_neg h3] at hn
                rcases bind_eq_err.mp hm with hm | ⟨v, _, hm⟩
                · rcases bind_eq_err.mp hn with hn | ⟨v, _, hn⟩
                  · rw [(tell_err hm).2, (tell_err hn).2]
                  · simp at hn
                · simp at hm
      · rename_i hf
        rw [if_neg hf] at hn
        cases hu : tell (fun _ => []) V.overflow (E.subU32 ((3 - n.raw.length % 3) % 3) z.ls) with
        | panic t => rw [hu] at hm; simp at hm
        | err f t =>
          rw [hu] at hm hn
          simp only [Told.err_bind, Told.err.injEq] at hm hn
          rw [← hm.2, ← hn.2]
        | ok d =>
          rw [hu] at hm hn
          simp only [Told.ok_bind] at hm hn
          split at hm
          · rename_i h1
            rw [if_pos h1] at hn
            simp only [Told.err.injEq] at hm hn
            rw [← hm.2, ← hn.2]
          · rename_i h1
            rw [if_neg h1] at hn
            rcases bind_eq_err.mp hm with hm | ⟨v, _, hm⟩
            · rcases bind_eq_err.mp hn with hn | ⟨v, _, hn⟩
              · rw [(tell_err hm).2, (tell_err hn).2]
              · rcases bind_eq_err.mp hn with hn | ⟨w, _, hn⟩
                · exact absurd (tell_err hn).1 Matter.sliceStr_ne_err
                · simp at hn
            · rcases bind_eq_err.mp hm with hm | ⟨w, _, hm⟩
              · exact absurd (tell_err hm).1 Matter.sliceStr_ne_err
              · simp at hm
  · intro hm hn
    have fin : ∀ (ls fs : Nat) (both : Str) (bcode : List UInt8) (u : Told Nat) (f : Nat → List UInt8),
        (u >>= fun v => Matter.binfilFinishTold ls fs both (f v) m.raw) = .err e x → (u >>= fun v => Matter.binfilFinishTold ls fs both (f v) n.raw) = .err e y →
        x = y := by
      intro ls fs both _ u f h1 h2
      cases u with
      | panic t => simp at h1
      | err g t =>
        simp only [Told.err_bind, Told.err.injEq] at h1 h2
        rw [← h1.2, ← h2.2]
      | ok v =>
        simp only [Told.ok_bind, Matter.binfilFinishTold, List.length_append, hl] at h1 h2
        split at h1
        · rename_i hh
          rw [if_pos hh] at h2
          simp only [Told.err.injEq] at h1 h2
          rw [← h1.2, ← h2.2]
        · simp at h1
    unfold Matter.binfilTold at hm hn
    dsimp only at hm hn
    rw [hc, hs] at hm
    cases hz : Matter.sizageTold n.code with
    | panic t => rw [hz] at hm; simp at hm
    | err f t =>
      rw [hz] at hm hn
      simp only [Told.err_bind, Told.err.injEq] at hm hn
      rw [← hm.2, ← hn.2]
    | ok z =>
      rw [hz] at hm hn
      simp only [Told.ok_bind] at hm hn
      generalize (if z.fs = u32Max then _ else _ : Told (Nat × Str)) = q at hm hn
      cases q with
      | panic t => simp at hm
      | err f t =>
        simp only [Told.err_bind, Told.err.injEq] at hm hn
        rw [← hm.2, ← hn.2]
      | ok q =>
        obtain ⟨fs, both⟩ := q
        simp only [Told.ok_bind] at hm hn
        split at hm
        · rename_i h1
          rw [if_pos h1] at hn
          simp only [Told.err.injEq] at hm hn
          rw [← hm.2, ← hn.2]
        · rename_i h1
          rw [if_neg h1] at hn
          split at hm
          · rename_i h2
            rw [if_pos h2] at hn
            exact fin _ _ _ [] _ _ hm hn
          · rename_i h2
            rw [if_neg h2] at hn
            split at hm
            · rename_i h3
              rw [if_pos h3] at hn
              exact fin _ _ _ [] _ _ hm hn
            · rename_i h3
              rw [if_neg h3] at hn
              simp only [Told.err.injEq] at hm hn
              rw [← hm.2, ← hn.2]

end Cesride
