import Verif.Props.Told
import Verif.Props.Panics3
import Verif.Lemmas.JsonLex
/-! # C118, continued: decoders and panics -/

namespace Cesride
open Spec Told

/-! ## What the decoders report -/

namespace Matter

theorem size_rows : ∀ p ∈ sizes, p.2.fs ≠ u32Max → p.2.fs % 4 = 0 ∧ p.2.hs + p.2.ss ≤ p.2.fs := by decide +kernel

theorem exfilHead_ok {V : Voice} {s hard : Str} {z : Sizage} {fs size : Nat} (h : exfilHeadTold V s = .ok (hard, z, fs, size)) :
    fs % 4 = 0 ∧ z.hs + z.ss ≤ fs ∧ fs ≤ s.length := by
  unfold exfilHeadTold at h
  cases s with
  | nil => simp at h
  | cons c r =>
    dsimp only at h
    obtain ⟨hs, _, h⟩ := bind_eq_ok' h
    split at h
    · simp at h
    · obtain ⟨hd, _, h⟩ := bind_eq_ok' h
      obtain ⟨zz, hz, h⟩ := bind_eq_ok' h
      obtain ⟨⟨f, n⟩, hf, h⟩ := bind_eq_ok' h
      dsimp only at h
      split at h
      · simp at h
      · simp only [Told.ok.injEq, Prod.mk.injEq] at h
        obtain ⟨rfl, rfl, rfl, rfl⟩ := h
        have hrow := size_rows _ (sizage_mem (tell_ok hz))
        refine ⟨?_, ?_, by omega⟩
        · split at hf
          · split at hf
            · simp at hf
            · split at hf
              · simp at hf
              · obtain ⟨soft, _, hf⟩ := bind_eq_ok' hf
                obtain ⟨v, _, hf⟩ := bind_eq_ok' hf
                simp only [Told.ok.injEq, Prod.mk.injEq] at hf
                omega
          · rename_i hu
            simp only [Told.ok.injEq, Prod.mk.injEq] at hf
            rw [← hf.1]; exact (hrow hu).1
        · split at hf
          · split at hf
            · simp at hf
            · split at hf
              · simp at hf
              · obtain ⟨soft, _, hf⟩ := bind_eq_ok' hf
                obtain ⟨v, _, hf⟩ := bind_eq_ok' hf
                simp only [Told.ok.injEq, Prod.mk.injEq] at hf
                omega
          · rename_i hu
            simp only [Told.ok.injEq, Prod.mk.injEq] at hf
            rw [← hf.1]; exact (hrow hu).2

theorem exfilHead_err {V : Voice} {s x : Str} {e : Err} (h : exfilHeadTold V s = .err e x) : e ≠ .decode ∧ e ≠ .utf8 := by
  have num : ∀ (m o : Nat) (s : Str) (e : Err) (x : Str), b64ToUintTold m o s = .err e x → e ≠ .decode ∧ e ≠ .utf8 := by
    intro m o s
    induction s generalizing o with
    | nil => intro e x h; simp [b64ToUintTold] at h
    | cons c r ih =>
      intro e x h
      unfold b64ToUintTold at h
      rcases bind_eq_err.mp h with h | ⟨i, _, h⟩
      · have := (tell_err h).1
        unfold b64CharToIndex at this
        repeat' split at this
        all_goals first | (simp at this; done) | (simp only [Res.err.injEq] at this; subst this; decide)
      · exact ih _ _ _ h
  unfold exfilHeadTold at h
  cases s with
  | nil => simp only [Told.err.injEq] at h; rw [← h.1]; decide
  | cons c r =>
    dsimp only at h
    rcases bind_eq_err.mp h with h | ⟨hs, _, h⟩
    · have := (tell_err h).1
      unfold hardage at this
      repeat' split at this
      all_goals first | (simp at this; done) | (simp only [Res.err.injEq] at this; subst this; decide)
    · split at h
      · simp only [Told.err.injEq] at h; rw [← h.1]; decide
      · rcases bind_eq_err.mp h with h | ⟨hd, _, h⟩
        · exact absurd (tell_err h).1 sliceStr_ne_err
        · rcases bind_eq_err.mp h with h | ⟨z, _, h⟩
          · have := (tell_err h).1
            unfold sizage at this
            split at this
            · simp at this
            · simp only [Res.err.injEq] at this; subst this; decide
          · rcases bind_eq_err.mp h with h | ⟨⟨f, n⟩, _, h⟩
            · split at h
              · split at h
                · simp only [Told.err.injEq] at h; rw [← h.1]; decide
                · split at h
                  · simp only [Told.err.injEq] at h; rw [← h.1]; decide
                  · rcases bind_eq_err.mp h with h | ⟨soft, _, h⟩
                    · exact absurd (tell_err h).1 sliceStr_ne_err
                    · rcases bind_eq_err.mp h with h | ⟨v, _, h⟩
                      · exact num _ _ _ _ _ h
                      · simp at h
              · simp at h
            · dsimp only at h
              split at h
              · simp only [Told.err.injEq] at h; rw [← h.1]; decide
              · simp at h

end Matter

theorem not_alphabet {b : UInt8} (h : sextetVal b = none) : b ∉ Spec.alphabet := by
  intro hb
  have := (mem_alphabet b).mp hb
  obtain ⟨d, hd, he⟩ := exists_encD (s := [b]) (by simpa using this)
  cases d with
  | nil => simp [encD] at he
  | cons i d =>
    simp only [encD, List.map_cons, List.cons.injEq] at he
    rw [← he.1, sextetVal_char (hd i (by simp))] at h
    simp at h

/-- C118 (decoders). When the Base64 decoder refuses the material of a qualified text, the message shows at most one symbol of the text, by its number and
position, and this symbol does not belong to the alphabet, unless there is a padding character in the text. -/
theorem C118_decode (V : Voice) {s x : Str} (h : Matter.exfilTold V s = .err .decode x) :
    (∃ o b, b ∈ s ∧ b ∉ Spec.alphabet ∧ x = lit "Invalid symbol " ++ natDec b.toNat ++ lit ", offset " ++ natDec o ++ lit ".") ∨
    ch '=' ∈ s ∧ ((∃ n, x = lit "Invalid input length: " ++ natDec n) ∨
      (∃ o b, (b ∈ s ∨ b = ch 'A') ∧ x = lit "Invalid last symbol " ++ natDec b.toNat ++ lit ", offset " ++ natDec o ++ lit ".") ∨
      x = lit "Invalid padding") := by
  unfold Matter.exfilTold at h
  rcases bind_eq_err.mp h with h | ⟨⟨hard, z, fs, size⟩, hhead, h⟩
  · exact absurd rfl (Matter.exfilHead_err h).1
  · obtain ⟨h4, hcs, hfs⟩ := Matter.exfilHead_ok hhead
    rcases Matter.exfilTail_err h with ⟨_, trim, material, htrim, hmat, hnone, hx⟩ | h
    · have ht : trim = s.take fs := by
        unfold sliceStr at htrim
        split at htrim
        · simpa using htrim.symm
        · simp at htrim
      have hm : material = (s.take fs).drop (z.hs + z.ss) := by
        unfold sliceStr at hmat
        split at hmat
        · simp only [Res.ok.injEq] at hmat
          rw [← hmat, ht, List.take_length]
        · simp at hmat
      have hmem : ∀ b ∈ material, b ∈ s := by
        intro b hb
        rw [hm] at hb
        exact List.mem_of_mem_take (List.mem_of_mem_drop hb)
      have hlen : (List.replicate ((z.hs + z.ss) % 4) (ch 'A') ++ material).length % 4 = 0 := by
        rw [List.length_append, List.length_replicate, hm, List.length_drop, List.length_take]
        omega
      have hbuf : ∀ (o : Nat) (b : UInt8), (List.replicate ((z.hs + z.ss) % 4) (ch 'A') ++ material)[o]? = some b → b ∈ s ∨ b = ch 'A' := by
        intro o b hb
        rcases List.mem_append.mp (List.mem_of_getElem? hb) with hb | hb
        · exact Or.inr (List.eq_of_mem_replicate hb)
        · exact Or.inl (hmem b hb)
      have hpad : ch '=' ∈ (List.replicate ((z.hs + z.ss) % 4) (ch 'A') ++ material) ∨
          (List.replicate ((z.hs + z.ss) % 4) (ch 'A') ++ material).length % 4 ≠ 0 → ch '=' ∈ s := by
        rintro (hb | hb)
        · rcases List.mem_append.mp hb with hb | hb
          · have := List.eq_of_mem_replicate hb
            exact absurd this (by decide)
          · exact hmem _ hb
        · exact absurd hlen hb
      have about := V.decode_about _ hnone
      generalize V.decode (List.replicate ((z.hs + z.ss) % 4) (ch 'A') ++ material) = rep at about hx
      cases rep with
      | invalidByte o b =>
        left
        refine ⟨o, b, ?_, not_alphabet about.2, hx⟩
        rcases hbuf o b about.1 with hb | hb
        · exact hb
        · rw [hb] at about
          exact absurd about.2 (by decide)
      | invalidLength n => exact Or.inr ⟨hpad about.2, Or.inl ⟨n, hx⟩⟩
      | invalidLastSymbol o b => exact Or.inr ⟨hpad about.2, Or.inr (Or.inl ⟨o, b, hbuf o b about.1, hx⟩)⟩
      | invalidPadding => exact Or.inr ⟨hpad about, Or.inr (Or.inr hx)⟩
    · exfalso
      rcases h.1 with h | h | h | h <;> simp at h

/-- C118 (UTF-8). When a qualified text given as bytes is no UTF-8, the message consists of two numbers. -/
theorem C118_utf8 (V : Voice) {s x : Str} (h : Matter.newWithQb64bTold V s = .err .utf8 x) :
    (∃ i n, x = lit "invalid utf-8 sequence of " ++ natDec n ++ lit " bytes from index " ++ natDec i) ∨
    (∃ i, x = lit "incomplete utf-8 byte sequence from index " ++ natDec i) := by
  unfold Matter.newWithQb64bTold at h
  rcases bind_eq_err.mp h with h | ⟨q, _, h⟩
  · have := (tell_err h).2
    rw [this]
    rcases V.utf8 s with ⟨i, _ | n⟩
    · exact Or.inr ⟨i, rfl⟩
    · exact Or.inl ⟨i, n, rfl⟩
  · exfalso
    unfold Matter.exfilTold at h
    rcases bind_eq_err.mp h with h | ⟨⟨hard, z, fs, size⟩, hhead, h⟩
    · exact absurd rfl (Matter.exfilHead_err h).2
    · rcases Matter.exfilTail_err h with ⟨h, _⟩ | h
      · simp at h
      · rcases h.1 with h | h | h | h <;> simp at h

/-- The model with messages is the one of the other properties. -/
theorem C118_faithful (V : Voice) (E : Env) (C : Crypto) :
    (∀ (c : Option Str) (w b : Option (List UInt8)) (q : Option Str) (n : Option (List UInt8)), (Matter.newTold V E c w b q n).plain = Matter.new E c w b q n) ∧
    (∀ m, (Matter.infilTold V E m).plain = Matter.infil E m) ∧ (∀ m, (Matter.binfilTold E m).plain = Matter.binfil E m) ∧
    (∀ r t (c : Option Str) (w b : Option (List UInt8)) (q : Option Str) (n : Option (List UInt8)),
      (Signer.newTold V E C r t c w b q n).plain = Signer.new E C r t c w b q n) ∧
    (∀ s ser r, (Signer.signUnindexedTold V E C s ser r).plain = Signer.signUnindexed E C s ser r) ∧
    (∀ rnd t (c : Option Str) (w b : Option (List UInt8)) (q : Option Str) (n : Option (List UInt8)),
      (Salter.newTold V E rnd t c w b q n).plain = Salter.new E rnd t c w b q n) ∧
    (∀ s size path tier temp, (Salter.stretchTold V C s size path tier temp).plain = Salter.stretch C s size path tier temp) ∧
    (∀ s c t path tier temp, (Salter.signerTold V E C s c t path tier temp).plain = Salter.signer E C s c t path tier temp) := by
  have hs : ∀ r t (c : Option Str) (w b : Option (List UInt8)) (q : Option Str) (n : Option (List UInt8)),
      (Signer.newTold V E C r t c w b q n).plain = Signer.new E C r t c w b q n := by
    intro r t c w b q n
    unfold Signer.newTold Signer.new
    simp only [plain_ite, plain_bind, plain_tell, Matter.newTold_plain, plain_ok, Signer.deriveVerferTold_plain]
    rfl
  have ht : ∀ s size path tier temp, (Salter.stretchTold V C s size path tier temp).plain = Salter.stretch C s size path tier temp := by
    intro s size path tier temp
    unfold Salter.stretchTold Salter.stretch stretchSaltTold
    simp only [plain_tell]
  refine ⟨Matter.newTold_plain V E, Matter.infilTold_plain V E, Matter.binfilTold_plain E, hs, ?_, ?_, ht, ?_⟩
  · intro s ser r
    unfold Signer.signUnindexedTold Signer.signUnindexed Cigar.newTold Cigar.new Sign.signTold
    simp only [plain_bind, plain_tell, Matter.newTold_plain, plain_ok]
  · intro rnd t c w b q n
    unfold Salter.newTold Salter.new
    simp only [plain_ite, plain_err, plain_bind, Matter.newTold_plain, plain_ok]
  · intro s c t path tier temp
    unfold Salter.signerTold Salter.signer Matter.rawSizeTold
    simp only [plain_bind, plain_tell, ht, hs]


/-! ## What panics say -/

namespace Matter

theorem tell_panic' {α : Type} {f : Err → Str} {p x : Str} {r : Res α} (hr : r ≠ .panic) : tell f p r ≠ .panic x := by
  intro h
  exact hr (tell_panic h).1

theorem bind_eq_panic {α β : Type} {x : Told α} {f : α → Told β} {t : Str} :
    (x >>= f) = .panic t ↔ x = .panic t ∨ ∃ a, x = .ok a ∧ f a = .panic t := by
  cases x <;> simp

theorem char_ne_panic (c : UInt8) : b64CharToIndex c ≠ .panic := by
  unfold b64CharToIndex
  repeat' split
  all_goals simp

theorem numTold_ne_panic {m : Nat} {x : Str} : ∀ (s : Str) (o : Nat), b64ToUintTold m o s ≠ .panic x
  | [], _ => by simp [b64ToUintTold]
  | c :: r, o => by
    intro h
    unfold b64ToUintTold at h
    rcases bind_eq_panic.mp h with h | ⟨i, _, h⟩
    · exact tell_panic' (char_ne_panic c) h
    · exact numTold_ne_panic r _ h

theorem told_slice_ascii {V : Voice} {s x : Str} {f : Err → Str} {a b : Nat} (ha : Ascii s) (hab : a ≤ b) (hb : b ≤ s.length) :
    tell f (V.slicing s a b) (sliceStr s a b) ≠ .panic x := by
  apply tell_panic'
  rw [sliceStr_ascii ha hab hb]
  simp

theorem hs_le_cs : ∀ p ∈ sizes, p.2.hs + p.2.ss ≤ 8 := by decide +kernel

theorem exfilHead_panic {V : Voice} {s x : Str} (ha : Ascii s) : exfilHeadTold V s ≠ .panic x := by
  intro h
  unfold exfilHeadTold at h
  cases s with
  | nil => simp at h
  | cons c r =>
    dsimp only at h
    rcases bind_eq_panic.mp h with h | ⟨hs, _, h⟩
    · exact tell_panic' (hardage_ne_panic c) h
    · split at h
      · simp at h
      · rename_i hl
        rcases bind_eq_panic.mp h with h | ⟨hard, _, h⟩
        · exact told_slice_ascii ha (by omega) (by omega) h
        · rcases bind_eq_panic.mp h with h | ⟨z, _, h⟩
          · exact tell_panic' (sizage_ne_panic hard) h
          · rcases bind_eq_panic.mp h with h | ⟨⟨fs, size⟩, _, h⟩
            · split at h
              · split at h
                · simp at h
                · split at h
                  · simp at h
                  · rcases bind_eq_panic.mp h with h | ⟨soft, _, h⟩
                    · exact told_slice_ascii ha (by omega) (by omega) h
                    · rcases bind_eq_panic.mp h with h | ⟨v, _, h⟩
                      · exact numTold_ne_panic _ _ h
                      · simp at h
              · simp at h
            · dsimp only at h
              split at h <;> simp at h

/-- The panic of an index out of range, whose message shows numbers only. -/
def Numbers (V : Voice) (x : Str) : Prop := ∃ n a b, x = V.indexing n a b

theorem told_slice_numbers {V : Voice} {v : List UInt8} {x : Str} {f : Err → Str} {n a b a' b' : Nat}
    (h : tell f (V.indexing n a b) (slice v a' b') = .panic x) : Numbers V x := ⟨n, a, b, (tell_panic h).2⟩

theorem exfilTold_panic {V : Voice} {s x : Str} (ha : Ascii s) (h : exfilTold V s = .panic x) : Numbers V x := by
  unfold exfilTold at h
  rcases bind_eq_panic.mp h with h | ⟨⟨hard, z, fs, size⟩, hhead, h⟩
  · exact absurd h (exfilHead_panic ha)
  · obtain ⟨_, hcs, hfs⟩ := exfilHead_ok hhead
    unfold exfilTailTold at h
    dsimp only at h
    rcases bind_eq_panic.mp h with h | ⟨trim, htrim, h⟩
    · exact absurd h (told_slice_ascii ha (by omega) (by omega))
    · have ht : trim = s.take fs := by
        have := tell_ok htrim
        rw [sliceStr_ascii ha (by omega) (by omega)] at this
        simpa using this.symm
      have hat : Ascii trim := by
        intro b hb
        rw [ht] at hb
        exact ha b (List.mem_of_mem_take hb)
      have hlt : z.hs + z.ss ≤ trim.length := by rw [ht, List.length_take]; omega
      rcases bind_eq_panic.mp h with h | ⟨material, _, h⟩
      · exact absurd h (told_slice_ascii hat hlt (by omega))
      · split at h
        · rcases bind_eq_panic.mp h with h | ⟨paw, _, h⟩
          · exact absurd h (tell_panic' (b64Decode_ne_panic _))
          · rcases bind_eq_panic.mp h with h | ⟨pad, _, h⟩
            · exact told_slice_numbers h
            · split at h
              · simp at h
              · rcases bind_eq_panic.mp h with h | ⟨raw, _, h⟩
                · exact told_slice_numbers h
                · simp at h
        · rcases bind_eq_panic.mp h with h | ⟨paw, _, h⟩
          · exact absurd h (tell_panic' (b64Decode_ne_panic _))
          · rcases bind_eq_panic.mp h with h | ⟨pad, _, h⟩
            · exact told_slice_numbers h
            · split at h
              · split at h <;> simp at h
              · rcases bind_eq_panic.mp h with h | ⟨raw, _, h⟩
                · exact told_slice_numbers h
                · simp at h

theorem codeB2ToB64Told_ok {E : Env} {b : List UInt8} {n : Nat} (hn : n ≤ 8) (hb : (n + 1) * 3 / 4 ≤ b.length) :
    codeB2ToB64Told E b n = .ok (encD ((sext b).take n)) := by
  unfold codeB2ToB64Told
  rw [codeB2ToB64_eq E b hn hb]
  rfl

theorem bexfilTold_panic {V : Voice} {E : Env} {b : List UInt8} {x : Str} (h : bexfilTold V E b = .panic x) : Numbers V x := by
  unfold bexfilTold at h
  rcases bind_eq_panic.mp h with h | ⟨⟨hard, z, fs, size⟩, _, h⟩
  · unfold bexfilHeadTold at h
    split at h
    · simp at h
    · rcases bind_eq_panic.mp h with h | ⟨firsts, hf, h⟩
      · exact ⟨_, _, _, (tell_panic h).2⟩
      · cases firsts with
        | nil =>
          simp only [Told.panic.injEq] at h
          exact ⟨_, _, _, h.symm⟩
        | cons first more =>
          dsimp only at h
          rcases bind_eq_panic.mp h with h | ⟨hs, hhs, h⟩
          · exact absurd h (tell_panic' (bardage_ne_panic _))
          · split at h
            · simp at h
            · rename_i hl
              have h8 : hs ≤ 4 := by
                have := tell_ok hhs
                unfold bardage at this
                repeat' split at this
                all_goals simp only [Res.ok.injEq, reduceCtorEq] at this
                all_goals omega
              rcases bind_eq_panic.mp h with h | ⟨hard, _, h⟩
              · rw [codeB2ToB64Told_ok (by omega) (by omega)] at h
                simp at h
              · rcases bind_eq_panic.mp h with h | ⟨z, hz, h⟩
                · exact absurd h (tell_panic' (sizage_ne_panic hard))
                · have hrow := hs_le_cs _ (sizage_mem (tell_ok hz))
                  dsimp only at hrow
                  rcases bind_eq_panic.mp h with h | ⟨⟨fs, size⟩, _, h⟩
                  · split at h
                    · split at h
                      · simp at h
                      · split at h
                        · simp at h
                        · rename_i hb
                          rw [codeB2ToB64Told_ok hrow (by omega)] at h
                          simp only [Told.ok_bind] at h
                          rcases bind_eq_panic.mp h with h | ⟨soft, _, h⟩
                          · refine absurd h (told_slice_ascii (ascii_encD ?_) (by omega) ?_)
                            · intro v hv
                              exact sext_lt _ _ (List.mem_of_mem_take hv)
                            · rw [encD_length, List.length_take, sext_length]
                              omega
                          · rcases bind_eq_panic.mp h with h | ⟨v, _, h⟩
                            · exact absurd h (numTold_ne_panic _ _)
                            · simp at h
                    · simp at h
                  · dsimp only at h
                    split at h <;> simp at h
  · unfold bexfilTailTold at h
    dsimp only at h
    split at h
    · split at h
      · simp only [Told.panic.injEq] at h
        exact ⟨_, _, _, h.symm⟩
      · split at h
        · simp at h
        · rcases bind_eq_panic.mp h with h | ⟨raw, _, h⟩
          · exact told_slice_numbers h
          · simp at h
    · split at h
      · split at h <;> simp at h
      · rcases bind_eq_panic.mp h with h | ⟨raw, _, h⟩
        · exact told_slice_numbers h
        · simp at h

theorem newTold_panic {V : Voice} {E : Env} {g : Given} {x : Str} (hw : g.raw = none) (hb : ∀ s, g.qb64b = some s → Ascii s)
    (hq : ∀ s, g.qb64 = some s → Ascii s) (h : newTold V E g.code g.raw g.qb64b g.qb64 g.qb2 = .panic x) : Numbers V x := by
  obtain ⟨c, w, b, q, n⟩ := g
  dsimp only at hw hb hq h
  subst hw
  unfold newTold at h
  cases b with
  | some s =>
    dsimp only at h
    unfold newWithQb64bTold at h
    rcases bind_eq_panic.mp h with h | ⟨t, ht, h⟩
    · refine absurd h (tell_panic' ?_)
      unfold fromUtf8; split <;> simp
    · have := tell_ok ht
      unfold fromUtf8 at this
      split at this
      · simp only [Res.ok.injEq] at this
        subst this
        exact exfilTold_panic (hb s rfl) h
      · simp at this
  | none =>
    cases q with
    | some s => exact exfilTold_panic (hq s rfl) h
    | none =>
      cases n with
      | some s => exact bexfilTold_panic h
      | none => simp at h

end Matter

/-- C118 (panics). When making a primitive from ASCII text or from binary panics, the message is the one of an index out of range: it consists of numbers and
does not quote the text. The same for signers. -/
theorem C118_panics (V : Voice) (E : Env) (C : Crypto) (r : Nat) (t : Option Bool) {g : Given} {x : Str} (hw : g.raw = none)
    (hb : ∀ s, g.qb64b = some s → ∀ b ∈ s, b < 128) (hq : ∀ s, g.qb64 = some s → ∀ b ∈ s, b < 128) :
    (Matter.newTold V E g.code g.raw g.qb64b g.qb64 g.qb2 = .panic x → ∃ n a b, x = V.indexing n a b) ∧
    (Signer.newTold V E C r t g.code g.raw g.qb64b g.qb64 g.qb2 = .panic x → ∃ n a b, x = V.indexing n a b) := by
  refine ⟨Matter.newTold_panic hw hb hq, ?_⟩
  intro h
  rw [Signer.newTold_eq] at h
  rcases Matter.bind_eq_panic.mp h with h | ⟨m, hm, h⟩
  · unfold Signer.seedTold at h
    split at h
    · dsimp only at h
      rcases Matter.bind_eq_panic.mp h with h | ⟨u, hu, h⟩
      · refine absurd h (Matter.tell_panic' ?_)
        unfold Signer.validateCode; split <;> simp
      · rcases Matter.bind_eq_panic.mp h with h | ⟨raw, _, h⟩
        · refine absurd h (Matter.tell_panic' ?_)
          rw [hw]
          simp only
          unfold Sign.generate
          split <;> simp
        · exfalso
          have hv := tell_ok hu
          have hp : (Matter.newTold V E (some (g.code.getD (lit "A"))) (some raw) none none none).plain = .panic := by rw [h]; rfl
          rw [Matter.newTold_plain] at hp
          have : ∃ c, g.code.getD (lit "A") = (schemeOf c).seed := by
            unfold Signer.validateCode at hv
            split at hv
            · rename_i hmem
              simp only [List.contains_eq_mem, decide_eq_true_eq, List.mem_cons, List.not_mem_nil, or_false] at hmem
              rcases hmem with h | h | h
              · exact ⟨.ed25519, h⟩
              · exact ⟨.k1, h⟩
              · exact ⟨.r1, h⟩
            · simp at hv
          obtain ⟨c, hc⟩ := this
          rw [hc] at hp
          refine fixed_ne_panic E (c := (schemeOf c).seed) (n := 32) ?_ raw hp
          cases c <;> decide +kernel
    · rcases Matter.bind_eq_panic.mp h with h | ⟨m, _, h⟩
      · exact Matter.newTold_panic hw hb hq h
      · rcases Matter.bind_eq_panic.mp h with h | ⟨u, _, h⟩
        · refine absurd h (Matter.tell_panic' ?_)
          unfold Signer.validateCode; split <;> simp
        · simp at h
  · obtain ⟨c, hc⟩ := Signer.seedTold_ok hm
    rw [hc, Signer.deriveVerferTold_eq] at h
    rcases Matter.bind_eq_panic.mp h with h | ⟨v, _, h⟩
    · rcases Matter.bind_eq_panic.mp h with h | ⟨raw, hraw, h⟩
      · exact ⟨_, _, _, (tell_panic h).2⟩
      · exfalso
        have hp : (Verfer.newTold V E (some (keyCode c (t.getD true))) (some raw) none none none).plain = .panic := by rw [h]; rfl
        rw [Signer.verferTold_plain, Verfer.new_built E c _ (Signer.publicKey_length_ok (tell_ok hraw))] at hp
        simp at hp
    · simp at h

theorem quoted (V : Voice) {code rest : Str} {c : UInt8} {n : Nat} (hc : ∃ r, code = c :: r) (hh : Matter.hardage c = .ok code.length)
    (hz : Matter.sizage code = .ok ⟨code.length, 0, 0, n⟩) (hn : n ≠ u32Max) (hl : n ≤ (code ++ rest).length) (hb : isBoundary (code ++ rest) n = false)
    (hle : code.length ≤ n) :
    ∃ a b, Matter.exfilTold V (code ++ rest) = .panic (V.slicing (code ++ rest) a b) := by
  obtain ⟨r, rfl⟩ := hc
  unfold Matter.exfilTold
  rw [List.cons_append]
  unfold Matter.exfilHeadTold Matter.hardageTold
  dsimp only
  rw [hh]
  simp only [tell, Told.ok_bind]
  rw [if_neg (by rw [← List.cons_append]; omega)]
  by_cases h1 : isBoundary (c :: (r ++ rest)) (c :: r).length = true
  · refine ⟨0, n, ?_⟩
    have hs : sliceStr (c :: (r ++ rest)) 0 (c :: r).length = .ok (c :: r) := by
      unfold sliceStr
      rw [if_pos ⟨Nat.zero_le _, by simp, isBoundary_zero _, h1⟩, ← List.cons_append, List.take_left, List.drop_zero]
    rw [hs]
    simp only [Told.ok_bind, Matter.sizageTold, hz, tell, hn, if_false]
    rw [if_neg (by rw [← List.cons_append]; omega)]
    simp only [Told.ok_bind]
    unfold Matter.exfilTailTold
    dsimp only
    have : sliceStr (c :: (r ++ rest)) 0 n = .panic := by
      unfold sliceStr
      rw [if_neg (by rw [← List.cons_append, hb]; simp)]
    rw [this]
    rfl
  · refine ⟨0, (c :: r).length, ?_⟩
    have hs : sliceStr (c :: (r ++ rest)) 0 (c :: r).length = .panic := by
      unfold sliceStr
      rw [if_neg (fun h => h1 h.2.2.2)]
    rw [hs]
    rfl

/-- C118 (defect). A panic may quote the whole seed: when a text that starts with the code of a seed is cut at its full size in the middle of a character, the
panic of the slicing quotes the text, up to 256 bytes. The same for salts. -/
theorem C118_quoted_defect (V : Voice) (E : Env) (C : Crypto) (r : Nat) (t : Option Bool) (rnd : List UInt8) (tier : Option Str) (rest : Str) :
    (43 ≤ rest.length → rest.length ≤ 255 → Spec.MidChar (lit "A" ++ rest) 44 →
      ∃ x, Signer.newTold V E C r t none none none (some (lit "A" ++ rest)) none = .panic x ∧ rest <:+: x) ∧
    (22 ≤ rest.length → rest.length ≤ 254 → Spec.MidChar (lit "0A" ++ rest) 24 →
      ∃ x, Salter.newTold V E rnd tier none none none (some (lit "0A" ++ rest)) none = .panic x ∧ rest <:+: x) := by
  have la : (lit "A" ++ rest).length = rest.length + 1 := by rw [List.length_append]; show 1 + _ = _; omega
  have l0 : (lit "0A" ++ rest).length = rest.length + 2 := by rw [List.length_append]; show 2 + _ = _; omega
  constructor
  · intro h1 h2 h3
    obtain ⟨a, b, hs⟩ := quoted V (code := lit "A") (rest := rest) (c := ch 'A') (n := 44) ⟨[], rfl⟩ rfl (by decide +kernel) (by decide) (by omega)
      ((midChar_iff (by omega) (by omega)).mpr h3) (by decide)
    refine ⟨V.slicing (lit "A" ++ rest) a b, ?_, (List.suffix_append _ _).isInfix.trans (V.slicing_quotes _ a b (by omega))⟩
    rw [Signer.newTold_eq]
    unfold Signer.seedTold
    rw [if_neg (by simp)]
    unfold Matter.newTold
    simp only [hs, Told.panic_bind]
  · intro h1 h2 h3
    obtain ⟨a, b, hs⟩ := quoted V (code := lit "0A") (rest := rest) (c := ch '0') (n := 24) ⟨[ch 'A'], rfl⟩ rfl (by decide +kernel) (by decide) (by omega)
      ((midChar_iff (by omega) (by omega)).mpr h3) (by decide)
    refine ⟨V.slicing (lit "0A" ++ rest) a b, ?_, (List.suffix_append _ _).isInfix.trans (V.slicing_quotes _ a b (by omega))⟩
    unfold Salter.newTold
    dsimp only
    rw [if_neg (by decide), if_neg (by simp)]
    unfold Matter.newTold
    simp only [hs, Told.panic_bind]

/-! ## The debugging form -/

section Debug
open Json

theorem digits_sep : ∀ {a b x y : Str}, (∀ c ∈ a, isDig c) → (∀ c ∈ b, isDig c) → (∀ c, x.head? = some c → ¬ isDig c) → (∀ c, y.head? = some c → ¬ isDig c) →
    a ++ x = b ++ y → a = b ∧ x = y
  | [], [], x, y, _, _, _, _, h => ⟨rfl, h⟩
  | [], d :: b, x, y, _, hb, hx, _, h => by
    rw [List.nil_append] at h
    exact absurd (hb d (by simp)) (hx d (by rw [h]; rfl))
  | c :: a, [], x, y, ha, _, _, hy, h => by
    rw [List.nil_append] at h
    exact absurd (ha c (by simp)) (hy c (by rw [← h]; rfl))
  | c :: a, d :: b, x, y, ha, hb, hx, hy, h => by
    simp only [List.cons_append, List.cons.injEq] at h
    obtain ⟨h1, h2⟩ := digits_sep (fun e he => ha e (by simp [he])) (fun e he => hb e (by simp [he])) hx hy h.2
    exact ⟨by rw [h.1, h1], h2⟩

theorem debugMore_head (l : List UInt8) (x : Str) : ∀ c, (debugMore l ++ x).head? = some c → ¬ isDig c := by
  intro c hc
  cases l with
  | nil =>
    obtain rfl : ch ']' = c := by simpa [debugMore, lit, ch] using hc
    unfold isDig; decide
  | cons b r =>
    obtain rfl : ch ',' = c := by simpa [debugMore, lit, ch] using hc
    unfold isDig; decide

theorem debugMore_inj : ∀ {a b : List UInt8} {x y : Str}, debugMore a ++ x = debugMore b ++ y → a = b
  | [], [], _, _, _ => rfl
  | [], b :: r, x, y, h => by simp [debugMore, lit] at h
  | a :: l, [], x, y, h => by simp [debugMore, lit] at h
  | a :: l, b :: r, x, y, h => by
    simp only [debugMore, List.append_assoc] at h
    have h := List.append_cancel_left h
    obtain ⟨h1, h2⟩ := digits_sep (natDec_digits _) (natDec_digits _) (debugMore_head l x) (debugMore_head r y) h
    have h3 : a.toNat = b.toNat := by rw [← natDec_val a.toNat, h1, natDec_val]
    rw [UInt8.toNat_inj.mp h3, debugMore_inj h2]

theorem debugBytes_inj {a b : List UInt8} {x y : Str} (h : debugBytes a ++ x = debugBytes b ++ y) : a = b := by
  have one : ∀ (b : UInt8) (r : List UInt8) (x y : Str), debugBytes [] ++ x ≠ debugBytes (b :: r) ++ y := by
    intro b r x y h
    have h : lit "[" ++ (lit "]" ++ x) = lit "[" ++ (natDec b.toNat ++ (debugMore r ++ y)) := by simpa [debugBytes, lit] using h
    have h := List.append_cancel_left h
    cases hd : natDec b.toNat with
    | nil => exact natDec_ne_nil _ hd
    | cons d ds =>
      rw [hd] at h
      have : isDig d := natDec_digits _ d (by rw [hd]; simp)
      have h1 : ch ']' = d := by
        have := congrArg List.head? h
        simpa [lit, ch] using this
      subst h1
      exact absurd this (by unfold isDig; decide)
  cases a with
  | nil =>
    cases b with
    | nil => rfl
    | cons b r => exact absurd h (one _ _ _ _)
  | cons a l =>
    cases b with
    | nil => exact absurd h.symm (one _ _ _ _)
    | cons b r =>
      simp only [debugBytes, List.append_assoc] at h
      have h := List.append_cancel_left h
      obtain ⟨h1, h2⟩ := digits_sep (natDec_digits _) (natDec_digits _) (debugMore_head l x) (debugMore_head r y) h
      have h3 : a.toNat = b.toNat := by rw [← natDec_val a.toNat, h1, natDec_val]
      rw [UInt8.toNat_inj.mp h3, debugMore_inj h2]

/-- C118 (defect). The debugging form `{:?}` of a signer or a salter shows the whole secret: it can be read off. -/
theorem C118_debug_defect (quote : Str → Str) :
    (∀ s s' : Signer, s.debug quote = s'.debug quote → s.matter.raw = s'.matter.raw) ∧ (∀ s : Signer, debugBytes s.matter.raw <:+: s.debug quote) ∧
    (∀ s s' : Salter, s.matter.code = s'.matter.code → s.debug quote = s'.debug quote → s.matter.raw = s'.matter.raw) ∧
    (∀ s : Salter, debugBytes s.matter.raw <:+: s.debug quote) := by
  refine ⟨fun s s' h => ?_, fun s => ?_, fun s s' hc h => ?_, fun s => ?_⟩
  · exact debugBytes_inj (List.append_cancel_left h)
  · exact ⟨_, _, by unfold Signer.debug; rw [List.append_assoc]⟩
  · unfold Salter.debug at h
    rw [hc] at h
    exact debugBytes_inj (List.append_cancel_left h)
  · exact ⟨_, _, by unfold Salter.debug; rw [List.append_assoc]⟩

example : ({ matter := { code := lit "A", size := 0, raw := [1, 20, 255] }, verfer := Verfer.default } : Signer).debug (fun s => lit "\"" ++ s ++ lit "\"") =
    lit "Signer { raw: [1, 20, 255], code: \"A\", size: 0, verfer: Verfer { raw: [], code: \"D\", size: 0 } }" := by decide +kernel

end Debug

/-! ## Cases -/

/-- The first symbol that does not belong to the alphabet. -/
def firstBad : Nat → Str → Option (Nat × UInt8)
  | _, [] => none
  | i, c :: r => if sextetVal c = none then some (i, c) else firstBad (i + 1) r

theorem firstBad_some : ∀ (s : Str) (i o : Nat) (b : UInt8), firstBad i s = some (o, b) → i ≤ o ∧ s[o - i]? = some b ∧ sextetVal b = none
  | [], _, _, _, h => by simp [firstBad] at h
  | c :: r, i, o, b, h => by
    unfold firstBad at h
    split at h
    · rename_i hc
      simp only [Option.some.injEq, Prod.mk.injEq] at h
      obtain ⟨rfl, rfl⟩ := h
      simp [hc]
    · obtain ⟨h1, h2, h3⟩ := firstBad_some r (i + 1) o b h
      refine ⟨by omega, ?_, h3⟩
      rw [show o - i = (o - (i + 1)) + 1 by omega, List.getElem?_cons_succ]
      exact h2

theorem firstBad_none : ∀ (s : Str) (i : Nat), firstBad i s = none → ∀ c ∈ s, sextetVal c ≠ none
  | [], _, _, c, hc => by simp at hc
  | d :: r, i, h, c, hc => by
    unfold firstBad at h
    split at h
    · simp at h
    · rename_i hd
      rcases List.mem_cons.mp hc with rfl | hc
      · exact hd
      · exact firstBad_none r _ h c hc

theorem decode_whole : ∀ (s : Str), (∀ c ∈ s, sextetVal c ≠ none) → s.length % 4 = 0 → b64DecodeOpt s ≠ none
  | [], _, _ => by simp [b64DecodeOpt]
  | [_], _, h => by simp at h
  | [_, _], _, h => by simp at h
  | [_, _, _], _, h => by simp at h
  | a :: b :: c :: d :: r, hs, hl => by
    have ha : sextetVal a ≠ none := hs a (by simp)
    have hb : sextetVal b ≠ none := hs b (by simp)
    have hc : sextetVal c ≠ none := hs c (by simp)
    have hd : sextetVal d ≠ none := hs d (by simp)
    have hq : decodeQuad a b c d ≠ none := by
      unfold decodeQuad
      cases h1 : sextetVal a <;> cases h2 : sextetVal b <;> cases h3 : sextetVal c <;> cases h4 : sextetVal d <;> simp_all
    cases r with
    | nil =>
      rw [decode_last]
      unfold decodeLastQuad
      rw [if_neg ?_]
      · exact hq
      · rintro rfl
        exact hd (by decide)
    | cons u v =>
      have := decode_whole (u :: v) (fun x hx => hs x (by simp only [List.mem_cons] at hx ⊢; tauto)) (by simp only [List.length_cons] at hl ⊢; omega)
      rw [decode_cons]
      cases h1 : decodeQuad a b c d with
      | none => exact absurd h1 hq
      | some x =>
        cases h2 : b64DecodeOpt (u :: v) with
        | none => exact absurd h2 this
        | some y => simp

/-- A voice: the decoder reports the first bad symbol or else the length, slicing quotes everything. -/
def C118_voice : Voice where
  decode s := match firstBad 0 s with
    | some (o, b) => .invalidByte o b
    | none => .invalidLength s.length
  utf8 s := (s.length, none)
  slicing s _ _ := lit "byte index is not a char boundary of `" ++ s ++ lit "`"
  indexing n _ b := lit "range end index " ++ natDec b ++ lit " out of range for slice of length " ++ natDec n
  key := lit "signature error"
  array := lit "could not convert slice to array"
  argon _ _ _ := lit "salt is too short"
  encodeSlice := lit "Output slice too small"
  overflow := lit "attempt to subtract with overflow"
  decode_about := by
    intro s h
    cases hf : firstBad 0 s with
    | some p =>
      obtain ⟨o, b⟩ := p
      obtain ⟨_, h2, h3⟩ := firstBad_some s 0 o b hf
      exact ⟨by simpa using h2, h3⟩
    | none =>
      refine ⟨Nat.le_refl _, Or.inr ?_⟩
      intro hl
      exact decode_whole s (firstBad_none s 0 hf) hl h
  slicing_quotes := by
    intro s a b _
    exact ⟨_, _, rfl⟩

/-- Two seeds, one character too short: the same message. -/
def C118_short1 : Given := ⟨none, none, none, some (lit "AAuth0rIZEdSeed00000000000000000000000000000"), none⟩
def C118_short2 : Given := ⟨none, none, none, some (lit "AZYXWVUTSRQPONMLKJIHGFEDCBA9876543210abcdef_"), none⟩
def C118_cut (g : Given) : Given := { g with qb64 := g.qb64.map List.dropLast }

example : (C118_cut C118_short1).outline = (C118_cut C118_short2).outline ∧ (C118_cut C118_short1).qb64 ≠ (C118_cut C118_short2).qb64 ∧
    Matter.newTold C118_voice Env.release none none none (C118_cut C118_short1).qb64 none =
      .err .shortage (lit "shortage: insufficient material: qb64 size = 43, fs = 44") := by
  refine ⟨?_, ?_, ?_⟩
  · simp only [Given.outline, C118_cut, C118_short1, C118_short2, Option.map_none, Option.map_some, Prod.mk.injEq, Option.some.injEq, true_and, and_true]
    decide +kernel
  · decide +kernel
  · decide +kernel
example : Matter.newTold C118_voice Env.release none none none (C118_cut C118_short2).qb64 none =
      .err .shortage (lit "shortage: insufficient material: qb64 size = 43, fs = 44") := by decide +kernel
/-- Raw material that is too short. -/
example : Matter.newTold C118_voice Env.release (some (lit "A")) (some (List.replicate 31 7)) none none none =
    .err .shortage (lit "shortage: insufficient raw material: raw size = 31, rize = 32") := by decide +kernel
/-- A bad symbol in the material. -/
example : Matter.exfilTold C118_voice (lit "AAAA%AAAAAAAAAAAAAAAAAAAAAAAAAAAAAAAAAAAAAAA") = .err .decode (lit "Invalid symbol 37, offset 4.") := by decide +kernel
/-- Padding bits that are not zero. -/
example : Matter.exfilTold C118_voice (lit "A_uth0rIZEdSeed00000000000000000000000000000") = .err .prepad (lit "prepad error") := by decide +kernel
/-- No UTF-8. -/
example : Matter.newWithQb64bTold C118_voice (lit "A" ++ [0xff]) = .err .utf8 (lit "incomplete utf-8 byte sequence from index 2") := by decide +kernel
/-- A code that is no code of a seed. -/
example (C : Crypto) (t : Option Bool) : Signer.newTold C118_voice Env.release C 0 t (some (lit "B")) (some (List.replicate 32 7)) none none none =
    .err .unexpectedCode (lit "unexpected code error: B") := by cases t <;> rfl
/-- A salter of another code. -/
example : Salter.newTold C118_voice Env.release [] none (some (lit "A")) (some (List.replicate 32 7)) none none none =
    .err .unexpectedCode (lit "unexpected code error: A") := by decide +kernel
/-- Signing with a signer of another code. -/
example (C : Crypto) : Signer.signUnindexedTold C118_voice Env.release C { matter := { code := lit "B", size := 0, raw := List.replicate 32 7 }, verfer := Verfer.default } [] 0 =
    .err .unexpectedCode (lit "unexpected code error: B") := rfl
/-- A security tier that does not exist. -/
example (C : Crypto) : Salter.stretchTold C118_voice C { matter := { code := lit "0A", size := 0, raw := List.replicate 16 7 }, tier := lit "huge" } none none none none =
    .err .value (lit "unknown security tier selected") := rfl
example (C : Crypto) : Salter.signerTold C118_voice Env.release C { matter := { code := lit "0A", size := 0, raw := List.replicate 16 7 }, tier := lit "huge" } none none none none
    none = .err .value (lit "unknown security tier selected") := by rfl
/-- Writing a primitive that holds too little. -/
example : Matter.infilTold C118_voice Env.release { code := lit "A", size := 0, raw := [1, 2, 3] } =
    .err .invalidCodeSize (lit "invalid code size: invalid code for converted raw pad size: code = 'A', pad size = 0") := by decide +kernel
example : Matter.binfilTold Env.release { code := lit "A", size := 0, raw := [1, 2, 3] } =
    .err .invalidCodeSize (lit "invalid code size: invalid code for raw size: code = 'A', raw size = 3") := by decide +kernel
/-- A text that stops short of its lead bytes: the panic shows numbers. -/
example : Matter.exfilTold C118_voice (lit "6AAA") = .panic (lit "range end index 2 out of range for slice of length 0") := by decide +kernel
/-- A seed that ends in `é` with nothing missing: the panic shows the seed. -/
example (C : Crypto) (E : Env) : ∃ x, Signer.newTold C118_voice E C 0 none none none none (some (lit "A" ++ (lit "AuthorIZEdSeed0000000000000000000000000000" ++ [0xc3, 0xa9]))) none = .panic x ∧
    lit "AuthorIZEdSeed" <:+: x := by
  obtain ⟨x, h1, h2⟩ := (C118_quoted_defect C118_voice E C 0 none [] none (lit "AuthorIZEdSeed0000000000000000000000000000" ++ [0xc3, 0xa9])).1
    (by decide +kernel) (by decide +kernel) ⟨0xa9, by decide +kernel, by decide, by decide⟩
  exact ⟨x, h1, List.IsInfix.trans ⟨[], lit "0000000000000000000000000000" ++ [0xc3, 0xa9], by decide +kernel⟩ h2⟩

end Cesride
