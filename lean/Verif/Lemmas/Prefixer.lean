import Verif.Model.Prefixer
import Verif.Props.Serder

/-! # Lemmas on prefixes -/

namespace Cesride
open Common Spec

theorem decodeQuad_length {a b c d : UInt8} {l : List UInt8} (h : decodeQuad a b c d = some l) : l.length = 3 := by
  unfold decodeQuad at h
  split at h
  · injection h with h; subst h; rfl
  · cases h

theorem decodeLastQuad_length {a b c d : UInt8} {l : List UInt8} (h : decodeLastQuad a b c d = some l) : l.length ≤ 3 := by
  unfold decodeLastQuad at h
  split at h
  · split at h
    · split at h
      · split at h
        · injection h with h; subst h; simp
        · cases h
      · cases h
    · split at h
      · split at h
        · injection h with h; subst h; simp
        · cases h
      · cases h
  · exact Nat.le_of_eq (decodeQuad_length h)

theorem decode_length_le : ∀ {s : Str} {l : List UInt8}, b64DecodeOpt s = some l → 4 * l.length ≤ 3 * s.length
  | [], _, h => by simp only [b64DecodeOpt, Option.some.injEq] at h; subst h; simp
  | [_], _, h => by simp [b64DecodeOpt] at h
  | [_, _], _, h => by simp [b64DecodeOpt] at h
  | [_, _, _], _, h => by simp [b64DecodeOpt] at h
  | [a, b, c, d], l, h => by
    rw [decode_last] at h
    have := decodeLastQuad_length h
    simp; omega
  | a :: b :: c :: d :: u :: v, l, h => by
    rw [decode_cons] at h
    split at h
    · rename_i x y hx hy
      injection h with h
      subst h
      have h1 := decodeQuad_length hx
      have h2 := decode_length_le hy
      simp only [List.length_append, List.length_cons] at h2 ⊢
      omega
    · cases h

theorem insert_comm' {o : List (Str × Value)} {k j : Str} {x y : Value} (h : j ≠ k) (hk : (o.lookup k).isSome) :
    Value.insert (Value.insert o k x) j y = Value.insert (Value.insert o j y) k x := by
  induction o with
  | nil => simp at hk
  | cons e o ih =>
    obtain ⟨k', v'⟩ := e
    by_cases h1 : k' = k
    · subst h1
      have h2 : ¬ k' = j := fun e => h e.symm
      simp [Value.insert, h2]
    · by_cases h2 : k' = j
      · subst h2
        simp [Value.insert, h1]
      · simp only [Value.insert, if_neg h1, if_neg h2]
        rw [List.lookup_cons] at hk
        have e1 : (k == k') = false := by simp; exact fun e => h1 e.symm
        rw [e1] at hk
        rw [ih hk]

/-- A primitive of a fixed code that was read and is rebuilt from its code and raw is the same, and has a text. -/
theorem Matter.rebuild {s : Str} {m p : Matter} {z : Sizage} (h : Matter.exfil s = .ok m) (hz : Matter.sizage m.code = .ok z) (hf : z.fs ≠ u32Max)
    (hp : Matter.newWithCodeAndRaw m.code m.raw = .ok p) : p = m ∧ Matter.Wf m z := by
  obtain ⟨z', paw, hz', hcode, hvar, hfix, hT, hdec, hpz, hlz, hpl, hraw⟩ := exfil_ok h
  rw [hz] at hz'
  injection hz' with hz'
  subst hz'
  have r := row_of_sizage hz
  rw [Matter.new_fixed hz hf] at hp
  split at hp
  · cases hp
  · rename_i hlen
    injection hp with hp
    have hd := decode_length_le hdec
    have htot : Matter.total m z = z.fs := by simp [Matter.total, hf]
    rw [htot] at hd hT
    have hl : m.raw.length = paw.length - ((z.hs + z.ss) % 4 + z.ls) := by rw [hraw, List.length_drop]
    have hl2 : m.raw.length ≤ (z.fs - (z.hs + z.ss)) * 3 / 4 - z.ls := by
      simp only [List.length_append, List.length_replicate, List.length_drop, List.length_take, Nat.min_eq_left hT] at hd
      omega
    have hs := hfix hf
    have w : Matter.Wf m z := ⟨hz, fun e => absurd e hf, fun _ => ⟨hs, by omega⟩⟩
    refine ⟨?_, w⟩
    rw [List.take_of_length_le hl2] at hp
    rw [← hp]
    cases m
    simp only at hs
    subst hs
    rfl

namespace Prefixer

/-- The rows of the codes for keys and digests. -/
theorem code_row {code : Str} (h : code ∈ nontransferableCodes ++ transferableCodes ++ digestCodes) : ∃ z, Matter.sizage code = .ok z ∧ z.fs ≠ u32Max := by
  have : ∀ c ∈ nontransferableCodes ++ transferableCodes ++ digestCodes, ∃ z ∈ Matter.sizes.map Prod.snd, Matter.sizage c = .ok z ∧ z.fs ≠ u32Max := by
    decide +kernel
  obtain ⟨z, _, h⟩ := this code h
  exact ⟨z, h⟩

theorem digestCodes_iff {code : Str} : code ∈ digestCodes ↔ ∃ n, (code, n) ∈ digestSizes := by
  constructor
  · have : ∀ c ∈ digestCodes, ∃ n ∈ [32, 64], (c, n) ∈ digestSizes := by decide +kernel
    intro h
    obtain ⟨n, _, h⟩ := this code h
    exact ⟨n, h⟩
  · rintro ⟨n, h⟩
    have : ∀ e ∈ digestSizes, e.1 ∈ digestCodes := by decide +kernel
    exact this _ h

theorem theKey_ok {E : Env} {ked : Value} {m : Matter} : theKey E ked = .ok m ↔
    ∃ o t, ked = .obj o ∧ o.lookup (lit "k") = some (.arr [.str t]) ∧ Matter.ofText E t = .ok m ∧ m.code ∈ verferCodes := by
  unfold theKey
  constructor
  · intro h
    obtain ⟨o, ho, h1⟩ := Res.bind_eq_ok.mp h
    clear h
    cases ked <;> simp only [Value.toMap, reduceCtorEq] at ho
    injection ho with ho
    subst ho
    rename_i o
    split at h1
    · obtain ⟨k, hk, h2⟩ := Res.bind_eq_ok.mp h1
      clear h1
      obtain ⟨keys, hkeys, h3⟩ := Res.bind_eq_ok.mp h2
      clear h2
      obtain ⟨o', e, hl⟩ := Sadder.index_ok.mp hk
      injection e with e
      subst e
      cases k with
      | arr a =>
        simp only [Value.toVec, Res.ok.injEq] at hkeys
        subst hkeys
        split at h3
        · cases h3
        · rename_i hlen
          match a, hlen with
          | [v], _ =>
            have e : (Value.arr [v]).indexNat 0 = .ok v := rfl
            rw [e, Res.ok_bind] at h3
            obtain ⟨t, ht, h4⟩ := Res.bind_eq_ok.mp h3
            rw [Sadder.toStr_ok] at ht
            subst ht
            obtain ⟨h5, h6⟩ := Verfer.text_ok.mp h4
            exact ⟨o, t, rfl, hl, h5, h6⟩
          | [], hlen => simp at hlen
          | _ :: _ :: _, hlen => simp at hlen
      | _ => simp [Value.toVec] at hkeys
    · cases h1
  · rintro ⟨o, t, rfl, hl, h1, h2⟩
    have hi : (Value.obj o).index (lit "k") = .ok (.arr [.str t]) := Sadder.index_ok.mpr ⟨o, rfl, hl⟩
    have hm : (Value.obj o).toMap = .ok o := rfl
    have h0 : (Value.arr [Value.str t]).indexNat 0 = .ok (.str t) := rfl
    simp only [hm, Res.ok_bind, hasKey_some hl, if_true, hi, Value.toVec, List.length_singleton, ne_eq, not_true, if_false, h0, Value.toStr]
    exact Verfer.text_ok.mpr ⟨h1, h2⟩

theorem refuseField_ok {o : List (Str × Value)} {label : Str} {u : Unit} : refuseField (.obj o) label = .ok u ↔
    o.lookup label = none ∨ o.lookup label = some (.str []) := by
  unfold refuseField
  have hm : (Value.obj o).toMap = .ok o := rfl
  rw [hm, Res.ok_bind]
  cases hl : o.lookup label with
  | none => simp [hasKey_none hl]
  | some x =>
    rw [hasKey_some hl, Sadder.index_ok.mpr ⟨o, rfl, hl⟩]
    cases x <;> simp [Value.toStr]

theorem validateCode_ok {code : Str} {u : Unit} : validateCode code = .ok u ↔ code ∈ nontransferableCodes ++ transferableCodes ++ digestCodes := by
  unfold validateCode
  rw [show [lit "B", lit "1AAA", lit "1AAI", lit "D", lit "1AAB", lit "1AAJ", lit "E", lit "0D", lit "F", lit "0E", lit "G", lit "H", lit "0F", lit "I",
      lit "0G"] = nontransferableCodes ++ transferableCodes ++ digestCodes from rfl]
  split
  · rename_i h; simp only [List.contains_iff_mem] at h; simp only [true_iff]; exact h
  · rename_i h; simp only [List.contains_iff_mem] at h; simp only [false_iff, reduceCtorEq]; exact h

theorem deriveDigest_ok {H : Hash} {ked : Value} {code : Str} {n : Nat} {z : Sizage} (hc : (code, n) ∈ digestSizes) (hz : Matter.sizage code = .ok z) {d : List UInt8} {c : Str} :
    deriveDigest H ked code = .ok (d, c) ↔ ∃ o r, ked = .obj o ∧ c = code ∧
      sizeify (.obj (Value.insert (Value.insert o (lit "i") (Saider.dummy z.fs)) (lit "d") (Saider.dummy z.fs))) none = .ok r ∧ d = H.digest code r.raw := by
  unfold deriveDigest
  rw [hz, Res.ok_bind]
  cases ked with
  | obj o =>
    have h1 : ∀ (o : List (Str × Value)) k x, (Value.obj o).set k x = .ok (.obj (Value.insert o k x)) := fun _ _ _ => rfl
    simp only [h1, Res.ok_bind, hashDigest_eq hc]
    constructor
    · intro h
      obtain ⟨r, hr, h⟩ := Res.bind_eq_ok.mp h
      simp only [Res.ok.injEq, Prod.mk.injEq] at h
      exact ⟨o, r, rfl, h.2.symm, hr, h.1.symm⟩
    · rintro ⟨o', r, e, rfl, hr, rfl⟩
      injection e with e
      subst e
      rw [hr]; rfl
  | _ =>
    constructor
    · intro h; cases h
    · rintro ⟨o, r, e, _⟩; cases e

theorem deriveDigest_panic {H : Hash} {ked : Value} {code : Str} {n : Nat} (hc : (code, n) ∈ digestSizes) :
    deriveDigest H ked code = .panic ↔ ∀ o, ked ≠ .obj o := by
  obtain ⟨z, hz, _⟩ := digest_row hc
  unfold deriveDigest
  rw [hz, Res.ok_bind]
  cases ked with
  | obj o =>
    have h1 : ∀ (o : List (Str × Value)) k x, (Value.obj o).set k x = .ok (.obj (Value.insert o k x)) := fun _ _ _ => rfl
    simp only [h1, Res.ok_bind, hashDigest_eq hc]
    constructor
    · intro h
      rcases Res.bind_eq_panic.mp h with h | ⟨r, _, h⟩
      · exact absurd h (sizeify_ne_panic _ _)
      · cases h
    · intro h; exact absurd rfl (h o)
  | _ => simp [Value.set]

/-- The event type. -/
theorem ilk_ok {α : Type} {ked : Value} {f : Res α} {r : α} : (do
      let t ← ked.index (lit "t")
      let ilk ← t.toStr
      if !ilks.contains ilk then .err .value else f) = .ok r ↔
    ∃ o ilk, ked = .obj o ∧ o.lookup (lit "t") = some (.str ilk) ∧ ilk ∈ ilks ∧ f = .ok r := by
  constructor
  · intro h
    obtain ⟨t, ht, h1⟩ := Res.bind_eq_ok.mp h
    clear h
    obtain ⟨ilk, hi, h⟩ := Res.bind_eq_ok.mp h1
    clear h1
    obtain ⟨o, e, hl⟩ := Sadder.index_ok.mp ht
    rw [Sadder.toStr_ok] at hi
    subst hi
    split at h
    · cases h
    · rename_i hc
      simp only [Bool.not_eq_true', Bool.not_eq_false] at hc
      exact ⟨o, ilk, e, hl, List.contains_iff_mem.mp hc, h⟩
  · rintro ⟨o, ilk, rfl, hl, hi, h⟩
    rw [Sadder.index_ok.mpr ⟨o, rfl, hl⟩, Res.ok_bind, Sadder.toStr_ok.mpr rfl, Res.ok_bind, List.contains_iff_mem.mpr hi]
    exact h

theorem derive_eq {E : Env} {H : Hash} {ked : Value} {code : Str} {d : List UInt8} {c : Str} : derive E H ked code = .ok (d, c) ↔
    ∃ o ilk, ked = .obj o ∧ o.lookup (lit "t") = some (.str ilk) ∧ ilk ∈ ilks ∧
      ((code ∈ nontransferableCodes ∧ deriveNontransferable E ked code = .ok (d, c)) ∨
       (code ∈ transferableCodes ∧ deriveTransferable E ked code = .ok (d, c)) ∨
       (code ∈ digestCodes ∧ deriveDigest H ked code = .ok (d, c))) := by
  unfold derive
  rw [ilk_ok]
  refine exists_congr fun o => exists_congr fun ilk => and_congr Iff.rfl (and_congr Iff.rfl (and_congr Iff.rfl ?_))
  have h12 : ∀ c ∈ nontransferableCodes, c ∉ transferableCodes ∧ c ∉ digestCodes := by decide +kernel
  have h23 : ∀ c ∈ transferableCodes, c ∉ nontransferableCodes ∧ c ∉ digestCodes := by decide +kernel
  have h3 : ∀ c ∈ digestCodes, c ∉ nontransferableCodes ∧ c ∉ transferableCodes := by decide +kernel
  by_cases h1 : code ∈ nontransferableCodes
  · simp [h1, h12 _ h1]
  · by_cases h2 : code ∈ transferableCodes
    · simp [h2, h23 _ h2]
    · by_cases h4 : code ∈ digestCodes
      · simp [h1, h2, h4]
      · simp [h1, h2, h4]

theorem verify_eq {E : Env} {H : Hash} {p : Matter} {t : Str} (ht : p.qb64 E = .ok t) {ked : Value} {prefixed : Option Bool} {b : Bool} :
    verify E H p ked prefixed = .ok b ↔
    ∃ o ilk, ked = .obj o ∧ o.lookup (lit "t") = some (.str ilk) ∧ ilk ∈ ilks ∧
      ((p.code ∈ nontransferableCodes ∧ verifyNontransferable ked t (prefixed.getD false) = .ok b) ∨
       (p.code ∈ transferableCodes ∧ verifyTransferable ked t (prefixed.getD false) = .ok b) ∨
       (p.code ∈ digestCodes ∧ verifyDigest E H ked t (prefixed.getD false) p.code = .ok b)) := by
  unfold verify
  dsimp only
  rw [ilk_ok]
  refine exists_congr fun o => exists_congr fun ilk => and_congr Iff.rfl (and_congr Iff.rfl (and_congr Iff.rfl ?_))
  have h12 : ∀ c ∈ nontransferableCodes, c ∉ transferableCodes ∧ c ∉ digestCodes := by decide +kernel
  have h23 : ∀ c ∈ transferableCodes, c ∉ nontransferableCodes ∧ c ∉ digestCodes := by decide +kernel
  by_cases h1 : p.code ∈ nontransferableCodes
  · simp [h1, h12 _ h1, ht]
  · by_cases h2 : p.code ∈ transferableCodes
    · simp [h2, h23 _ h2, ht]
    · by_cases h4 : p.code ∈ digestCodes
      · simp [h1, h2, h4, ht]
      · simp [h1, h2, h4]

theorem prefixMismatch_false {o : List (Str × Value)} {t : Str} {b : Bool} :
    prefixMismatch (.obj o) t b = .ok false ↔ (b = true → o.lookup (lit "i") = some (.str t)) := by
  unfold prefixMismatch
  cases b with
  | false => simp
  | true =>
    have hm : (Value.obj o).toMap = .ok o := rfl
    simp only [hm, Res.ok_bind, if_true, forall_const]
    cases hl : o.lookup (lit "i") with
    | none => simp [hasKey_none hl]
    | some x =>
      rw [hasKey_some hl, Sadder.index_ok.mpr ⟨o, rfl, hl⟩]
      cases x <;> simp [Value.toStr]

theorem prefixMismatch_ne_panic {o : List (Str × Value)} {t : Str} {b : Bool} : prefixMismatch (.obj o) t b ≠ .panic := by
  unfold prefixMismatch
  cases b with
  | false => simp
  | true =>
    have hm : (Value.obj o).toMap = .ok o := rfl
    simp only [hm, Res.ok_bind, if_true]
    cases hl : o.lookup (lit "i") with
    | none => simp [hasKey_none hl]
    | some x =>
      rw [hasKey_some hl, Sadder.index_ok.mpr ⟨o, rfl, hl⟩]
      cases x <;> simp [Value.toStr]

theorem verifyTransferable_true {o : List (Str × Value)} {t : Str} {b : Bool} :
    verifyTransferable (.obj o) t b = .ok true ↔ o.lookup (lit "k") = some (.arr [.str t]) ∧ (b = true → o.lookup (lit "i") = some (.str t)) := by
  unfold verifyTransferable
  have hm : (Value.obj o).toMap = .ok o := rfl
  rw [hm, Res.ok_bind]
  cases hl : o.lookup (lit "k") with
  | none => simp [hasKey_none hl]
  | some x =>
    rw [hasKey_some hl, Sadder.index_ok.mpr ⟨o, rfl, hl⟩]
    cases x with
    | arr a =>
      match a with
      | [] => simp [Value.toVec]
      | [v] =>
        have h0 : (Value.arr [v]).indexNat 0 = .ok v := rfl
        cases v with
        | str s =>
          simp only [Bool.not_true, Bool.false_eq_true, if_false, Res.ok_bind, Value.toVec, List.length_singleton, ne_eq, h0, Value.toStr, ite_not,
            Option.some.injEq, Value.arr.injEq, List.cons.injEq, Value.str.injEq, and_true]
          by_cases hs : s = t
          · subst hs
            rw [if_pos rfl, ← prefixMismatch_false]
            cases prefixMismatch (.obj o) s b with
            | panic => simp
            | err e => simp
            | ok x => cases x <;> simp
          · simp [hs]
        | _ => simp [Value.toVec, h0, Value.toStr]
      | _ :: _ :: _ => simp [Value.toVec]
    | _ => simp [Value.toVec]

theorem verifyNontransferable_true {o : List (Str × Value)} {t : Str} {b : Bool} :
    verifyNontransferable (.obj o) t b = .ok true ↔ o.lookup (lit "k") = some (.arr [.str t]) ∧ (b = true → o.lookup (lit "i") = some (.str t)) ∧
      (∀ a, o.lookup (lit "n") = some (.arr a) → a = []) ∧ (∀ s, o.lookup (lit "n") = some (.str s) → s = []) := by
  unfold verifyNontransferable
  have hm : (Value.obj o).toMap = .ok o := rfl
  rw [hm, Res.ok_bind]
  cases hl : o.lookup (lit "k") with
  | none => simp [hasKey_none hl]
  | some x =>
    rw [hasKey_some hl, Sadder.index_ok.mpr ⟨o, rfl, hl⟩]
    cases x with
    | arr a =>
      match a with
      | [] => simp [Value.toVec]
      | [v] =>
        have h0 : (Value.arr [v]).indexNat 0 = .ok v := rfl
        cases v with
        | str s =>
          simp only [Bool.not_true, Bool.false_eq_true, if_false, Res.ok_bind, Value.toVec, List.length_singleton, ne_eq, h0, Value.toStr, ite_not,
            Option.some.injEq, Value.arr.injEq, List.cons.injEq, Value.str.injEq, and_true]
          by_cases hs : s = t
          · subst hs
            rw [if_pos rfl, ← prefixMismatch_false]
            cases prefixMismatch (.obj o) s b with
            | panic => simp
            | err e => simp
            | ok x =>
              cases x
              · cases hn : o.lookup (lit "n") with
                | none => simp [hasKey_none hn]
                | some y =>
                  rw [hasKey_some hn, Sadder.index_ok.mpr ⟨o, rfl, hn⟩]
                  cases y <;> simp
              · simp
          · simp [hs]
        | _ => simp [Value.toVec, h0, Value.toStr]
      | _ :: _ :: _ => simp [Value.toVec]
    | _ => simp [Value.toVec]

theorem verifyDigest_true {E : Env} {H : Hash} {p : Matter} {z : Sizage} (w : Matter.Wf p z) {t : Str} (ht : p.qb64 E = .ok t) {n : Nat}
    (hc : (p.code, n) ∈ digestSizes) {o : List (Str × Value)} {b : Bool} :
    verifyDigest E H (.obj o) t b p.code = .ok true ↔
      (∃ r, sizeify (.obj (Value.insert (Value.insert o (lit "i") (Saider.dummy z.fs)) (lit "d") (Saider.dummy z.fs))) none = .ok r ∧
        p.raw = H.digest p.code r.raw) ∧ (b = true → o.lookup (lit "i") = some (.str t)) := by
  unfold verifyDigest
  have hval : validateDigestCode p.code = .ok () := validateDigestCode_ok.mpr ⟨n, hc⟩
  have hsz : p.size = 0 := by
    obtain ⟨z', hz', hf, _⟩ := digest_row hc
    rw [w.szg] at hz'
    injection hz' with hz'
    subst hz'
    exact (w.fix hf).1
  constructor
  · intro h
    obtain ⟨⟨d, c⟩, hd, h⟩ := Res.bind_eq_ok.mp h
    obtain ⟨o', r, e, rfl, hr, rfl⟩ := (deriveDigest_ok hc w.szg).mp hd
    injection e with e
    subst e
    obtain ⟨z2, t2, hnew, w2, hq2⟩ := digest_matter E H hc r.raw
    have hdn : Diger.new E H none (some p.code) (some (H.digest p.code r.raw)) none none none = .ok ⟨p.code, 0, H.digest p.code r.raw⟩ := by
      unfold Diger.new
      rw [hnew]
      simp [hval]
    simp only [hdn, Res.ok_bind, hq2] at h
    split at h
    · cases h
    · rename_i htt
      simp only [ne_eq, Decidable.not_not] at htt
      subst htt
      have hpe : p = ⟨p.code, 0, H.digest p.code r.raw⟩ := Matter.Wf.text_inj w w2 (by rw [ht, hq2])
      obtain ⟨_, _, h⟩ := Res.bind_eq_ok.mp h
      obtain ⟨x, hx, h⟩ := Res.bind_eq_ok.mp h
      cases x with
      | true => simp at h
      | false =>
        rw [prefixMismatch_false] at hx
        exact ⟨⟨r, hr, by rw [hpe]⟩, hx⟩
  · rintro ⟨⟨r, hr, hraw⟩, hi⟩
    obtain ⟨z2, t2, hnew, w2, hq2⟩ := digest_matter E H hc r.raw
    have hdn : Diger.new E H none (some p.code) (some (H.digest p.code r.raw)) none none none = .ok ⟨p.code, 0, H.digest p.code r.raw⟩ := by
      unfold Diger.new
      rw [hnew]
      simp [hval]
    rw [(deriveDigest_ok hc w.szg).mpr ⟨o, r, rfl, rfl, hr, rfl⟩]
    have hpe : p = ⟨p.code, 0, H.digest p.code r.raw⟩ := by cases p; simp_all
    have htt : t2 = t := by
      rw [← hpe, ht] at hq2
      injection hq2 with hq2; exact hq2.symm
    subst htt
    have hm : (Value.obj o).toMap = .ok o := rfl
    simp only [hdn, Res.ok_bind, hq2, ne_eq, not_true, if_false, hm, prefixMismatch_false.mpr hi]
    rfl

end Prefixer
end Cesride
