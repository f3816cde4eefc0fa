import Verif.Model.Sadder
import Verif.Lemmas.Sniff
import Verif.Props.Saider2

/-! # Lemmas on messages (`Sadder`) -/

namespace Cesride
open Common Spec

namespace Matter

/-- A text that was read and can be written again starts with what is written. -/
theorem exfil_text {E : Env} {s t : Str} {m : Matter} (h : Matter.exfil s = .ok m) (ht : m.infil E = .ok t) : ∃ rest, s = t ++ rest := by
  obtain ⟨z, w⟩ := exfil_wf h ht
  have e : t = text m z := by
    have := w.infil E
    rw [ht] at this
    injection this
  have h2 : Matter.exfil (text m z) = .ok m := by
    have := w.exfil (rest := []) rfl
    simpa using this
  have hn : m.fullSize = .ok (total m z) := by
    simp only [Matter.fullSize, w.szg, Res.ok_bind]
    unfold total
    by_cases hf : z.fs = u32Max
    · simp only [hf, ne_eq, not_true, if_false, if_true]; rw [Nat.add_comm]
    · simp only [hf, ne_eq, not_false_iff, if_false, if_true]
  have := exfil_inj h h2 hn
  rw [show (text m z).take (total m z) = text m z by rw [← w.text_length, List.take_length], ← e] at this
  exact ⟨s.drop (total m z), by rw [← this, List.take_append_drop]⟩

end Matter

namespace Sadder

theorem toStr_ok {v : Value} {t : Str} : v.toStr = .ok t ↔ v = .str t := by
  cases v <;> simp [Value.toStr]

theorem index_ok {v x : Value} {k : Str} : v.index k = .ok x ↔ ∃ o, v = .obj o ∧ o.lookup k = some x := by
  cases v with
  | obj o =>
    rw [Value.index]
    cases h : o.lookup k with
    | none => simp [h]
    | some y => simp [h]
  | _ => simp [Value.index]

theorem index_panic {v : Value} {k : Str} : v.index k = .panic ↔ (∀ o, v ≠ .obj o) ∨ ∃ o, v = .obj o ∧ k ∉ o.map Prod.fst := by
  cases v with
  | obj o =>
    rw [Saider.index_panic]
    constructor
    · intro h
      exact .inr ⟨o, rfl, h⟩
    · rintro (h | ⟨o', e, h⟩)
      · exact absurd rfl (h o)
      · injection e with e
        subst e
        exact h
  | _ => simp [Value.index]

theorem saider_qb64 (E : Env) (H : Hash) (t : Str) : Saider.new E H none none none none none none none (some t) none =
    (do let m ← Matter.exfil t; validateDigestCode m.code; .ok m) := rfl

theorem saiderOf_ok {E : Env} {H : Hash} {ked : Value} {m : Matter} : saiderOf E H ked = .ok m ↔
    ∃ o t n, ked = .obj o ∧ o.lookup (lit "d") = some (.str t) ∧ Matter.exfil t = .ok m ∧ (m.code, n) ∈ digestSizes := by
  unfold saiderOf
  simp only [saider_qb64]
  constructor
  · intro h
    obtain ⟨d, hd', h1⟩ := Res.bind_eq_ok.mp h
    clear h
    obtain ⟨o, rfl, hd⟩ := index_ok.mp hd'
    obtain ⟨t, ht, h⟩ := Res.bind_eq_ok.mp h1
    have := toStr_ok.mp ht
    subst this
    obtain ⟨m', hm, h⟩ := Res.bind_eq_ok.mp h
    obtain ⟨u, hu, h⟩ := Res.bind_eq_ok.mp h
    injection h with h
    subst h
    obtain ⟨n, hn⟩ := validateDigestCode_ok.mp hu
    exact ⟨o, t, n, rfl, hd, hm, hn⟩
  · rintro ⟨o, t, n, rfl, hd, hm, hn⟩
    have hval : validateDigestCode m.code = .ok () := validateDigestCode_ok.mpr ⟨n, hn⟩
    rw [index_ok.mpr ⟨o, rfl, hd⟩, Res.ok_bind, toStr_ok.mpr rfl, Res.ok_bind, hm, Res.ok_bind, hval]
    rfl

theorem saiderOf_panic {E : Env} {H : Hash} {ked : Value} : saiderOf E H ked = .panic ↔
    (∀ o, ked ≠ .obj o) ∨ (∃ o, ked = .obj o ∧ lit "d" ∉ o.map Prod.fst) ∨
    ∃ o t, ked = .obj o ∧ o.lookup (lit "d") = some (.str t) ∧ Matter.exfil t = .panic := by
  unfold saiderOf
  simp only [saider_qb64]
  constructor
  · intro h
    rcases Res.bind_eq_panic.mp h with h | ⟨d, hd, h⟩
    · rcases index_panic.mp h with h | h
      · exact .inl h
      · exact .inr (.inl h)
    have h1 := h
    clear h
    obtain ⟨o, rfl, hd'⟩ := index_ok.mp hd
    rcases Res.bind_eq_panic.mp h1 with h | ⟨t, ht, h⟩
    · exact absurd h (Saider.toStr_ne_panic d)
    have := toStr_ok.mp ht
    subst this
    rcases Res.bind_eq_panic.mp h with h | ⟨m', hm, h⟩
    · exact .inr (.inr ⟨o, t, rfl, hd', h⟩)
    rcases Res.bind_eq_panic.mp h with h | ⟨u, hu, h⟩
    · exact absurd h (validateDigestCode_ne_panic _)
    · cases h
  · rintro (h | h | ⟨o, t, rfl, hd, hm⟩)
    · rw [index_panic.mpr (.inl h)]; rfl
    · rw [index_panic.mpr (.inr h)]; rfl
    · rw [index_ok.mpr ⟨o, rfl, hd⟩, Res.ok_bind, toStr_ok.mpr rfl, Res.ok_bind, hm]
      rfl

theorem loads_json (F : Str → Option Str) (raw : List UInt8) (n : Nat) : loads F raw (some n) (some (lit "JSON")) =
    if n ≤ raw.length then (if utf8Valid (raw.take n) then Json.fromStr F (raw.take n) else .err .utf8) else .panic := by
  unfold loads
  rw [if_pos (show (some (lit "JSON")).getD (lit "JSON") = lit "JSON" from rfl)]
  dsimp only
  unfold slice
  by_cases h : n ≤ raw.length
  · rw [if_pos ⟨Nat.zero_le _, h⟩, if_pos h, Res.ok_bind, List.drop_zero, fromUtf8]
    split <;> rfl
  · rw [if_neg (by omega), if_neg h]
    rfl

/-- From a map. -/
theorem new_ked_ok {E : Env} {F : Str → Option Str} {H : Hash} {dflt s : Sadder} {code kind : Option Str} {ked : Value} {sad : Option Sadder} :
    new E F H dflt code none kind (some ked) sad = .ok s ↔
    ∃ r m, sizeify ked kind = .ok r ∧ saiderOf E H r.ked = .ok m ∧ m.code = code.getD (lit "E") ∧
      s = { code := code.getD (lit "E"), raw := r.raw, ked := r.ked, ident := r.ident, kind := r.kind, size := r.raw.length % 2 ^ 32, version := r.version, saider := m } := by
  unfold new populateFromKed setSaider
  dsimp only
  cases hr : sizeify ked kind with
  | panic => simp
  | err e => simp
  | ok r =>
    dsimp only
    cases hm : saiderOf E H r.ked with
    | panic => simp [hm]
    | err e => simp [hm]
    | ok m =>
      dsimp only
      by_cases hc : code.getD (lit "E") = m.code
      · rw [if_neg (by simp [hc]), Res.ok_bind]
        constructor
        · intro h
          injection h with h
          exact ⟨r, m, rfl, hm, hc.symm, h.symm⟩
        · rintro ⟨r', m', e, hm', _, rfl⟩
          injection e with e
          subst e
          rw [hm] at hm'
          injection hm' with hm'
          subst hm'
          rfl
      · rw [if_pos (by simp [hc])]
        constructor
        · intro h; cases h
        · rintro ⟨r', m', e, hm', h, _⟩
          injection e with e
          subst e
          rw [hm] at hm'
          injection hm' with hm'
          subst hm'
          exact absurd h.symm hc

/-- From bytes. -/
theorem new_raw_ok {E : Env} {F : Str → Option Str} {H : Hash} {dflt s : Sadder} {code kind : Option Str} {raw : List UInt8} {ked : Option Value} {sad : Option Sadder} :
    new E F H dflt code (some raw) kind ked sad = .ok s ↔
    ∃ v k m, sniff raw = .ok v ∧ v.version = currentVersion ∧ v.size ≤ raw.length ∧ utf8Valid (raw.take v.size) = true ∧
      Json.fromStr F (raw.take v.size) = .ok k ∧ saiderOf E H k = .ok m ∧ m.code = code.getD (lit "E") ∧
      s = { code := code.getD (lit "E"), raw := raw.take v.size, ked := k, ident := v.ident, kind := v.kind, size := v.size, version := v.version, saider := m } := by
  unfold new populateFromRaw inhale setSaider
  dsimp only
  cases hv : sniff raw with
  | panic => simp
  | err e => simp
  | ok v =>
    have hk : v.kind = lit "JSON" := by
      obtain ⟨_, _, _, _, _, _, _, _, h⟩ := sniff_iff.mp hv
      exact h
    simp only [Res.ok_bind]
    rw [hk, loads_json]
    by_cases hver : v.version = currentVersion
    case neg => simp [hver]
    rw [if_neg (by simp [hver])]
    by_cases hl : v.size ≤ raw.length
    case neg =>
      rw [if_neg hl]
      simp [hl]
    rw [if_pos hl]
    by_cases hu : utf8Valid (raw.take v.size) = true
    case neg =>
      rw [if_neg hu]
      simp [hu]
    rw [if_pos hu]
    cases hj : Json.fromStr F (raw.take v.size) with
    | panic => simp [hj]
    | err e => simp [hj]
    | ok k =>
      simp only [Res.ok_bind, slice, Nat.zero_le, true_and, if_pos hl, List.drop_zero]
      cases hm : saiderOf E H k with
      | panic => simp [hm, hj]
      | err e => simp [hm, hj]
      | ok m =>
        dsimp only
        by_cases hc : code.getD (lit "E") = m.code
        · rw [if_neg (by simp [hc]), Res.ok_bind]
          constructor
          · intro h
            injection h with h
            refine ⟨v, k, m, rfl, hver, hl, hu, hj, hm, hc.symm, ?_⟩
            exact h.symm
          · rintro ⟨v', k', m', e, _, _, _, hj', hm', _, rfl⟩
            injection e with e
            subst e
            rw [hj] at hj'
            injection hj' with hj'
            subst hj'
            rw [hm] at hm'
            injection hm' with hm'
            subst hm'
            rw [hk]
        · rw [if_pos (by simp [hc])]
          constructor
          · intro h; cases h
          · rintro ⟨v', k', m', e, _, _, _, hj', hm', h, _⟩
            injection e with e
            subst e
            rw [hj] at hj'
            injection hj' with hj'
            subst hj'
            rw [hm] at hm'
            injection hm' with hm'
            subst hm'
            exact absurd h.symm hc

/-- When reading a message from bytes panics. -/
theorem new_raw_panic {E : Env} {F : Str → Option Str} {H : Hash} {dflt : Sadder} {code kind : Option Str} {raw : List UInt8} {ked : Option Value} {sad : Option Sadder} :
    new E F H dflt code (some raw) kind ked sad = .panic ↔
    ∃ v, sniff raw = .ok v ∧ v.version = currentVersion ∧ (raw.length < v.size ∨
      (v.size ≤ raw.length ∧ utf8Valid (raw.take v.size) = true ∧ (Json.fromStr F (raw.take v.size) = .panic ∨
        ∃ k, Json.fromStr F (raw.take v.size) = .ok k ∧ saiderOf E H k = .panic))) := by
  unfold new populateFromRaw inhale setSaider
  dsimp only
  cases hv : sniff raw with
  | panic => exact absurd hv (sniff_ne_panic raw)
  | err e => simp
  | ok v =>
    have hk : v.kind = lit "JSON" := by
      obtain ⟨_, _, _, _, _, _, _, _, h⟩ := sniff_iff.mp hv
      exact h
    simp only [Res.ok_bind]
    rw [hk, loads_json]
    by_cases hver : v.version = currentVersion
    case neg => simp [hver]
    rw [if_neg (by simp [hver])]
    by_cases hl : v.size ≤ raw.length
    case neg =>
      rw [if_neg hl]
      simp [hver]
      exact .inl (by omega)
    rw [if_pos hl]
    by_cases hu : utf8Valid (raw.take v.size) = true
    case neg =>
      rw [if_neg hu]
      simp [hu]
      omega
    rw [if_pos hu]
    cases hj : Json.fromStr F (raw.take v.size) with
    | panic => simp [hj, hver, hl, hu]
    | err e => simp [hj]; omega
    | ok k =>
      simp only [Res.ok_bind, slice, Nat.zero_le, true_and, if_pos hl, List.drop_zero]
      have hl' : ¬ raw.length < v.size := by omega
      cases hm : saiderOf E H k with
      | panic => simp [hm, hj, hver, hl, hu]
      | err e => simp [hm, hj, hl']
      | ok m =>
        dsimp only
        by_cases hc : code.getD (lit "E") = m.code
        · rw [if_neg (by simp [hc]), Res.ok_bind]
          simp [hj, hm, hl']
        · rw [if_pos (by simp [hc])]
          simp [hj, hm, hl']

end Sadder

theorem Serder.new_ok {E : Env} {F : Str → Option Str} {H : Hash} {code kind : Option Str} {raw : Option (List UInt8)} {ked : Option Value} {sad : Option Sadder} {s : Sadder} :
    Serder.new E F H code raw kind ked sad = .ok s ↔ Sadder.new E F H Serder.default (some (code.getD (lit "E"))) raw kind ked sad = .ok s ∧ s.ident = lit "KERI" := by
  unfold Serder.new
  dsimp only
  constructor
  · intro h
    obtain ⟨x, hx, h⟩ := Res.bind_eq_ok.mp h
    obtain ⟨u, hu, h⟩ := Res.bind_eq_ok.mp h
    injection h with h
    subst h
    refine ⟨hx, ?_⟩
    unfold Serder.validateIdent at hu
    split at hu
    · cases hu
    · rename_i h; simpa using h
  · rintro ⟨h1, h2⟩
    rw [h1, Res.ok_bind, Serder.validateIdent, if_neg (by simp [h2])]
    rfl

theorem Creder.new_ok {E : Env} {F : Str → Option Str} {H : Hash} {code kind : Option Str} {raw : Option (List UInt8)} {ked : Option Value} {sad : Option Sadder} {s : Sadder} :
    Creder.new E F H code raw kind ked sad = .ok s ↔ Sadder.new E F H Creder.default (some (code.getD (lit "E"))) raw kind ked sad = .ok s ∧ s.ident = lit "ACDC" := by
  unfold Creder.new
  dsimp only
  constructor
  · intro h
    obtain ⟨x, hx, h⟩ := Res.bind_eq_ok.mp h
    obtain ⟨u, hu, h⟩ := Res.bind_eq_ok.mp h
    injection h with h
    subst h
    refine ⟨hx, ?_⟩
    unfold Creder.validateIdent at hu
    split at hu
    · cases hu
    · rename_i h; simpa using h
  · rintro ⟨h1, h2⟩
    rw [h1, Res.ok_bind, Creder.validateIdent, if_neg (by simp [h2])]
    rfl

theorem Serder.new_panic {E : Env} {F : Str → Option Str} {H : Hash} {code kind : Option Str} {raw : Option (List UInt8)} {ked : Option Value} {sad : Option Sadder} :
    Serder.new E F H code raw kind ked sad = .panic ↔ Sadder.new E F H Serder.default (some (code.getD (lit "E"))) raw kind ked sad = .panic := by
  unfold Serder.new
  dsimp only
  constructor
  · intro h
    rcases Res.bind_eq_panic.mp h with h | ⟨x, hx, h⟩
    · exact h
    · rcases Res.bind_eq_panic.mp h with h | ⟨u, hu, h⟩
      · unfold Serder.validateIdent at h
        split at h <;> cases h
      · cases h
  · intro h
    rw [h]; rfl

theorem Creder.new_panic {E : Env} {F : Str → Option Str} {H : Hash} {code kind : Option Str} {raw : Option (List UInt8)} {ked : Option Value} {sad : Option Sadder} :
    Creder.new E F H code raw kind ked sad = .panic ↔ Sadder.new E F H Creder.default (some (code.getD (lit "E"))) raw kind ked sad = .panic := by
  unfold Creder.new
  dsimp only
  constructor
  · intro h
    rcases Res.bind_eq_panic.mp h with h | ⟨x, hx, h⟩
    · exact h
    · rcases Res.bind_eq_panic.mp h with h | ⟨u, hu, h⟩
      · unfold Creder.validateIdent at h
        split at h <;> cases h
      · cases h
  · intro h
    rw [h]; rfl

end Cesride
