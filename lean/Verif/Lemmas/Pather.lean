import Verif.Model.Pather
import Verif.Spec.Path
import Verif.Props.Texts
import Verif.Props.Tholder3

/-! # Lemmas about paths -/

namespace Cesride
open Spec

/-! ## Decimal texts -/

theorem natDec_unique : ∀ (k : Nat) (d : Str), d.length = k → IsDigits d → d ≠ [] → (d.head? = some (ch '0') → d = lit "0") → d = natDec (decNum d) := by
  intro k
  induction k with
  | zero => intro d hk _ hne; exact absurd (List.length_eq_zero_iff.mp hk) hne
  | succ k ih =>
    intro d hk hd hne hz
    obtain ⟨init, last, rfl⟩ : ∃ i l, d = i ++ [l] := ⟨d.dropLast, d.getLast hne, (List.dropLast_concat_getLast hne).symm⟩
    have hlast : ch '0' ≤ last ∧ last ≤ ch '9' := hd last (by simp)
    have hv : decNum (init ++ [last]) = decNum init * 10 + (last.toNat - 48) := by simp [decNum, List.foldl_append]
    have hb : last.toNat - 48 < 10 ∧ last = UInt8.ofNat (48 + (last.toNat - 48)) := by
      have h := hlast
      revert h
      exact byte_forall (P := fun c => (ch '0' ≤ c ∧ c ≤ ch '9') → c.toNat - 48 < 10 ∧ c = UInt8.ofNat (48 + (c.toNat - 48))) (by decide +kernel) last
    rw [hv]
    generalize hx : last.toNat - 48 = x at hb ⊢
    by_cases hi : init = []
    · subst hi
      simp only [decNum, List.foldl_nil, Nat.zero_mul, Nat.zero_add, List.nil_append]
      rw [Json.natDec_lt hb.1, ← hb.2]
    · have hz' : init.head? ≠ some (ch '0') := by
        intro hh
        cases init with
        | nil => exact hi rfl
        | cons y ys =>
          have := congrArg List.length (hz (by simpa using hh))
          rw [show (lit "0").length = 1 from rfl] at this
          simp at this
      have hpos : 0 < decNum init := by
        cases init with
        | nil => exact absurd rfl hi
        | cons y ys =>
          have hy : ch '0' ≤ y ∧ y ≤ ch '9' := hd y (by simp)
          have hy0 : y ≠ ch '0' := fun e => hz' (by simp [e])
          have : 0 < y.toNat - 48 := by
            have h := And.intro hy hy0
            revert h
            exact byte_forall (P := fun c => (ch '0' ≤ c ∧ c ≤ ch '9') ∧ c ≠ ch '0' → 0 < c.toNat - 48) (by decide +kernel) y
          have hge := foldl_dec_ge ys (y.toNat - 48)
          simp only [decNum, List.foldl_cons, Nat.zero_mul, Nat.zero_add]
          omega
      have e := ih init (by simpa using hk) (fun c hc => hd c (by simp [hc])) hi (fun h => absurd h hz')
      rw [Json.natDec_ge (by omega), show (decNum init * 10 + x) / 10 = decNum init by omega, show (decNum init * 10 + x) % 10 = x by omega, ← e, ← hb.2]

theorem natDec_head (n : Nat) (h : (natDec n).head? = some (ch '0')) : natDec n = lit "0" := by
  have := Json.natDec_no_lead n
  cases hs : natDec n with
  | nil => exact absurd hs (Json.natDec_ne_nil n)
  | cons c r =>
    rw [hs] at h this
    cases r with
    | nil => simp only [List.head?_cons, Option.some.injEq] at h; subst h; rfl
    | cons d e => exact absurd ⟨h, by simp⟩ this

/-- The code's decimal texts are the usual ones. -/
theorem intText_iff (i : Int) (s : Str) : IntText i s ↔ s = intDec i := by
  constructor
  · rintro ⟨n, d, ⟨h1, h2, h3⟩, h4, h | h⟩
    · obtain ⟨rfl, rfl⟩ := h
      subst h3
      exact natDec_unique _ _ rfl h2 h1 h4
    · obtain ⟨h5, rfl, rfl⟩ := h
      have := natDec_unique _ _ rfl h2 h1 h4
      obtain ⟨m, rfl⟩ : ∃ m, n = m + 1 := ⟨n - 1, by omega⟩
      rw [show (-((m + 1 : Nat) : Int)) = .negSucc m from rfl]
      simp only [intDec]
      rw [← h3, ← this]
  · rintro rfl
    cases i with
    | ofNat n => exact ⟨n, natDec n, Tholder.decNumeral_natDec n, natDec_head n, .inl ⟨rfl, rfl⟩⟩
    | negSucc n => exact ⟨n + 1, natDec (n + 1), Tholder.decNumeral_natDec _, natDec_head _, .inr ⟨by omega, rfl, rfl⟩⟩

theorem intDec_b64 (i : Int) : IsB64Text (intDec i) := by
  have hd : ∀ c : UInt8, (ch '0' ≤ c ∧ c ≤ ch '9') → c ∈ alphabet :=
    byte_forall (P := fun c => (ch '0' ≤ c ∧ c ≤ ch '9') → c ∈ alphabet) (by decide +kernel)
  have hn : ∀ n : Nat, ∀ c ∈ natDec n, c ∈ alphabet := fun n c hc => hd c (Json.natDec_digits n c hc)
  intro c hc
  cases i with
  | ofNat n => exact hn n c hc
  | negSucc n =>
    simp only [intDec, List.mem_cons] at hc
    rcases hc with rfl | hc
    · decide +kernel
    · exact hn _ c hc

theorem b64Encode_ascii (l : List UInt8) : ∀ c ∈ b64Encode l, c < 128 := by
  have hs : ∀ n : Nat, sextetChar (n % 64) < 128 := fun n => by
    have : ∀ i : Fin 64, sextetChar i.val < 128 := by decide +kernel
    exact this ⟨n % 64, Nat.mod_lt _ (by decide)⟩
  have he : ch '=' < 128 := by decide
  induction l using b64Encode.induct with
  | case1 => simp [b64Encode]
  | case2 a => simp [b64Encode, hs, he]
  | case3 a b => simp [b64Encode, hs, he]
  | case4 a b c rest ih =>
    intro x hx
    simp only [b64Encode, List.mem_cons] at hx
    rcases hx with rfl | rfl | rfl | rfl | hx
    · exact hs _
    · exact hs _
    · exact hs _
    · exact hs _
    · exact ih x hx

namespace Pather

/-! ## Building paths -/

theorem texts_ok : ∀ {a : List Value} {cs : List Str}, texts a = .ok cs ↔ Aligned PathText a cs ∧ ∀ c ∈ cs, IsB64Text c
  | [], cs => by
    constructor
    · intro h; simp only [texts, Res.ok.injEq] at h; subst h; exact ⟨.nil, by simp⟩
    · rintro ⟨h, _⟩; cases h; rfl
  | e :: rest, cs => by
    rw [texts, Res.bind_eq_ok]
    constructor
    · rintro ⟨p, hp, h⟩
      have hpt : PathText e p := by
        cases e with
        | str s => simp only [Value.toStr, Res.ok.injEq] at hp; subst hp; exact .inl rfl
        | int i =>
          simp only [Value.toStr, Value.toI64, Res.ok_bind, Res.ok.injEq] at hp
          exact .inr ⟨i, rfl, (intText_iff i p).mpr hp.symm⟩
        | _ => simp [Value.toStr, Value.toI64] at hp
      split at h
      · simp at h
      · rename_i hb
        obtain ⟨ps, hps, h⟩ := Res.bind_eq_ok.mp h
        simp only [Res.ok.injEq] at h; subst h
        obtain ⟨h1, h2⟩ := texts_ok.mp hps
        refine ⟨.cons hpt h1, ?_⟩
        intro c hc
        rcases List.mem_cons.mp hc with rfl | hc
        · exact (reB64_iff _).mp (by simpa using hb)
        · exact h2 c hc
    · rintro ⟨h, hb⟩
      cases h with
      | @cons _ p _ ps hp hps =>
        refine ⟨p, ?_, ?_⟩
        · rcases hp with rfl | ⟨i, rfl, hi⟩
          · rfl
          · rw [(intText_iff i p).mp hi]; rfl
        · have := (reB64_iff p).mpr (hb p (by simp))
          rw [if_neg (by simp [this]), texts_ok.mpr ⟨hps, fun c hc => hb c (by simp [hc])⟩]
          rfl

theorem texts_ne_panic : ∀ a : List Value, texts a ≠ .panic
  | [] => by simp [texts]
  | e :: rest => by
    intro h
    rw [texts, Res.bind_eq_panic] at h
    rcases h with h | ⟨p, _, h⟩
    · cases e <;> simp [Value.toStr, Value.toI64] at h
    · split at h
      · simp at h
      · rcases Res.bind_eq_panic.mp h with h | ⟨_, _, h⟩
        · exact texts_ne_panic rest h
        · simp at h

theorem bextify_ok {v : Value} {t : Str} : bextify v = .ok t ↔ ∃ a cs, v = .arr a ∧ Aligned PathText a cs ∧ (∀ c ∈ cs, IsB64Text c) ∧ t = pathText cs := by
  rw [bextify, Res.bind_eq_ok]
  constructor
  · rintro ⟨a, ha, h⟩
    obtain ⟨cs, hcs, h⟩ := Res.bind_eq_ok.mp h
    simp only [Res.ok.injEq] at h
    obtain ⟨h1, h2⟩ := texts_ok.mp hcs
    refine ⟨a, cs, ?_, h1, h2, ?_⟩
    · cases v <;> simp [Value.toVec] at ha; subst ha; rfl
    · rw [← h, Tholder.join_eq]; rfl
  · rintro ⟨a, cs, rfl, h1, h2, rfl⟩
    refine ⟨a, rfl, ?_⟩
    rw [texts_ok.mpr ⟨h1, h2⟩]
    simp only [Res.ok_bind, Tholder.join_eq]; rfl

theorem newWithPath_eq (E : Env) (v : Value) : newWithPath E v = (do let t ← bextify v; Bexter.ofBext E (lit "4A") t) := by
  rw [newWithPath, new]
  simp only [Option.isNone_none, Option.getD_none, and_self, if_true, Bexter.ofBext, Bexter.new, Option.isNone_some, Bool.false_eq_true, false_and, if_false,
    Option.getD_some]
  cases bextify v with
  | ok t => simp only [Res.ok_bind, ofBext]
  | err e => rfl
  | panic => rfl

theorem newWithBext_eq (E : Env) (t : Str) : newWithBext E t = Bexter.ofBext E (lit "4A") t := by
  simp [newWithBext, new, Bexter.ofBext, Bexter.new, ofBext]

theorem newWithQb64_eq (E : Env) (t : Str) : newWithQb64 E t = Bexter.ofText E t := by
  simp [newWithQb64, new, Bexter.ofText, Bexter.new]

theorem newWithQb64b_eq (E : Env) (t : List UInt8) : newWithQb64b E t = Bexter.ofTextBytes E t := by
  simp [newWithQb64b, new, Bexter.ofTextBytes, Bexter.new]

theorem newWithQb2_eq (E : Env) (t : List UInt8) : newWithQb2 E t = Bexter.ofBinary E t := by
  simp [newWithQb2, new, Bexter.ofBinary, Bexter.new]

theorem joinWith_b64 {cs : List Str} (h : ∀ c ∈ cs, IsB64Text c) : IsB64Text (joinWith (ch '-') cs) := by
  rw [← Tholder.join_eq]
  intro c hc
  rcases Tholder.mem_join hc with rfl | ⟨s, hs, hc⟩
  · decide +kernel
  · exact h s hs c hc

theorem pathText_b64 {cs : List Str} (h : ∀ c ∈ cs, IsB64Text c) : IsB64Text (pathText cs) := by
  intro c hc
  rcases List.mem_cons.mp hc with rfl | hc
  · decide +kernel
  · exact joinWith_b64 h c hc

/-! ## Reading paths -/

theorem bext_ne_panic (m : Matter) : Bexter.bext m ≠ .panic := by
  intro h
  rw [Bexter.bext, Res.bind_eq_panic] at h
  rcases h with h | ⟨z, _, h⟩
  · exact Matter.sizage_ne_panic _ h
  · dsimp only at h
    have hlen := b64Encode_length (List.replicate z.ls 0 ++ m.raw)
    have hasc : Ascii (b64Encode (List.replicate z.ls 0 ++ m.raw)) := by
      intro c hc
      exact b64Encode_ascii _ c hc
    rw [sliceStr_ascii hasc] at h
    · simp at h
    · split
      · split
        · rename_i hh
          cases hb : b64Encode (List.replicate z.ls 0 ++ m.raw) with
          | nil => simp [hb] at hh
          | cons => simp
        · omega
      · simp only [List.length_append, List.length_replicate] at hlen
        rw [hlen]; omega
    · exact Nat.le_refl _

theorem reads_split {t : Str} : (t.head? = some (ch '-') ↔ ∃ cs, Reads t cs) := by
  constructor
  · intro h
    cases t with
    | nil => simp at h
    | cons c u =>
      simp only [List.head?_cons, Option.some.injEq] at h; subst h
      by_cases he : (splitOn (ch '-') u).head? = some []
      · cases u with
        | nil => exact ⟨[], .inl ⟨⟨by simp, by simp⟩, rfl⟩⟩
        | cons x w =>
          refine ⟨[], .inr ⟨rfl, w, ?_⟩⟩
          rw [splitOn] at he
          split at he
          · rename_i hx; subst hx; rfl
          · split at he <;> simp at he
      · exact ⟨splitOn (ch '-') u, .inl ⟨⟨splitOn_no_sep _ u, he⟩, by rw [pathText, join_splitOn]⟩⟩
  · rintro ⟨cs, ⟨_, rfl⟩ | ⟨_, u, rfl⟩⟩
    · rfl
    · rfl

theorem comps_of {p : Matter} {t : Str} {cs : List Str} (hb : Bexter.bext p = .ok t) (h : Reads t cs) : comps p = .ok cs := by
  rw [comps, hb]
  simp only [Res.ok_bind]
  rcases h with ⟨⟨h1, h2⟩, rfl⟩ | ⟨rfl, u, rfl⟩
  · rw [if_neg (by simp [pathText])]
    simp only [pathText, List.drop_succ_cons, List.drop_zero]
    by_cases hc : cs = []
    · subst hc; rfl
    · rw [splitOn_join _ hc h1, if_neg h2]
  · rw [if_neg (by simp [show lit "--" = [ch '-', ch '-'] from rfl])]
    simp [show lit "--" = [ch '-', ch '-'] from rfl, splitOn]

/-- What `path` reads: the components of the path text. -/
theorem comps_ok {p : Matter} {cs : List Str} : comps p = .ok cs ↔ ∃ t, Bexter.bext p = .ok t ∧ Reads t cs := by
  constructor
  · intro h
    obtain ⟨t, ht, h'⟩ := Res.bind_eq_ok.mp h
    refine ⟨t, ht, ?_⟩
    have hh : t.head? = some (ch '-') := by
      by_contra hh; rw [if_pos hh] at h'; simp at h'
    obtain ⟨ds, hds⟩ := reads_split.mp hh
    have := comps_of ht hds
    rw [h] at this; simp only [Res.ok.injEq] at this; subst this; exact hds
  · rintro ⟨t, ht, h⟩; exact comps_of ht h

theorem comps_ne_panic (p : Matter) : comps p ≠ .panic := by
  intro h
  rw [comps, Res.bind_eq_panic] at h
  rcases h with h | ⟨t, _, h⟩
  · exact bext_ne_panic p h
  · split at h
    · simp at h
    · dsimp only at h; split at h <;> simp at h

/-- A path object that was built from components. -/
theorem newWithPath_spec {E : Env} {v : Value} {p : Matter} (h : newWithPath E v = .ok p) :
    ∃ a cs, v = .arr a ∧ Aligned PathText a cs ∧ (∀ c ∈ cs, IsB64Text c) ∧ Bexter.ofBext E (lit "4A") (pathText cs) = .ok p := by
  rw [newWithPath_eq] at h
  obtain ⟨t, ht, h⟩ := Res.bind_eq_ok.mp h
  obtain ⟨a, cs, h1, h2, h3, rfl⟩ := bextify_ok.mp ht
  exact ⟨a, cs, h1, h2, h3, h⟩

theorem newWithPath_of {E : Env} {a : List Value} {cs : List Str} (h1 : Aligned PathText a cs) (h2 : ∀ c ∈ cs, IsB64Text c) :
    newWithPath E (.arr a) = Bexter.ofBext E (lit "4A") (pathText cs) := by
  rw [newWithPath_eq, bextify_ok.mpr ⟨a, cs, rfl, h1, h2, rfl⟩]; rfl

theorem aligned_strs : ∀ cs : List Str, Aligned PathText (cs.map .str) cs
  | [] => .nil
  | c :: cs => .cons (.inl rfl) (aligned_strs cs)

theorem aligned_strs_unique : ∀ {cs ds : List Str}, Aligned PathText (cs.map .str) ds → ds = cs
  | [], _, .nil => rfl
  | c :: cs, _, .cons h hs => by
    rcases h with h | ⟨i, h, _⟩
    · injection h with h; rw [aligned_strs_unique hs, h]
    · cases h

theorem joinWith_append (s : UInt8) {a b : List Str} (ha : a ≠ []) (hb : b ≠ []) : joinWith s (a ++ b) = joinWith s a ++ s :: joinWith s b := by
  induction a with
  | nil => exact absurd rfl ha
  | cons x xs ih =>
    by_cases hx : xs = []
    · subst hx
      cases b with
      | nil => exact absurd rfl hb
      | cons => rfl
    · have h1 : ∀ {l : List Str}, l ≠ [] → joinWith s (x :: l) = x ++ s :: joinWith s l := by
        intro l hl
        cases l with
        | nil => exact absurd rfl hl
        | cons => rfl
      rw [List.cons_append, h1 (by simp [hx]), ih hx, h1 hx, List.append_assoc, List.cons_append]

theorem pathText_length_left (ds es : List Str) : (pathText ds).length ≤ (pathText (ds ++ es)).length := by
  by_cases hd : ds = []
  · subst hd; simp [pathText, joinWith]
  · by_cases he : es = []
    · subst he; simp
    · simp only [pathText, joinWith_append _ hd he, List.length_cons, List.length_append]; omega

theorem pathText_length_right (ds es : List Str) : (pathText es).length ≤ (pathText (ds ++ es)).length := by
  by_cases hd : ds = []
  · subst hd; simp
  · by_cases he : es = []
    · subst he; simp [pathText, joinWith]
    · simp only [pathText, joinWith_append _ hd he, List.length_cons, List.length_append]; omega

theorem clean_left {ds es : List Str} (h : Clean (ds ++ es)) : Clean ds := by
  refine ⟨fun c hc => h.1 c (by simp [hc]), ?_⟩
  cases ds with
  | nil => simp
  | cons d r => exact h.2

theorem newWithPath_bext {E : Env} {cs : List Str} {p : Matter} (h : newWithPath E (.arr (cs.map .str)) = .ok p) :
    (∀ c ∈ cs, IsB64Text c) ∧ Bexter.ofBext E (lit "4A") (pathText cs) = .ok p := by
  obtain ⟨a, ds, h1, h2, h3, h4⟩ := newWithPath_spec h
  injection h1 with h1; subst h1
  rw [aligned_strs_unique h2] at h3 h4
  exact ⟨h3, h4⟩

theorem built_bext {E : Env} {cs : List Str} {p : Matter} (h : newWithPath E (.arr (cs.map .str)) = .ok p)
    (hl : (pathText cs).length ≤ 4 * (64 ^ 4 - 1)) : Bexter.bext p = .ok (pathText cs) := by
  obtain ⟨hb, hp⟩ := newWithPath_bext h
  obtain ⟨x, h1, h2⟩ := C31_bext_exact E (code := lit "4A") (by decide +kernel) (pathText_b64 hb) hl
    (.inr (by simp only [pathText, List.head?_cons]; decide +kernel))
  rw [hp] at h1; simp only [Res.ok.injEq] at h1; subst h1; exact h2

end Pather
end Cesride
