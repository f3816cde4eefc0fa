import Verif.Lemmas.Pather
import Verif.Lemmas.Saider
import Verif.Props.Json

/-! # Properties C49 - C51, C64: paths into documents -/

namespace Cesride
open Spec Pather

/-! ## C49 -/

/-- C49. A list of texts and integers whose components are Base64URL texts builds a path object; it carries the path text of the components,
it comes back from all three encodings, and `path` returns the components exactly when they are clean (no hyphen inside, first not empty). -/
theorem C49_roundtrip (E : Env) {a : List Value} {cs : List Str} (ha : Aligned PathText a cs) (hb : ∀ c ∈ cs, IsB64Text c)
    (hl : (pathText cs).length ≤ 4 * (64 ^ 4 - 1)) :
    ∃ p q b, newWithPath E (.arr a) = .ok p ∧ Bexter.bext p = .ok (pathText cs) ∧ newWithBext E (pathText cs) = .ok p ∧
      p.qb64 E = .ok q ∧ p.qb64b E = .ok q ∧ p.qb2 E = .ok b ∧
      newWithQb64 E q = .ok p ∧ newWithQb64b E q = .ok p ∧ newWithQb2 E b = .ok p ∧
      (path p = .ok (.arr (cs.map .str)) ↔ Clean cs) := by
  obtain ⟨p, q, b, h1, _, h3, h4, h5, h6, h7, h8⟩ := C31_bext_roundtrip E (code := lit "4A") (by decide +kernel) (pathText_b64 hb) hl
  rw [if_neg (fun h => absurd h.2 (by simp only [pathText, List.head?_cons]; decide +kernel))] at h3
  refine ⟨p, q, b, ?_, h3, ?_, h4, ?_, h5, ?_, ?_, ?_, ?_⟩
  · rw [newWithPath_of ha hb, h1]
  · rw [newWithBext_eq, h1]
  · exact h4
  · rw [newWithQb64_eq, h6]
  · rw [newWithQb64b_eq, h7]
  · rw [newWithQb2_eq, h8]
  · constructor
    · intro h
      obtain ⟨ds, hds, h⟩ := Res.bind_eq_ok.mp h
      simp only [Res.ok.injEq, Value.arr.injEq] at h
      have hinj : Function.Injective Value.str := fun x y e => by injection e
      rw [← hinj.list_map h]
      obtain ⟨t, ht, hr⟩ := comps_ok.mp hds
      rcases hr with ⟨hc, _⟩ | ⟨rfl, _⟩
      · exact hc
      · exact ⟨by simp, by simp⟩
    · intro h
      rw [path, comps_of h3 (.inl ⟨h, rfl⟩)]; rfl

/-- C49, the refusals: only lists of texts and integers are accepted, and every text must be a Base64URL text. -/
theorem C49_refused {E : Env} {v : Value} {p : Matter} (h : newWithPath E v = .ok p) :
    ∃ a cs, v = .arr a ∧ Aligned PathText a cs ∧ ∀ c ∈ cs, IsB64Text c := by
  obtain ⟨a, cs, h1, h2, h3, _⟩ := newWithPath_spec h
  exact ⟨a, cs, h1, h2, h3⟩

/-- C49, the size limit (for path texts below 4 GiB; the size computations are in 32 bits). -/
theorem C49_too_long (E : Env) {a : List Value} {cs : List Str} (ha : Aligned PathText a cs) (hb : ∀ c ∈ cs, IsB64Text c)
    (h1 : 4 * (64 ^ 4 - 1) < (pathText cs).length) (h2 : (pathText cs).length < 2 ^ 32) : newWithPath E (.arr a) = .err .invalidVarRawSize := by
  rw [newWithPath_of ha hb]; exact Tholder.ofBext_too_long E (pathText_b64 hb) h1 h2

/-- C49, the code: from a path text, or from the components of one, the constructor gives the text object (C31) with the code asked for,
whatever the other arguments are. -/
theorem C49_code (E : Env) (code : Option Str) :
    (∀ v t raw qb64b qb64 qb2, Pather.new E v (some t) code raw qb64b qb64 qb2 = Bexter.new E (some t) code raw qb64b qb64 qb2) ∧
    (∀ a cs, Aligned PathText a cs → (∀ c ∈ cs, IsB64Text c) →
      Pather.new E (some (.arr a)) none code none none none none = Bexter.new E (some (pathText cs)) code none none none none) := by
  constructor
  · intro v t raw qb64b qb64 qb2
    unfold Pather.new Bexter.new
    dsimp only
    rw [if_neg (by simp), if_neg (by simp)]
    rfl
  · intro a cs ha hb
    unfold Pather.new Bexter.new
    dsimp only
    rw [if_pos (by simp), if_neg (by simp), bextify_ok.mpr ⟨a, cs, rfl, ha, hb, rfl⟩, Res.ok_bind]
    rfl

/-- C49: building and reading paths never panics. -/
theorem C49_no_panic (E : Env) (v : Value) (p : Matter) : newWithPath E v ≠ .panic ∧ path p ≠ .panic := by
  constructor
  · intro h
    rw [newWithPath_eq, Res.bind_eq_panic] at h
    rcases h with h | ⟨t, ht, h⟩
    · rw [bextify, Res.bind_eq_panic] at h
      rcases h with h | ⟨a, _, h⟩
      · cases v <;> simp [Value.toVec] at h
      · rcases Res.bind_eq_panic.mp h with h | ⟨_, _, h⟩
        · exact texts_ne_panic a h
        · simp at h
    · obtain ⟨a, cs, _, _, hb, rfl⟩ := bextify_ok.mp ht
      exact ofBext_ne_panic E (pathText_b64 hb) h
  · intro h
    rcases Res.bind_eq_panic.mp h with h | ⟨_, _, h⟩
    · exact comps_ne_panic p h
    · simp at h

/-- C49, the defect: components with a hyphen come back in pieces, a path that begins with an empty component comes back empty. -/
theorem C49_defect (E : Env) :
    (∃ p, newWithPath E (.arr [.str (lit "a-b")]) = .ok p ∧ path p = .ok (.arr [.str (lit "a"), .str (lit "b")])) ∧
    (∃ p, newWithPath E (.arr [.int (-1)]) = .ok p ∧ path p = .ok (.arr [])) ∧
    (∃ p, newWithPath E (.arr [.str [], .str (lit "a")]) = .ok p ∧ path p = .ok (.arr [])) := by
  refine ⟨?_, ?_, ?_⟩
  · obtain ⟨p, _, _, h1, h2, _⟩ := C49_roundtrip E (a := [.str (lit "a-b")]) (cs := [lit "a-b"]) (.cons (.inl rfl) .nil) (by unfold IsB64Text; decide +kernel) (by decide +kernel)
    exact ⟨p, h1, by rw [path, comps_of (cs := [lit "a", lit "b"]) h2 (.inl ⟨⟨by decide +kernel, by decide +kernel⟩, by decide +kernel⟩)]; rfl⟩
  · obtain ⟨p, _, _, h1, h2, _⟩ := C49_roundtrip E (a := [.int (-1)]) (cs := [lit "-1"]) (.cons (.inr ⟨-1, rfl, (intText_iff _ _).mpr (by decide +kernel)⟩) .nil)
      (by unfold IsB64Text; decide +kernel) (by decide +kernel)
    exact ⟨p, h1, by rw [path, comps_of (cs := []) h2 (.inr ⟨rfl, lit "1", by decide +kernel⟩)]; rfl⟩
  · obtain ⟨p, _, _, h1, h2, _⟩ := C49_roundtrip E (a := [.str [], .str (lit "a")]) (cs := [[], lit "a"]) (.cons (.inl rfl) (.cons (.inl rfl) .nil))
      (by unfold IsB64Text; decide +kernel) (by decide +kernel)
    exact ⟨p, h1, by rw [path, comps_of (cs := []) h2 (.inr ⟨rfl, lit "a", by decide +kernel⟩)]; rfl⟩

/-! ## C50 -/

theorem parseUsize_ok {bits : Nat} {s : Str} {i : Nat} : parseUsize bits s = .ok i ↔ Position bits s i := by
  have hplus : ¬ (ch '0' ≤ ch '+' ∧ ch '+' ≤ ch '9') := by decide +kernel
  have key : ∀ d : Str, (if d = [] then (.err .parseInt : Res Nat) else match decLoop (2 ^ bits - 1) 0 d with | some n => .ok n | none => .err .parseInt) = .ok i ↔
      d ≠ [] ∧ IsDigits d ∧ decNum d = i ∧ i < 2 ^ bits := by
    intro d
    by_cases hd : d = []
    · rw [if_pos hd]; simp [hd]
    · rw [if_neg hd]
      cases h : decLoop (2 ^ bits - 1) 0 d with
      | none =>
        constructor
        · intro h'; simp at h'
        · rintro ⟨_, h1, h2, h3⟩
          rw [(decLoop_zero _ d i).mpr ⟨h1, h2, by omega⟩] at h; simp at h
      | some n =>
        have hn := (decLoop_zero _ d n).mp h
        constructor
        · intro h'; simp only [Res.ok.injEq] at h'; subst h'; exact ⟨hd, hn.1, hn.2.1, by have := Nat.two_pow_pos bits; omega⟩
        · rintro ⟨_, h1, h2, h3⟩; rw [← h2, hn.2.1]
  unfold parseUsize
  refine (key _).trans ?_
  constructor
  · intro h
    cases s with
    | nil => exact absurd rfl h.1
    | cons c r =>
      dsimp only at h
      split at h
      · rename_i hc; subst hc
        exact ⟨lit "+", r, rfl, .inr rfl, h⟩
      · exact ⟨[], c :: r, rfl, .inl rfl, h⟩
  · rintro ⟨sign, d, rfl, rfl | rfl, h1, h2, h3⟩
    · cases d with
      | nil => exact absurd rfl h1
      | cons c r =>
        have hc : c ≠ ch '+' := fun e => hplus (e ▸ h2 c (by simp))
        simp only [List.nil_append, if_neg hc]; exact ⟨h1, h2, h3⟩
    · simp only [show lit "+" = [ch '+'] from rfl, List.cons_append, List.nil_append, if_true]
      exact ⟨h1, h2, h3⟩

theorem Position.unique {bits : Nat} {s : Str} {i j : Nat} (h : Position bits s i) (h' : Position bits s j) : i = j := by
  rw [← parseUsize_ok] at h h'; rw [h] at h'; simpa using h'

theorem parseUsize_not {bits : Nat} {s : Str} (h : ∀ i, parseUsize bits s ≠ .ok i) : ∀ i, ¬ Position bits s i := fun i hp => h i (parseUsize_ok.mpr hp)

theorem parseUsize_ne_panic (bits : Nat) (s : Str) : parseUsize bits s ≠ .panic := by
  have key : ∀ d : Str, (if d = [] then (.err .parseInt : Res Nat) else match decLoop (2 ^ bits - 1) 0 d with | some n => .ok n | none => .err .parseInt) ≠ .panic := by
    intro d
    split
    · simp
    · split <;> simp
  exact key _

theorem not_position_nil (bits i : Nat) : ¬ Position bits [] i := by
  rintro ⟨s, d, h, _, hd, _⟩
  exact hd (List.append_eq_nil_iff.mp h.symm).2

theorem walk_ok {bits : Nat} : ∀ {cs : List Str} {v w : Value}, walk bits v cs = .ok w ↔ Leads bits v cs w
  | [], v, w => by
    constructor
    · intro h; simp only [walk, Res.ok.injEq] at h; subst h; exact .here _
    · intro h; cases h; rfl
  | c :: cs, .obj o, w => by
    have ih : ∀ x : Value, walk bits x cs = .ok w ↔ Leads bits x cs w := fun x => walk_ok
    rw [walk]
    constructor
    · intro h
      split at h
      · rename_i i hi
        split at h
        · simp at h
        · rename_i e he; exact .entry (k := e.1) (parseUsize_ok.mp hi) he ((ih _).mp h)
      · rename_i hi
        split at h
        · rename_i hc; subst hc; simp only [Res.ok.injEq] at h; subst h; exact .stop
        · rename_i hc
          split at h
          · simp at h
          · rename_i x hx; exact .key (parseUsize_not hi) hc hx ((ih _).mp h)
    · intro h
      cases h with
      | @entry _ _ _ i k x _ hp hx hl => rw [parseUsize_ok.mpr hp]; simp only [hx]; exact (ih _).mpr hl
      | @key _ _ _ x _ hp hc hx hl =>
        cases hu : parseUsize bits c with
        | ok i => exact absurd (parseUsize_ok.mp hu) (hp i)
        | err e => simp only [if_neg hc, hx]; exact (ih _).mpr hl
        | panic => exact absurd hu (parseUsize_ne_panic bits c)
      | stop =>
        cases hu : parseUsize bits [] with
        | ok i => exact absurd (parseUsize_ok.mp hu) (not_position_nil bits i)
        | err e => simp
        | panic => exact absurd hu (parseUsize_ne_panic bits [])
  | c :: cs, .arr a, w => by
    have ih : ∀ x : Value, walk bits x cs = .ok w ↔ Leads bits x cs w := fun x => walk_ok
    rw [walk, Res.bind_eq_ok]
    constructor
    · rintro ⟨i, hi, h⟩
      split at h
      · simp at h
      · rename_i x hx; exact .elem (parseUsize_ok.mp hi) hx ((ih _).mp h)
    · intro h
      cases h with
      | @elem _ _ _ i x _ hp hx hl => refine ⟨i, parseUsize_ok.mpr hp, ?_⟩; simp only [hx]; exact (ih _).mpr hl
  | c :: cs, .null, w => ⟨fun h => by simp [walk] at h, fun h => by cases h⟩
  | c :: cs, .bool b, w => ⟨fun h => by simp [walk] at h, fun h => by cases h⟩
  | c :: cs, .int i, w => ⟨fun h => by simp [walk] at h, fun h => by cases h⟩
  | c :: cs, .float f, w => ⟨fun h => by simp [walk] at h, fun h => by cases h⟩
  | c :: cs, .str s, w => ⟨fun h => by simp [walk] at h, fun h => by cases h⟩

theorem walk_ne_panic (bits : Nat) : ∀ (cs : List Str) (v : Value), walk bits v cs ≠ .panic
  | [], v => by simp [walk]
  | c :: cs, v => by
    have ih := walk_ne_panic bits cs
    intro h
    cases v with
    | obj o =>
      rw [walk] at h
      split at h
      · split at h
        · simp at h
        · exact ih _ h
      · split at h
        · simp at h
        · split at h
          · simp at h
          · exact ih _ h
    | arr a =>
      rw [walk, Res.bind_eq_panic] at h
      rcases h with h | ⟨i, _, h⟩
      · exact parseUsize_ne_panic bits c h
      · split at h
        · simp at h
        · exact ih _ h
    | _ => simp [walk] at h

/-- C50, the meaning of following a path is unambiguous. -/
theorem C50_deterministic {bits : Nat} {v w w' : Value} {cs : List Str} (h : Leads bits v cs w) (h' : Leads bits v cs w') : w = w' := by
  rw [← walk_ok] at h h'; rw [h] at h'; simpa using h'

/-- C50, reading a path text is unambiguous. -/
theorem C50_reads_deterministic {t : Str} {cs ds : List Str} (h : Reads t cs) (h' : Reads t ds) : cs = ds := by
  have key : ∀ {cs u}, Clean cs → pathText cs ≠ lit "--" ++ u := by
    intro cs u hc he
    cases cs with
    | nil => simp [pathText, joinWith, show lit "--" = [ch '-', ch '-'] from rfl] at he
    | cons c r =>
      cases c with
      | nil => exact hc.2 rfl
      | cons x y =>
        have : x = ch '-' := by
          cases r <;> simp [pathText, joinWith, show lit "--" = [ch '-', ch '-'] from rfl] at he <;> exact he.1
        exact hc.1 (x :: y) (by simp) (by simp [this])
  have inj : ∀ {cs ds}, Clean cs → Clean ds → pathText cs = pathText ds → cs = ds := by
    intro cs ds hc hd he
    simp only [pathText, List.cons.injEq, true_and] at he
    have h0 : ∀ {cs : List Str}, Clean cs → joinWith (ch '-') cs = [] → cs = [] := by
      intro cs hc he
      cases cs with
      | nil => rfl
      | cons c r =>
        cases r with
        | nil => simp only [joinWith] at he; subst he; exact absurd rfl hc.2
        | cons => simp [joinWith] at he
    by_cases h1 : cs = []
    · subst h1; exact (h0 hd he.symm).symm
    · by_cases h2 : ds = []
      · subst h2; exact h0 hc he
      · rw [← splitOn_join (ch '-') h1 hc.1, he, splitOn_join (ch '-') h2 hd.1]
  rcases h with ⟨hc, rfl⟩ | ⟨rfl, u, rfl⟩ <;> rcases h' with ⟨hd, he⟩ | ⟨rfl, u', he⟩
  · exact inj hc hd he
  · exact absurd he (key hc)
  · exact absurd he.symm (key hd)
  · rfl

/-- C50. `resolve` returns a value exactly when the path text of the object leads there. -/
theorem C50_resolve (E : Env) (p : Matter) (sad w : Value) :
    resolve E p sad = .ok w ↔ ∃ t cs, Bexter.bext p = .ok t ∧ Reads t cs ∧ Leads E.usizeBits sad cs w := by
  rw [resolve, Res.bind_eq_ok]
  constructor
  · rintro ⟨cs, hcs, h⟩
    obtain ⟨t, ht, hr⟩ := comps_ok.mp hcs
    exact ⟨t, cs, ht, hr, walk_ok.mp h⟩
  · rintro ⟨t, cs, ht, hr, h⟩
    exact ⟨cs, comps_of ht hr, walk_ok.mpr h⟩

/-- C50: `resolve` never panics. -/
theorem C50_no_panic (E : Env) (p : Matter) (sad : Value) : resolve E p sad ≠ .panic := by
  intro h
  rcases Res.bind_eq_panic.mp h with h | ⟨cs, _, h⟩
  · exact comps_ne_panic p h
  · exact walk_ne_panic _ cs sad h

/-- C50 for a path built from components: `resolve` returns where the components lead, and otherwise is an error. -/
theorem C50_built {E : Env} {cs : List Str} {p : Matter} (h : newWithPath E (.arr (cs.map .str)) = .ok p) (hc : Clean cs)
    (hl : (pathText cs).length ≤ 4 * (64 ^ 4 - 1)) (sad : Value) :
    (∀ w, resolve E p sad = .ok w ↔ Leads E.usizeBits sad cs w) ∧ ((∀ w, ¬ Leads E.usizeBits sad cs w) → ∃ e, resolve E p sad = .err e) := by
  have hb := built_bext h hl
  have h1 : ∀ w, resolve E p sad = .ok w ↔ Leads E.usizeBits sad cs w := by
    intro w
    rw [C50_resolve]
    constructor
    · rintro ⟨t, ds, ht, hr, hw⟩
      rw [hb] at ht; simp only [Res.ok.injEq] at ht; subst ht
      rwa [C50_reads_deterministic hr (.inl ⟨hc, rfl⟩)] at hw
    · intro hw; exact ⟨_, cs, hb, .inl ⟨hc, rfl⟩, hw⟩
  refine ⟨h1, fun hn => ?_⟩
  cases hr : resolve E p sad with
  | ok w => exact absurd ((h1 w).mp hr) (hn w)
  | err e => exact ⟨e, rfl⟩
  | panic => exact absurd hr (C50_no_panic E p sad)

/-- C50, platforms: a path none of whose components is a decimal numeral of 2^32 or more leads to the same place on every machine with words of
at least 32 bits. -/
theorem C50_portable {bits bits' : Nat} (h32 : 32 ≤ bits) (h32' : 32 ≤ bits') :
    ∀ {cs : List Str} (_ : ∀ c ∈ cs, ∀ b i, Position b c i → i < 2 ^ 32) (v w : Value), Leads bits v cs w ↔ Leads bits' v cs w := by
  have pos : ∀ {b b' : Nat} {c : Str} {i : Nat}, 32 ≤ b' → (∀ b i, Position b c i → i < 2 ^ 32) → Position b c i → Position b' c i := by
    intro b b' c i hb hc hp
    obtain ⟨s, d, h1, h2, h3, h4, h5, _⟩ := id hp
    exact ⟨s, d, h1, h2, h3, h4, h5, Nat.lt_of_lt_of_le (hc b i hp) (Nat.pow_le_pow_right (by decide) hb)⟩
  have half : ∀ {b b' : Nat}, 32 ≤ b → 32 ≤ b' → ∀ {cs : List Str} {v w : Value}, Leads b v cs w → (∀ c ∈ cs, ∀ b i, Position b c i → i < 2 ^ 32) →
      Leads b' v cs w := by
    intro b b' hb hb' cs v w h
    induction h with
    | here v => intro _; exact .here v
    | elem hp hx _ ih => intro hc; exact .elem (pos hb' (hc _ (by simp)) hp) hx (ih fun c h => hc c (by simp [h]))
    | entry hp hx _ ih => intro hc; exact .entry (pos hb' (hc _ (by simp)) hp) hx (ih fun c h => hc c (by simp [h]))
    | key hn h0 hx _ ih =>
      intro hc; exact .key (fun i hp => hn i (pos hb (hc _ (by simp)) hp)) h0 hx (ih fun c h => hc c (by simp [h]))
    | stop => intro _; exact .stop
  intro cs hc v w
  exact ⟨fun h => half h32 h32' h hc, fun h => half h32' h32 h hc⟩

/-- C50, platforms, the exception: a numeral of 2^32 or more is a position on a 64-bit machine and a key on a 32-bit machine, so a map entry with
such a key is found on the second only. -/
theorem C50_word_size {E E' : Env} (h : E.usizeBits = 32) (h' : E'.usizeBits = 64) :
    ∃ p, newWithPath E (.arr [.str (lit "4294967296")]) = .ok p ∧
      resolve E p (.obj [(lit "4294967296", .bool true)]) = .ok (.bool true) ∧
      ∃ e, resolve E' p (.obj [(lit "4294967296", .bool true)]) = .err e := by
  obtain ⟨p, _, _, h1, h2, _⟩ := C49_roundtrip E (a := [.str (lit "4294967296")]) (cs := [lit "4294967296"]) (.cons (.inl rfl) .nil)
    (by unfold IsB64Text; decide +kernel) (by decide +kernel)
  have hc : comps p = .ok [lit "4294967296"] := comps_of h2 (.inl ⟨⟨by decide +kernel, by decide +kernel⟩, by decide +kernel⟩)
  refine ⟨p, h1, ?_, .value, ?_⟩
  · rw [resolve, hc, h]; rfl
  · rw [resolve, hc, h']; rfl

/-! ## C51 -/

theorem prefix_sep {s : UInt8} : ∀ {i c x y : Str}, s ∉ i → s ∉ c → (i ++ s :: x <+: c ++ s :: y ↔ i = c ∧ x <+: y)
  | [], [], x, y, _, _ => by simp
  | [], d :: c, x, y, _, hc => by
    constructor
    · intro h
      simp only [List.nil_append, List.cons_append, List.cons_prefix_cons] at h
      exact absurd (by simp [h.1]) hc
    · rintro ⟨h, _⟩; cases h
  | e :: i, [], x, y, hi, _ => by
    constructor
    · intro h
      simp only [List.nil_append, List.cons_append, List.cons_prefix_cons] at h
      exact absurd (by simp [h.1]) hi
    · rintro ⟨h, _⟩; cases h
  | e :: i, d :: c, x, y, hi, hc => by
    have ih := prefix_sep (s := s) (i := i) (c := c) (x := x) (y := y) (fun h => hi (by simp [h])) (fun h => hc (by simp [h]))
    simp only [List.cons_append, List.cons_prefix_cons, ih, List.cons.injEq, and_assoc]

theorem prefix_free {s : UInt8} : ∀ {l c y : Str}, s ∉ l → (l <+: c ++ s :: y ↔ l <+: c)
  | [], c, y, _ => by simp
  | e :: l, [], y, h => by
    constructor
    · intro hp
      simp only [List.nil_append, List.cons_prefix_cons] at hp
      exact absurd (by simp [hp.1]) h
    · intro hp; simp at hp
  | e :: l, d :: c, y, h => by
    have ih : l <+: c ++ s :: y ↔ l <+: c := prefix_free (fun hh => h (by simp [hh]))
    simp only [List.cons_append, List.cons_prefix_cons, ih]

theorem joinWith_cons (s : UInt8) (c : Str) {r : List Str} (h : r ≠ []) : joinWith s (c :: r) = c ++ s :: joinWith s r := by
  cases r with
  | nil => exact absurd rfl h
  | cons => rfl

theorem join_prefix {s : UInt8} : ∀ {init : List Str} {last : Str} {cs : List Str}, (∀ c ∈ init, s ∉ c) → s ∉ last → (∀ c ∈ cs, s ∉ c) → cs ≠ [] →
    (joinWith s (init ++ [last]) <+: joinWith s cs ↔ ∃ ext rest, cs = init ++ (last ++ ext) :: rest)
  | [], last, c :: r, _, hl, _, _ => by
    have h1 : last <+: joinWith s (c :: r) ↔ last <+: c := by
      by_cases hr : r = []
      · subst hr; rfl
      · rw [joinWith_cons s c hr, prefix_free hl]
    simp only [List.nil_append, joinWith, h1]
    constructor
    · rintro ⟨ext, h⟩; exact ⟨ext, r, by rw [h]⟩
    · rintro ⟨ext, rest, h⟩; simp only [List.cons.injEq] at h; exact ⟨ext, h.1.symm⟩
  | i :: init, last, c :: r, hi, hl, hc, _ => by
    rw [List.cons_append, joinWith_cons s i (by simp)]
    by_cases hr : r = []
    · subst hr
      constructor
      · rintro ⟨u, h⟩
        simp only [joinWith] at h
        exact absurd (by rw [← h]; simp) (hc c (by simp))
      · rintro ⟨ext, rest, h⟩
        simp at h
    · rw [joinWith_cons s c hr, prefix_sep (hi i (by simp)) (hc c (by simp)),
        join_prefix (fun x hx => hi x (by simp [hx])) hl (fun x hx => hc x (by simp [hx])) hr]
      constructor
      · rintro ⟨rfl, ext, rest, rfl⟩; exact ⟨ext, rest, rfl⟩
      · rintro ⟨ext, rest, h⟩
        simp only [List.cons_append, List.cons.injEq] at h
        exact ⟨h.1.symm, ext, rest, h.2⟩
  | init, last, [], _, _, _, h => absurd rfl h

/-- C51. `starts_with` compares path texts: it is true exactly when the other path is empty, or all its components but the last are the first
components of this path and its last component begins the next one. -/
theorem C51_starts_with {E : Env} {cs ds : List Str} {p q : Matter} (hp : newWithPath E (.arr (cs.map .str)) = .ok p)
    (hq : newWithPath E (.arr (ds.map .str)) = .ok q) (hc : Clean cs) (hd : Clean ds)
    (hlc : (pathText cs).length ≤ 4 * (64 ^ 4 - 1)) (hld : (pathText ds).length ≤ 4 * (64 ^ 4 - 1)) :
    ∃ b, startsWith p q = .ok b ∧ (b = true ↔ ds = [] ∨ ∃ init last ext rest, ds = init ++ [last] ∧ cs = init ++ (last ++ ext) :: rest) := by
  refine ⟨(pathText ds).isPrefixOf (pathText cs), ?_, ?_⟩
  · rw [startsWith, built_bext hp hlc, built_bext hq hld]; rfl
  · rw [List.isPrefixOf_iff_prefix]
    simp only [pathText, List.cons_prefix_cons, true_and]
    by_cases hn : ds = []
    · subst hn; simp [joinWith]
    · obtain ⟨init, last, rfl⟩ : ∃ i l, ds = i ++ [l] := ⟨ds.dropLast, ds.getLast hn, (List.dropLast_concat_getLast hn).symm⟩
      by_cases hcs : cs = []
      · subst hcs
        constructor
        · intro h
          simp only [joinWith, List.prefix_nil] at h
          cases init with
          | nil =>
            simp only [List.nil_append, joinWith] at h; subst h
            exact absurd rfl hd.2
          | cons i r => rw [List.cons_append, joinWith_cons _ _ (by simp)] at h; simp at h
        · rintro (h | ⟨i, l, e, r, _, h⟩)
          · exact absurd h hn
          · simp at h
      · rw [join_prefix (fun c h => hd.1 c (by simp [h])) (hd.1 last (by simp)) hc.1 hcs]
        constructor
        · rintro ⟨ext, rest, h⟩; exact .inr ⟨init, last, ext, rest, rfl, h⟩
        · rintro (h | ⟨i, l, e, r, h1, h2⟩)
          · exact absurd h hn
          · have := List.append_inj' h1 rfl
            obtain ⟨rfl, h⟩ := this
            simp only [List.cons.injEq, and_true] at h; subst h
            exact ⟨e, r, h2⟩

/-- C51: a path starts with each of the paths whose components are its first components. -/
theorem C51_starts_with_prefix {E : Env} {ds es : List Str} {p q : Matter} (hp : newWithPath E (.arr ((ds ++ es).map .str)) = .ok p)
    (hq : newWithPath E (.arr (ds.map .str)) = .ok q) (hc : Clean (ds ++ es))
    (hl : (pathText (ds ++ es)).length ≤ 4 * (64 ^ 4 - 1)) : startsWith p q = .ok true := by
  have hd : Clean ds := clean_left hc
  have hld : (pathText ds).length ≤ 4 * (64 ^ 4 - 1) := Nat.le_trans (pathText_length_left ds es) hl
  obtain ⟨b, h1, h2⟩ := C51_starts_with hp hq hc hd hl hld
  rw [h1, h2.mpr]
  by_cases hn : ds = []
  · exact .inl hn
  · refine .inr ⟨ds.dropLast, ds.getLast hn, [], es, (List.dropLast_concat_getLast hn).symm, ?_⟩
    rw [List.append_nil, ← List.singleton_append, ← List.append_assoc, List.dropLast_concat_getLast]

theorem lastPos_at : ∀ {a : List Str} {x : Str} {b : List Str}, x ∉ b → lastPos (a ++ x :: b) x = some a.length
  | [], x, b, h => by
    have : ∀ {b : List Str}, x ∉ b → lastPos b x = none := by
      intro b
      induction b with
      | nil => intro _; rfl
      | cons y ys ih =>
        intro h
        rw [lastPos, ih (fun hh => h (by simp [hh]))]
        simp only [List.mem_cons, not_or] at h
        rw [if_neg (fun e => h.1 e.symm)]
    rw [List.nil_append, lastPos, this h]; simp
  | y :: a, x, b, h => by rw [List.cons_append, lastPos, lastPos_at h]; simp

theorem lastPos_none : ∀ {a : List Str} {x : Str}, x ∉ a → lastPos a x = none
  | [], _, _ => rfl
  | y :: a, x, h => by
    simp only [List.mem_cons, not_or] at h
    rw [lastPos, lastPos_none h.2, if_neg (fun e => h.1 e.symm)]

theorem removeAll_prefix {es : List Str} : ∀ (k : Nat) (pre post : List Str), pre.length = k → (pre ++ post).Nodup → (∀ d ∈ pre ++ post, d ∉ es) →
    removeAll (pre ++ post ++ es) pre.reverse (pre ++ es) = .ok es := by
  intro k
  induction k with
  | zero => intro pre post hk _ _; rw [List.length_eq_zero_iff.mp hk]; rfl
  | succ k ih =>
    intro pre post hk hn hd
    have hne : pre ≠ [] := fun e => by simp [e] at hk
    obtain ⟨init, x, rfl⟩ : ∃ i l, pre = i ++ [l] := ⟨pre.dropLast, pre.getLast hne, (List.dropLast_concat_getLast hne).symm⟩
    have hx : x ∉ post ++ es := by
      intro h
      rcases List.mem_append.mp h with h | h
      · rw [List.append_assoc, List.nodup_append] at hn
        have := hn.2.1
        simp only [List.singleton_append, List.nodup_cons] at this
        exact this.1 h
      · exact hd x (by simp) h
    rw [List.reverse_append]
    simp only [List.reverse_cons, List.reverse_nil, List.nil_append, List.singleton_append]
    rw [removeAll, show init ++ [x] ++ post ++ es = init ++ x :: (post ++ es) by simp, lastPos_at hx]
    simp only
    rw [if_pos (by simp), List.append_assoc, List.singleton_append, List.eraseIdx_append_of_length_le (Nat.le_refl _)]
    simp only [Nat.sub_self, List.eraseIdx_cons_zero]
    have := ih init (x :: post) (by simpa using hk) (by simpa using hn) (by simpa using hd)
    rw [show init ++ x :: (post ++ es) = init ++ x :: post ++ es by simp]
    exact this

/-- C51. When the components of the root are the first components of the path and occur nowhere else in it, `strip` gives the path of the
other components, and `root` puts the root back in front. -/
theorem C51_strip_root {E : Env} {ds es : List Str} {p q : Matter} (hp : newWithPath E (.arr ((ds ++ es).map .str)) = .ok p)
    (hq : newWithPath E (.arr (ds.map .str)) = .ok q) (hc : Clean (ds ++ es)) (he : Clean es)
    (hl : (pathText (ds ++ es)).length ≤ 4 * (64 ^ 4 - 1)) (hn : ds.Nodup) (hdis : ∀ d ∈ ds, d ∉ es) :
    ∃ r, newWithPath E (.arr (es.map .str)) = .ok r ∧ strip E p q = .ok r ∧ root E r q = .ok p := by
  have hd : Clean ds := clean_left hc
  have hld : (pathText ds).length ≤ 4 * (64 ^ 4 - 1) := Nat.le_trans (pathText_length_left ds es) hl
  have hle : (pathText es).length ≤ 4 * (64 ^ 4 - 1) := Nat.le_trans (pathText_length_right ds es) hl
  have hb : ∀ c ∈ es, IsB64Text c := fun c h => (newWithPath_bext hp).1 c (by simp [h])
  obtain ⟨r, _, _, hr, hrb, _⟩ := C49_roundtrip E (aligned_strs es) hb hle
  have cp := comps_of (built_bext hp hl) (.inl ⟨hc, rfl⟩)
  have cq := comps_of (built_bext hq hld) (.inl ⟨hd, rfl⟩)
  have cr := comps_of hrb (.inl ⟨he, rfl⟩)
  refine ⟨r, hr, ?_, ?_⟩
  · rw [strip, cq, cp]
    simp only [Res.ok_bind]
    rw [if_neg (by simp)]
    have := removeAll_prefix (es := es) ds.length ds [] rfl (by simpa using hn) (by simpa using hdis)
    rw [List.append_nil] at this
    rw [this]
    exact hr
  · rw [root, cq, cr]
    exact hp

/-- C51: a root with more components than the path leaves the path alone. -/
theorem C51_strip_longer {E : Env} {cs ds : List Str} {p q : Matter} (hp : newWithPath E (.arr (cs.map .str)) = .ok p)
    (hq : newWithPath E (.arr (ds.map .str)) = .ok q) (hc : Clean cs) (hd : Clean ds)
    (hlc : (pathText cs).length ≤ 4 * (64 ^ 4 - 1)) (hld : (pathText ds).length ≤ 4 * (64 ^ 4 - 1)) (h : cs.length < ds.length) :
    strip E p q = .ok p := by
  rw [strip, comps_of (built_bext hq hld) (.inl ⟨hd, rfl⟩), comps_of (built_bext hp hlc) (.inl ⟨hc, rfl⟩)]
  simp only [Res.ok_bind]
  rw [if_pos h]

theorem removeAll_missing {orig : List Str} {d : Str} (hm : d ∉ orig) : ∀ {ps path : List Str}, d ∈ ps → removeAll orig ps path = .panic
  | [], _, h => by simp at h
  | p :: ps, path, h => by
    rw [removeAll]
    by_cases hd : p = d
    · subst hd; rw [lastPos_none hm]
    · have h' : d ∈ ps := by
        rcases List.mem_cons.mp h with h | h
        · exact absurd h.symm hd
        · exact h
      cases lastPos orig p with
      | none => rfl
      | some i =>
        dsimp only
        split
        · exact removeAll_missing hm h'
        · rfl

/-- C51, the defect: a root that is no longer than the path and has a component the path lacks makes `strip` panic. -/
theorem C51_defect_panic {E : Env} {cs ds : List Str} {p q : Matter} (hp : newWithPath E (.arr (cs.map .str)) = .ok p)
    (hq : newWithPath E (.arr (ds.map .str)) = .ok q) (hc : Clean cs) (hd : Clean ds)
    (hlc : (pathText cs).length ≤ 4 * (64 ^ 4 - 1)) (hld : (pathText ds).length ≤ 4 * (64 ^ 4 - 1)) (h : ds.length ≤ cs.length)
    (hm : ∃ d ∈ ds, d ∉ cs) : strip E p q = .panic := by
  obtain ⟨d, h1, h2⟩ := hm
  rw [strip, comps_of (built_bext hq hld) (.inl ⟨hd, rfl⟩), comps_of (built_bext hp hlc) (.inl ⟨hc, rfl⟩)]
  simp only [Res.ok_bind]
  rw [if_neg (by omega), removeAll_missing h2 (by simp [h1])]
  rfl

/-- The path object of concrete components. -/
def samplePath (cs : List Str) : Res Matter := newWithPath Env.debug (.arr (cs.map .str))

/-- C51, the defects: `starts_with` accepts a last component that is only the beginning of a component; `strip` removes the last occurrence of
a repeated component, and removes components that are not in front. -/
theorem C51_defect :
    (do let p ← samplePath [lit "ab"]; let q ← samplePath [lit "a"]; startsWith p q) = .ok true ∧
    (do let p ← samplePath [lit "a", lit "b", lit "a"]; let q ← samplePath [lit "a"]; strip Env.debug p q) = samplePath [lit "a", lit "b"] ∧
    (do let p ← samplePath [lit "a", lit "b"]; let q ← samplePath [lit "b"]; strip Env.debug p q) = samplePath [lit "a"] := by
  decide +kernel

/-! ## C64 -/

/-- C64. `tail` returns the text the path leads to when that text starts with a digest, and the JSON text of a map or list it leads to. -/
theorem C64_tail (E : Env) (H : Hash) (p : Matter) (ked : Value) (s : Str) :
    tail E H p ked = .ok s ↔ ∃ w, resolve E p ked = .ok w ∧
      ((w = .str s ∧ ∃ m, Matter.newWithQb64 s = .ok m ∧ ∃ n, (m.code, n) ∈ digestSizes) ∨
       (((∃ o, w = .obj o) ∨ (∃ a, w = .arr a)) ∧ s = w.toJson)) := by
  rw [tail, Res.bind_eq_ok]
  constructor
  · rintro ⟨w, hw, h⟩
    refine ⟨w, hw, ?_⟩
    cases w with
    | str u =>
      obtain ⟨m, hm, h⟩ := Res.bind_eq_ok.mp h
      simp only [Res.ok.injEq] at h; subst h
      rw [Saider.new, if_neg (by simp)] at hm
      obtain ⟨m', hm', h1⟩ := Res.bind_eq_ok.mp hm
      obtain ⟨_, h2, h3⟩ := Res.bind_eq_ok.mp h1
      exact .inl ⟨rfl, m', hm', validateDigestCode_ok.mp h2⟩
    | obj o => simp only [Res.ok.injEq] at h; exact .inr ⟨.inl ⟨o, rfl⟩, h.symm⟩
    | arr o => simp only [Res.ok.injEq] at h; exact .inr ⟨.inr ⟨o, rfl⟩, h.symm⟩
    | _ => simp at h
  · rintro ⟨w, hw, h⟩
    refine ⟨w, hw, ?_⟩
    rcases h with ⟨rfl, m, hm, hn⟩ | ⟨⟨o, rfl⟩ | ⟨o, rfl⟩, rfl⟩
    · have : Saider.new E H none none none none none none none (some s) none = .ok m := by
        rw [Saider.new, if_neg (by simp), show Matter.new E none none none (some s) none = .ok m from hm]
        simp only [Res.ok_bind, (validateDigestCode_ok (u := ())).mpr hn]
      simp only [this, Res.ok_bind]
    · rfl
    · rfl

/-- C64, the defect: `tail` panics exactly when the path leads to a text on which the reader of primitives panics (see C12). -/
theorem C64_panics (E : Env) (H : Hash) (p : Matter) (ked : Value) :
    tail E H p ked = .panic ↔ ∃ t, resolve E p ked = .ok (.str t) ∧ Matter.ofText E t = .panic := by
  have hpan := C50_no_panic E p ked
  unfold tail
  cases hr : resolve E p ked with
  | panic => exact absurd hr hpan
  | err e => simp
  | ok w =>
    simp only [Res.ok_bind]
    cases w with
    | str t =>
      simp only [Res.ok.injEq, Value.str.injEq, exists_eq_left']
      rw [Saider.new, if_neg (by simp)]
      have hnew : Matter.new E none none none (some t) none = Matter.ofText E t := rfl
      rw [hnew]
      cases hm : Matter.ofText E t with
      | panic => exact ⟨fun _ => rfl, fun _ => rfl⟩
      | err e => exact ⟨fun h => absurd h (by intro h; cases h), fun h => absurd h (by simp)⟩
      | ok m =>
        simp only [Res.ok_bind, reduceCtorEq, iff_false]
        cases hv : validateDigestCode m.code with
        | ok _ => simp
        | err e => simp
        | panic => exact absurd hv (by unfold validateDigestCode; split <;> simp)
    | _ => simp

/-- C64: the tail of a path that leads to a map or list parses back to that map or list. -/
theorem C64_container (E : Env) (H : Hash) (F : Str → Option Str) {p : Matter} {ked w : Value} (hw : resolve E p ked = .ok w) (hp : Plain w)
    (hF : FloatsRead F w) (hd : depth w < 128) (hc : (∃ o, w = .obj o) ∨ (∃ a, w = .arr a)) :
    ∃ s, tail E H p ked = .ok s ∧ Json.fromStr F s = .ok w := by
  refine ⟨w.toJson, (C64_tail E H p ked _).mpr ⟨w, hw, .inr ⟨hc, rfl⟩⟩, ?_⟩
  rw [C39_roundtrip F hp hF, if_pos hd]

/-! ## Concrete cases -/

/-- A document with a map, a list and a text. -/
def sampleDoc : Value := .obj [(lit "a", .arr [.int 7, .obj [(lit "b", .str (lit "x"))]]), (lit "c", .str (lit "y"))]

example : ∃ p, newWithPath Env.debug (.arr [.str (lit "a"), .int 1, .str (lit "b")]) = .ok p ∧
    path p = .ok (.arr [.str (lit "a"), .str (lit "1"), .str (lit "b")]) ∧ resolve Env.debug p sampleDoc = .ok (.str (lit "x")) := by
  obtain ⟨p, _, _, h1, h2, _, _, _, _, _, _, _, h3⟩ := C49_roundtrip Env.debug (a := [.str (lit "a"), .int 1, .str (lit "b")]) (cs := [lit "a", lit "1", lit "b"])
    (.cons (.inl rfl) (.cons (.inr ⟨1, rfl, (intText_iff _ _).mpr (by decide +kernel)⟩) (.cons (.inl rfl) .nil))) (by unfold IsB64Text; decide +kernel) (by decide +kernel)
  have hc : Clean [lit "a", lit "1", lit "b"] := by unfold Clean; decide +kernel
  exact ⟨p, h1, h3.mpr hc, (C50_resolve _ p _ _).mpr ⟨_, _, h2, .inl ⟨hc, rfl⟩, walk_ok.mp (by rfl)⟩⟩

example : Leads 64 sampleDoc [lit "a", lit "1", lit "b"] (.str (lit "x")) :=
  walk_ok.mp (by rfl)

example : Leads 64 sampleDoc [lit "1"] (.str (lit "y")) := walk_ok.mp (by rfl)

example : Clean [lit "a", lit "1", lit "b"] ∧ ¬ Clean [lit "a-b"] := by
  unfold Clean; decide +kernel

example : (do let p ← samplePath [lit "a", lit "1", lit "b"]; let q ← samplePath [lit "a", lit "1"]; startsWith p q) = .ok true ∧
    (do let p ← samplePath [lit "a", lit "1", lit "b"]; let q ← samplePath [lit "a", lit "1"]; strip Env.debug p q) = samplePath [lit "b"] ∧
    (do let p ← samplePath [lit "a"]; let q ← samplePath [lit "b"]; strip Env.debug p q) = .panic := by
  decide +kernel

end Cesride
