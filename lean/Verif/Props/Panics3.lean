import Verif.Props.Build
import Verif.Props.Salter
import Verif.Props.Serder
import Verif.Props.Texts
import Verif.Props.Tholder4

/-! # C100: where the remaining calls panic -/

namespace Cesride.Spec

/-- Reading a list of texts as primitives with one of the codes, in order, panics: the ones before were read and have such a code, and reading
the next one panics. -/
def ListPanics (E : Env) (codes : List Str) (a : List Value) : Prop :=
  ∃ pre t post ms, a = pre ++ .str t :: post ∧
    Aligned (fun v m => ∃ u, v = .str u ∧ Matter.ofText E u = .ok m ∧ m.code ∈ codes) pre ms ∧ Matter.ofText E t = .panic

end Cesride.Spec

namespace Cesride
open Spec (Aligned)

theorem parseAll_panic_iff {f : Str → Res Matter} : ∀ {a : List Value}, Serder.parseAll f a = .panic ↔
    ∃ pre t post ms, a = pre ++ .str t :: post ∧ Aligned (fun v m => ∃ t, v = .str t ∧ f t = .ok m) pre ms ∧ f t = .panic
  | [] => by
    constructor
    · intro h; cases h
    · rintro ⟨pre, t, post, ms, h, _⟩
      cases pre <;> cases h
  | v :: rest => by
    rw [Serder.parseAll]
    constructor
    · intro h
      cases v with
      | str t =>
        simp only [Value.toStr, Res.ok_bind] at h
        cases hf : f t with
        | panic => exact ⟨[], t, rest, [], rfl, .nil, hf⟩
        | err e => rw [hf] at h; cases h
        | ok m =>
          rw [hf, Res.ok_bind] at h
          cases hr : Serder.parseAll f rest with
          | ok ms => rw [hr] at h; cases h
          | err e => rw [hr] at h; cases h
          | panic =>
            obtain ⟨pre, u, post, ms, rfl, h1, h2⟩ := parseAll_panic_iff.mp hr
            exact ⟨.str t :: pre, u, post, m :: ms, rfl, .cons ⟨t, rfl, hf⟩ h1, h2⟩
      | _ => cases h
    · rintro ⟨pre, t, post, ms, h, h1, h2⟩
      cases pre with
      | nil =>
        simp only [List.nil_append, List.cons.injEq] at h
        obtain ⟨rfl, rfl⟩ := h
        simp only [Value.toStr, Res.ok_bind, h2]
        rfl
      | cons w pre =>
        simp only [List.cons_append, List.cons.injEq] at h
        obtain ⟨rfl, rfl⟩ := h
        rcases h1 with _ | ⟨⟨u, rfl, hu⟩, hr⟩
        simp only [Value.toStr, Res.ok_bind, hu]
        rw [parseAll_panic_iff.mpr ⟨pre, t, post, _, rfl, hr, h2⟩]
        rfl

theorem withCode_ne_panic (codes : List Str) (m : Matter) : withCode codes m ≠ .panic := by
  unfold withCode
  split <;> simp

theorem read_then {α : Type} {r : Res Matter} {f : Matter → Res α} (h : ∀ m, r = .ok m → f m ≠ .panic) : (do let m ← r; f m) = .panic ↔ r = .panic := by
  cases r with
  | ok m => simp [h m rfl]
  | err e => simp
  | panic => simp

/-- Reading a list, with the constructor of a type that checks a list of codes. -/
theorem parseAll_codes {E : Env} {f : Str → Res Matter} {codes : List Str} (hf : ∀ t, f t = (do let m ← Matter.ofText E t; withCode codes m)) (a : List Value) :
    Serder.parseAll f a = .panic ↔ Spec.ListPanics E codes a := by
  have ok : ∀ t m, f t = .ok m ↔ Matter.ofText E t = .ok m ∧ m.code ∈ codes := by
    intro t m
    rw [hf, Res.bind_eq_ok]
    constructor
    · rintro ⟨x, hx, h⟩
      unfold withCode at h
      split at h
      · rename_i hc
        injection h with h; subst h
        exact ⟨hx, hc⟩
      · cases h
    · rintro ⟨h1, h2⟩
      exact ⟨m, h1, if_pos h2⟩
  have pan : ∀ t, f t = .panic ↔ Matter.ofText E t = .panic := by
    intro t
    rw [hf, read_then fun m _ => withCode_ne_panic _ m]
  rw [parseAll_panic_iff]
  simp only [ok, pan]
  exact Iff.rfl

theorem verfer_text (E : Env) (t : Str) : Verfer.new E none none none (some t) none = (do let m ← Matter.ofText E t; withCode Spec.Typed.keyCodes m) :=
  (C67_typed E zeroHash toy none none (some t) none (.text t) rfl).1

theorem diger_text (E : Env) (H : Hash) (t : Str) : Diger.new E H none none none none (some t) none =
    (match Matter.ofText E t with
      | .ok m => withCode Spec.Typed.digestCodes m
      | .panic => .panic
      | .err _ => .err .validation) :=
  (C67_typed E H toy none none (some t) none (.text t) rfl).2.2.2.2.2.2.2.1 none

theorem parseAll_congr {f g : Str → Res Matter} (hp : ∀ t, f t = .panic ↔ g t = .panic) (ho : ∀ t m, f t = .ok m ↔ g t = .ok m) (a : List Value) :
    Serder.parseAll f a = .panic ↔ Serder.parseAll g a = .panic := by
  rw [parseAll_panic_iff, parseAll_panic_iff]
  simp only [hp, ho]

/-- C100. The lists of an event: reading the keys (`k`), the digests of the next keys (`n`) or the witnesses (`b`) panics exactly when all entries
before some text are read and reading that text panics. -/
theorem C100_lists (E : Env) (H : Hash) {s : Sadder} {o : List (Str × Value)} (ho : s.ked = .obj o) :
    (Serder.verfers E s = .panic ↔ ∃ a, o.lookup (lit "k") = some (.arr a) ∧ Spec.ListPanics E Spec.Typed.keyCodes a) ∧
    (Serder.digers E H s = .panic ↔ ∃ a, o.lookup (lit "n") = some (.arr a) ∧ Spec.ListPanics E Spec.Typed.digestCodes a) ∧
    (Serder.werfers E s = .panic ↔ ∃ a, o.lookup (lit "b") = some (.arr a) ∧ Spec.ListPanics E Spec.Typed.keyCodes a) := by
  have hd : ∀ a, Serder.parseAll (fun t => Diger.new E H none none none none (some t) none) a = .panic ↔ Spec.ListPanics E Spec.Typed.digestCodes a := by
    intro a
    rw [parseAll_congr (g := fun t => do let m ← Matter.ofText E t; withCode Spec.Typed.digestCodes m) ?_ ?_, parseAll_codes fun _ => rfl]
    · intro t
      rw [diger_text]
      cases Matter.ofText E t <;> simp
    · intro t m
      rw [diger_text]
      cases Matter.ofText E t <;> simp
  unfold Serder.verfers Serder.digers Serder.werfers
  rw [ho]
  simp only [Value.toMap, Res.ok_bind]
  refine ⟨?_, ?_, ?_⟩
  · cases h : o.lookup (lit "k") with
    | none => simp [hasKey_none h]
    | some v =>
      simp only [hasKey_some h, if_true, Sadder.index_ok.mpr ⟨o, rfl, h⟩, Res.ok_bind]
      cases v <;> simp [Value.toVec, parseAll_codes (verfer_text E)]
  · cases h : o.lookup (lit "n") with
    | none => simp [hasKey_none h]
    | some v =>
      simp only [hasKey_some h, if_true, Sadder.index_ok.mpr ⟨o, rfl, h⟩, Res.ok_bind]
      cases v <;> simp [Value.toVec, hd]
  · cases h : o.lookup (lit "b") with
    | none => simp [hasKey_none h]
    | some v =>
      simp only [hasKey_some h, if_true, Sadder.index_ok.mpr ⟨o, rfl, h⟩, Res.ok_bind]
      cases v <;> simp [Value.toVec, parseAll_codes (verfer_text E)]

/-- C100. The other accessors of an event and of a credential. The thresholds panic exactly when reading the field as a threshold does
(C38), the sequence number without `s`, the first-seen number on a text `f` whose reading as a primitive, or as a number, panics;
registry and edges of a credential never. -/
theorem C100_fields (E : Env) (F : Str → Option Str) {s : Sadder} {o : List (Str × Value)} (ho : s.ked = .obj o) :
    (Serder.tholder E F s = .panic ↔ ∃ v, o.lookup (lit "kt") = some v ∧ Tholder.ofSith E F v = .panic) ∧
    (Serder.ntholder E F s = .panic ↔ ∃ v, o.lookup (lit "nt") = some v ∧ Tholder.ofSith E F v = .panic) ∧
    (Serder.sner E s = .panic ↔ lit "s" ∉ o.map Prod.fst) ∧
    (Serder.fner E s = .panic ↔ ∃ t, o.lookup (lit "f") = some (.str t) ∧ Matter.ofText E t = .panic) ∧
    (Serder.fn E s = .panic ↔ ∃ t, o.lookup (lit "f") = some (.str t) ∧
      (Matter.ofText E t = .panic ∨ ∃ m, Matter.ofText E t = .ok m ∧ Number.num m = .panic)) ∧
    Creder.status s ≠ .panic ∧ Creder.chains s ≠ .panic := by
  have hth : ∀ label, Serder.tholderAt label E F s = .panic ↔ ∃ v, o.lookup label = some v ∧ Tholder.ofSith E F v = .panic := by
    intro label
    unfold Serder.tholderAt
    rw [ho]
    simp only [Value.toMap, Res.ok_bind]
    cases h : o.lookup label with
    | none => simp [hasKey_none h]
    | some v =>
      simp only [hasKey_some h, if_true, Sadder.index_ok.mpr ⟨o, rfl, h⟩, Res.ok_bind, Option.some.injEq, exists_eq_left']
      show (do let t ← Tholder.ofSith E F v; Res.ok (some t)) = _ ↔ _
      cases Tholder.ofSith E F v <;> simp
  have hf : Serder.fner E s = (match o.lookup (lit "f") with
      | none => .ok none
      | some v => (do let t ← v.toStr; let m ← Matter.ofText E t; .ok (some m))) := by
    unfold Serder.fner
    rw [ho]
    simp only [Value.toMap, Res.ok_bind]
    cases h : o.lookup (lit "f") with
    | none => simp [hasKey_none h]
    | some v =>
      simp only [hasKey_some h, if_true, Sadder.index_ok.mpr ⟨o, rfl, h⟩, Res.ok_bind]
      cases v.toStr <;> rfl
  refine ⟨hth _, hth _, ?_, ?_, ?_, ?_, ?_⟩
  · rw [← (C60_sn (E := E) ho).2]
    have key : ∀ m, Serder.sner E s = .ok m → Number.num m ≠ .panic := by
      intro m hm
      unfold Serder.sner at hm
      obtain ⟨v, _, hm⟩ := Res.bind_eq_ok.mp hm
      obtain ⟨t, _, hm⟩ := Res.bind_eq_ok.mp hm
      have num : ∀ n, n < 2 ^ 128 → Number.ofNum E n = .ok m → Number.num m ≠ .panic := by
        intro n hn h
        obtain ⟨x, _, _, _, h1, h2, _⟩ := C28_number_roundtrip E hn
        rw [h] at h1
        rw [Res.ok.inj h1, h2]; simp
      have hm : Number.ofHex E t = .ok m := hm
      obtain ⟨h1, h2, h3⟩ := C28_number_hex E t
      by_cases he : t = []
      · rw [h1 he] at hm; exact num 0 (by decide) hm
      · by_cases hx : ∃ n, Spec.HexNumeral t n ∧ n < 2 ^ 128
        · obtain ⟨n, hn, hb⟩ := hx
          rw [h2 n hn hb] at hm; exact num n hb hm
        · rw [h3 he hx] at hm; cases hm
    unfold Serder.sn
    exact (read_then key).symm
  · rw [hf]
    cases o.lookup (lit "f") with
    | none => simp
    | some v =>
      cases v with
      | str t => simp only [Value.toStr, Res.ok_bind, Option.some.injEq, Value.str.injEq, exists_eq_left']; cases Matter.ofText E t <;> simp
      | _ => simp [Value.toStr]
  · unfold Serder.fn
    rw [hf]
    cases o.lookup (lit "f") with
    | none => simp
    | some v =>
      cases v with
      | str t => simp only [Value.toStr, Res.ok_bind, Option.some.injEq, Value.str.injEq, exists_eq_left']; cases Matter.ofText E t <;> simp
      | _ => simp [Value.toStr]
  · unfold Creder.status
    rw [ho]
    simp only [Value.toMap, Res.ok_bind]
    cases h : o.lookup (lit "ri") with
    | none => simp [hasKey_none h]
    | some v =>
      simp only [hasKey_some h, if_true, Sadder.index_ok.mpr ⟨o, rfl, h⟩, Res.ok_bind]
      cases v <;> simp [Value.toStr]
  · rw [(C61_fields ho).2.2.2.2.2.2.2.2.1]; simp

theorem fixed_ne_panic (E : Env) {c : Str} {n : Nat} (h : (c, n) ∈ Spec.fixedCodes) (raw : List UInt8) : Matter.new E (some c) (some raw) none none none ≠ .panic := by
  obtain ⟨z, hz, hf, _⟩ := Matter.fixed_sizage h
  show Matter.newWithCodeAndRaw c raw ≠ .panic
  rw [Matter.new_fixed hz hf]
  split <;> simp

theorem indexer_ne_panic (code : Str) (raw : List UInt8) (index : Nat) (ondex : Option Nat) : Indexer.newWithCodeAndRaw code raw index ondex ≠ .panic := by
  intro h
  cases hz : Indexer.sizage code with
  | panic => exact Indexer.sizage_ne_panic _ hz
  | err e =>
    unfold Indexer.newWithCodeAndRaw at h
    split at h
    · cases h
    · rw [hz] at h; cases h
  | ok z =>
    rw [Indexer.new_eq hz] at h
    generalize (if z.fs = u32Max then 3 * index else (z.fs - (z.hs + z.ss)) * 3 / 4) = k at h
    split at h
    · cases h
    · split at h <;> cases h

theorem sign_ne_panic (C : Crypto) (code : Str) (key ser : List UInt8) (r : Nat) : Sign.sign C code key ser r ≠ .panic := by
  unfold Sign.sign
  split
  · split <;> simp
  · split <;> simp
  · simp

theorem signer_new_ne_panic (E : Env) (C : Crypto) (r : Nat) (t : Option Bool) (code : Str) (raw : List UInt8) :
    Signer.new E C r t (some code) (some raw) none none none ≠ .panic := by
  by_cases hc : ∃ c, code = (schemeOf c).seed
  · obtain ⟨c, rfl⟩ := hc
    rw [C65_from_raw]
    split
    · simp
    · split <;> simp
  · rw [(C65_codes E C r t (some raw)).2 code]
    · simp
    · intro S hS he
      refine hc ?_
      have : ∀ S ∈ Spec.schemes, ∃ c ∈ [Curve.ed25519, .k1, .r1], S.seed = (schemeOf c).seed := by decide +kernel
      obtain ⟨c, _, h⟩ := this S hS
      exact ⟨c, he.trans h⟩

/-- C100. Signing and verifying never panic, for every state of a signer or of a verifier; nor does deriving a key from a salt. -/
theorem C100_signing (E : Env) (C : Crypto) (g : Signer) (v : Matter) (ser sig : List UInt8) (only : Bool) (index : Nat) (ondex : Option Nat) (r : Nat)
    (s : Salter) (size : Option Nat) (code : Option Str) (tr : Option Bool) (path tier : Option Str) (temp : Option Bool) :
    Signer.signUnindexed E C g ser r ≠ .panic ∧ Signer.signIndexed E C g ser only index ondex r ≠ .panic ∧
    Verfer.verify C v sig ser ≠ .panic ∧
    Salter.stretch C s size path tier temp ≠ .panic ∧ Salter.signer E C s code tr path tier temp ≠ .panic := by
  have hst : ∀ size path temp, Salter.stretch C s size path tier temp ≠ .panic := by
    intro size path temp
    unfold Salter.stretch stretchSalt
    simp only
    intro h
    rcases Res.bind_eq_panic.mp h with h | ⟨⟨m, t⟩, _, h⟩
    · repeat' split at h
      all_goals cases h
    · simp only at h
      split at h <;> cases h
  refine ⟨?_, ?_, ?_, hst _ _ _, ?_⟩
  · unfold Signer.signUnindexed
    intro h
    rcases Res.bind_eq_panic.mp h with h | ⟨c, hc, h⟩
    · repeat' split at h
      all_goals cases h
    rcases Res.bind_eq_panic.mp h with h | ⟨sg, _, h⟩
    · exact sign_ne_panic _ _ _ _ _ h
    have hfix : (c, 64) ∈ Spec.fixedCodes := by
      repeat' split at hc
      all_goals try cases hc
      all_goals decide +kernel
    unfold Cigar.new at h
    rcases Res.bind_eq_panic.mp h with h | ⟨m, _, h⟩
    · exact fixed_ne_panic E hfix _ h
    rcases Res.bind_eq_panic.mp h with h | ⟨u, _, h⟩
    · unfold Cigar.validateCode at h; split at h <;> cases h
    · cases h
  · unfold Signer.signIndexed
    have hpick : ∀ a b c d, Signer.pick a b c d ≠ .panic := by
      intro a b c d
      unfold Signer.pick
      repeat' split
      all_goals simp
    intro h
    rcases Res.bind_eq_panic.mp h with h | ⟨⟨c, o⟩, hc, h⟩
    · split at h
      · rcases Res.bind_eq_panic.mp h with h | ⟨u, _, h⟩
        · split at h <;> exact hpick _ _ _ _ h
        · cases h
      · rcases Res.bind_eq_panic.mp h with h | ⟨u, _, h⟩
        · split at h <;> exact hpick _ _ _ _ h
        · cases h
    rcases Res.bind_eq_panic.mp h with h | ⟨sg, _, h⟩
    · exact sign_ne_panic _ _ _ _ _ h
    unfold Siger.new at h
    rcases Res.bind_eq_panic.mp h with h | ⟨x, _, h⟩
    · exact indexer_ne_panic _ _ _ _ h
    rcases Res.bind_eq_panic.mp h with h | ⟨u, _, h⟩
    · unfold Siger.validateCode at h; split at h <;> cases h
    · cases h
  · unfold Verfer.verify
    intro h
    rcases Res.bind_eq_panic.mp h with h | ⟨u, _, h⟩
    · unfold Verfer.validateCode at h; split at h <;> cases h
    · unfold Sign.verify at h
      repeat' split at h
      all_goals cases h
  · unfold Salter.signer
    intro h
    rcases Res.bind_eq_panic.mp h with h | ⟨n, _, h⟩
    · unfold Matter.rawSize at h
      rcases Res.bind_eq_panic.mp h with h | ⟨z, _, h⟩
      · exact Matter.sizage_ne_panic _ h
      · split at h <;> cases h
    rcases Res.bind_eq_panic.mp h with h | ⟨sd, _, h⟩
    · exact hst _ _ _ h
    · exact signer_new_ne_panic _ _ _ _ _ _ h

/-- C100. Deriving several keys panics exactly in a build with overflow checks, when the positions asked for leave the range of `usize` and all
keys before can be derived. -/
theorem C100_signers (E : Env) (C : Crypto) (s : Salter) (count start : Nat) (hstart : start ≤ 2 ^ E.usizeBits) (path code : Option Str) (tr : Option Bool) (tier : Option Str)
    (temp : Option Bool) : Salter.signers E C s (some count) (some start) path code tr tier temp = .panic ↔
      E.overflowChecks = true ∧ 2 ^ E.usizeBits < start + count ∧
        ∃ l, Salter.signers E C s (some (2 ^ E.usizeBits - start)) (some start) path code tr tier temp = .ok l := by
  have hs : ∀ p, Salter.signer E C s code tr (some p) tier temp ≠ .panic := fun p =>
    (C100_signing E C ⟨⟨[], 0, []⟩, ⟨[], 0, []⟩⟩ ⟨[], 0, []⟩ [] [] true 0 none 0 s none code tr (some p) tier temp).2.2.2.2
  have hsafe : ∀ l : List Nat, (E.overflowChecks = true → ∀ i ∈ l, i + start < 2 ^ E.usizeBits) → Salter.signersLoop E C s start (path.getD []) code tr tier temp l ≠ .panic := by
    intro l
    induction l with
    | nil => intro _; simp [Salter.signersLoop]
    | cons i l ih =>
      intro hl h
      unfold Salter.signersLoop at h
      rcases Res.bind_eq_panic.mp h with h | ⟨n, _, h⟩
      · unfold Salter.addUsize at h
        split at h
        · cases h
        · rename_i hf
          split at h
          · rename_i ho
            exact hf (hl ho i List.mem_cons_self)
          · cases h
      rcases Res.bind_eq_panic.mp h with h | ⟨x, _, h⟩
      · exact hs _ h
      rcases Res.bind_eq_panic.mp h with h | ⟨x, _, h⟩
      · exact ih (fun ho j hj => hl ho j (List.mem_cons_of_mem _ hj)) h
      · cases h
  unfold Salter.signers
  simp only [Option.getD_some]
  constructor
  · intro h
    have ho : E.overflowChecks = true := by
      cases ho : E.overflowChecks with
      | true => rfl
      | false => exact absurd h (hsafe _ (by simp [ho]))
    have hc : 2 ^ E.usizeBits < start + count := by
      apply Nat.lt_of_not_le
      intro hle
      refine hsafe _ ?_ h
      intro _ i hi
      have := List.mem_range.mp hi
      omega
    refine ⟨ho, hc, ?_⟩
    have hk : List.range count = List.range (2 ^ E.usizeBits - start) ++ List.range' (2 ^ E.usizeBits - start) (count - (2 ^ E.usizeBits - start)) := by
      rw [List.range_eq_range', List.range_eq_range', show count = (2 ^ E.usizeBits - start) + (count - (2 ^ E.usizeBits - start)) by omega, ← List.range'_append_1]
      congr 2 <;> omega
    rw [hk, signersLoop_append] at h
    cases hf : Salter.signersLoop E C s start (path.getD []) code tr tier temp (List.range (2 ^ E.usizeBits - start)) with
    | ok l => exact ⟨l, rfl⟩
    | err e => rw [hf] at h; cases h
    | panic =>
      refine absurd hf (hsafe _ ?_)
      intro _ i hi
      have := List.mem_range.mp hi
      omega
  · rintro ⟨ho, hc, l, hl⟩
    have hk : List.range count = List.range (2 ^ E.usizeBits - start) ++ (2 ^ E.usizeBits - start) :: List.range' (2 ^ E.usizeBits - start + 1) (count - (2 ^ E.usizeBits - start) - 1) := by
      rw [List.range_eq_range', List.range_eq_range', ← List.range'_succ, show count = (2 ^ E.usizeBits - start) + (count - (2 ^ E.usizeBits - start) - 1 + 1) by omega, ← List.range'_append_1]
      congr 2 <;> omega
    rw [hk, signersLoop_append, hl]
    simp only [Res.ok_bind, Salter.signersLoop, Salter.addUsize]
    rw [if_neg (by omega), if_pos ho]
    rfl

theorem derive_panic (E : Env) (C : Crypto) (code : Str) (key : List UInt8) (t : Bool) :
    Signer.deriveVerfer E C code key t = .panic ↔ code = lit "A" ∧ key.length < 32 := by
  have hv : ∀ c n raw, (c, n) ∈ Spec.fixedCodes → Verfer.new E (some c) (some raw) none none none ≠ .panic := by
    intro c n raw hc h
    unfold Verfer.new at h
    rcases Res.bind_eq_panic.mp h with h | ⟨m, _, h⟩
    · exact fixed_ne_panic E hc _ h
    rcases Res.bind_eq_panic.mp h with h | ⟨u, _, h⟩
    · unfold Verfer.validateCode at h; split at h <;> cases h
    · cases h
  constructor
  · intro h
    unfold Signer.deriveVerfer at h
    rcases Res.bind_eq_panic.mp h with h | ⟨c, hc, h⟩
    · repeat' split at h
      all_goals cases h
    rcases Res.bind_eq_panic.mp h with h | ⟨raw, _, h⟩
    · unfold Sign.publicKey at h
      split at h
      · rename_i hcv
        have hA : code = lit "A" := by
          repeat' split at hc
          all_goals first | assumption | (try cases hc)
          all_goals (rename_i he; rw [he] at hcv; exact absurd hcv (by decide +kernel))
        refine ⟨hA, ?_⟩
        rcases Res.bind_eq_panic.mp h with h | ⟨k, _, h⟩
        · unfold slice at h
          split at h
          · cases h
          · rename_i hl; omega
        · cases h
      · split at h <;> cases h
      · cases h
    · have : (c, 32) ∈ Spec.fixedCodes ∨ (c, 33) ∈ Spec.fixedCodes := by
        repeat' split at hc
        all_goals try cases hc
        all_goals decide +kernel
      rcases this with hf | hf
      · exact absurd h (hv _ _ _ hf)
      · exact absurd h (hv _ _ _ hf)
  · rintro ⟨rfl, hl⟩
    have hs : slice key 0 32 = .panic := by unfold slice; rw [if_neg (by omega)]
    unfold Signer.deriveVerfer Sign.publicKey
    rw [show Sign.curveOf (lit "A") = some .ed25519 by decide +kernel]
    simp only [hs]
    cases t <;> rfl

theorem withCode_read {E : Env} {i : Spec.Input} (codes : List Str) : (do let m ← Matter.read E i; withCode codes m) = .panic ↔ Matter.read E i = .panic :=
  read_then fun m _ => withCode_ne_panic _ m

/-- C100. Reading a typed primitive panics exactly when reading the primitive does (C12, C22); a signer also on an Ed25519 private key of less than
32 bytes, and a digest object not when the data to digest is given and the input is refused with an error. A number, salt or prefix with
a code argument of another type is an error before the input is read. -/
theorem C100_reading (E : Env) (H : Hash) (C : Crypto) (code : Option Str) (qb64b : Option (List UInt8)) (qb64 : Option Str) (qb2 : Option (List UInt8))
    (i : Spec.Input) (hi : Spec.firstInput qb64b qb64 qb2 = some i) :
    (let P := Matter.read E i = .panic
     (Verfer.new E code none qb64b qb64 qb2 = .panic ↔ P) ∧
     (∀ v, Cigar.new E v code none qb64b qb64 qb2 = .panic ↔ P) ∧
     (∀ sn snh, Seqner.new E sn snh code none qb64b qb64 qb2 = .panic ↔ P) ∧
     (∀ now dts, Dater.new E now dts code none qb64b qb64 qb2 = .panic ↔ P) ∧
     (Bexter.new E none code none qb64b qb64 qb2 = .panic ↔ P) ∧
     (∀ path, Pather.new E path none code none qb64b qb64 qb2 = .panic ↔ P) ∧
     (∀ label kind ignore, Saider.new E H none label kind ignore code none qb64b qb64 qb2 = .panic ↔ P) ∧
     (∀ ser, Diger.new E H ser code none qb64b qb64 qb2 = .panic ↔ P) ∧
     (∀ num numh, Number.new E num numh code none qb64b qb64 qb2 = .panic ↔ code.getD (lit "M") ∈ Spec.Typed.numberCodes ∧ P) ∧
     (∀ rnd tier, Salter.new E rnd tier code none qb64b qb64 qb2 = .panic ↔ code.getD (lit "0A") ∈ Spec.Typed.saltCodes ∧ P) ∧
     (∀ ked allows, Prefixer.new E H ked allows code none qb64b qb64 qb2 = .panic ↔ code.getD (lit "B") ∈ Spec.Typed.prefixCodes ∧ P) ∧
     (∀ r t, Signer.new E C r t code none qb64b qb64 qb2 = .panic ↔ P ∨ ∃ m, Matter.read E i = .ok m ∧ m.code = lit "A" ∧ m.raw.length < 32)) ∧
    (∀ v index ondex, Siger.new E v index ondex code none qb64b qb64 qb2 = .panic ↔ Indexer.read E i = .panic) := by
  obtain ⟨h1, h2, h3, h4, h5, h6, h7, h8, h9, h10, h11, h12, h13⟩ := C67_typed E H C code qb64b qb64 qb2 i hi
  refine ⟨⟨?_, fun v => ?_, fun sn snh => ?_, fun now dts => ?_, ?_, fun path => ?_, fun label kind ignore => ?_, fun ser => ?_, fun num numh => ?_,
    fun rnd tier => ?_, fun ked allows => ?_, fun r t => ?_⟩, fun v index ondex => ?_⟩
  · rw [h1]; exact withCode_read _
  · rw [h2]
    apply read_then
    intro m _ h
    rcases Res.bind_eq_panic.mp h with h | ⟨u, _, h⟩
    · exact withCode_ne_panic _ _ h
    · cases h
  · rw [h3]; exact withCode_read _
  · rw [h4]; exact withCode_read _
  · rw [h5]; exact withCode_read _
  · rw [h6]; exact withCode_read _
  · rw [h7]; exact withCode_read _
  · rw [h8]
    have hser : ∀ ser, Diger.new E H (some ser) code none none none none ≠ .panic := by
      intro ser h
      have hm : ∃ e, Matter.new E code none none none none = .err e := by cases code <;> exact ⟨_, rfl⟩
      obtain ⟨e, hm⟩ := hm
      unfold Diger.new at h
      rw [hm] at h
      simp only at h
      rcases Res.bind_eq_panic.mp h with h | ⟨u, hv, h⟩
      · exact validateDigestCode_ne_panic _ h
      rcases Res.bind_eq_panic.mp h with h | ⟨d, _, h⟩
      · unfold hashDigest at h; split at h <;> cases h
      obtain ⟨n, hn⟩ := digestSizes_contains hv
      have : ∀ e ∈ digestSizes, e ∈ Spec.fixedCodes := by decide +kernel
      exact fixed_ne_panic E (this _ hn) _ h
    cases hr : Matter.read E i with
    | panic => simp
    | ok m => simp [withCode_ne_panic]
    | err e =>
      cases ser with
      | none => simp
      | some ser => simpa using hser ser
  · rw [h9]; split <;> simp_all
  · rw [h10]
    split
    · rename_i hc
      simp only [hc, true_and]
      exact read_then fun m _ => by simp
    · simp_all
  · rw [h11]; split <;> simp_all
  · rw [h12]
    cases hr : Matter.read E i with
    | panic => simp
    | err e => simp
    | ok m =>
      simp only [Res.ok_bind, reduceCtorEq, false_or, Res.ok.injEq, exists_eq_left']
      unfold withCode
      split
      · simp only [Res.ok_bind]
        rw [← derive_panic E C m.code m.raw (t.getD true)]
        cases Signer.deriveVerfer E C m.code m.raw (t.getD true) <;> simp
      · rename_i hc
        simp only [Res.err_bind, reduceCtorEq, false_iff, not_and]
        intro he
        exact absurd (by rw [he]; decide +kernel) hc
  · rw [h13]
    cases Indexer.read E i with
    | panic => simp
    | err e => simp
    | ok x => simp only [Res.ok_bind, reduceCtorEq, iff_false]; split <;> simp

/-- C100. Digests: verifying never panics, comparing with a digest object does not, and comparing with a digest text panics exactly when the text is
not the own one and reading it panics. -/
theorem C100_digests (E : Env) (H : Hash) {d e : Matter} (hd : d.code ∈ Spec.Typed.digestCodes) (he : e.code ∈ Spec.Typed.digestCodes) (ser dig : List UInt8) :
    Diger.verify H d ser ≠ .panic ∧ Diger.compareDiger E H d ser e ≠ .panic ∧
    (Diger.compareDig E H d ser dig = .panic ↔ (∃ t, d.qb64 E = .ok t ∧ dig ≠ t) ∧ Matter.ofTextBytes E dig = .panic) := by
  have hq : ∀ m : Matter, m.code ∈ Spec.Typed.digestCodes → m.qb64 E ≠ .panic := by
    intro m hm h
    obtain ⟨_, h⟩ := (C84_text E m).2.mp h
    rcases h with ⟨h, _⟩ | ⟨h, _⟩
    · rw [h] at hm; revert hm; decide +kernel
    · rw [h] at hm; revert hm; decide +kernel
  have hv : ∀ m : Matter, Diger.verify H m ser ≠ .panic := by
    intro m h
    unfold Diger.verify at h
    rcases Res.bind_eq_panic.mp h with h | ⟨d, _, h⟩
    · unfold hashDigest at h; split at h <;> cases h
    · cases h
  have tail : ∀ (x y : Matter), (if x.code = y.code then Res.ok false else do
      let a ← Diger.verify H x ser
      if a then do
        let b ← Diger.verify H y ser
        .ok b
      else .ok false) ≠ .panic := by
    intro x y
    split
    · simp
    · cases h1 : Diger.verify H x ser with
      | panic => exact absurd h1 (hv _)
      | err e => simp
      | ok a =>
        cases a
        · simp
        · cases h2 : Diger.verify H y ser with
          | panic => exact absurd h2 (hv _)
          | err e => simp
          | ok b => simp
  refine ⟨hv d, ?_, ?_⟩
  · unfold Diger.compareDiger
    intro h
    rcases Res.bind_eq_panic.mp h with h | ⟨s, _, h⟩
    · exact hq e he h
    rcases Res.bind_eq_panic.mp h with h | ⟨t, _, h⟩
    · exact hq d hd h
    split at h
    · cases h
    · exact tail _ _ h
  · have hb : d.qb64b E = d.qb64 E := by
      unfold Matter.qb64b
      cases d.qb64 E <;> rfl
    have ht : Diger.compareDig E H d ser dig = (do
        let t ← d.qb64 E
        if dig = t then .ok true
        else do
          let x ← Matter.ofTextBytes E dig
          if x.code = d.code then Res.ok false else do
            let a ← Diger.verify H x ser
            if a then do
              let b ← Diger.verify H d ser
              .ok b
            else .ok false) := by
      unfold Diger.compareDig
      rw [hb]
    rw [ht]
    cases h : d.qb64 E with
    | panic => exact absurd h (hq d hd)
    | err e => simp
    | ok t =>
      simp only [Res.ok_bind, Res.ok.injEq, exists_eq_left']
      split
      · simp_all
      · rename_i hne
        rw [read_then fun m _ => tail m d]
        simp [hne]

/-- C100. Building a date-time panics exactly when byte 32 of the text is inside a character. -/
theorem C100_date (E : Env) (now t : Str) (hu : utf8Valid t = true) : Dater.new E now (some t) none none none none none = .panic ↔ Spec.MidChar t 32 := by
  have he : Dater.new E now (some t) none none none none none = Dater.ofDts E now t := rfl
  rw [he, Dater.ofDts_eq, read_then fun m _ => by split <;> simp]
  have hu' : utf8Valid (t.map isoChar) = true := utf8Valid_iso t hu
  have hA : Ascii (lit "1AAG") := by unfold Ascii; decide +kernel
  have hv : utf8Valid (lit "1AAG" ++ t.map isoChar) = true := by rw [utf8Valid_ascii_append hA, hu']
  rw [show Matter.newWithQb64 (lit "1AAG" ++ t.map isoChar) = Matter.ofText E (lit "1AAG" ++ t.map isoChar) from rfl, C12_all_text_panics_exactly E hv]
  have hmid : ∀ k, Spec.MidChar (lit "1AAG" ++ t.map isoChar) (4 + k) ↔ Spec.MidChar t k := by
    intro k
    unfold Spec.MidChar
    rw [List.getElem?_append_right (by rw [show (lit "1AAG").length = 4 from rfl]; omega), show (lit "1AAG").length = 4 from rfl, show 4 + k - 4 = k by omega,
      List.getElem?_map]
    have hbyte : ∀ b : UInt8, (128 ≤ (isoChar b).toNat ∧ (isoChar b).toNat < 192) ↔ (128 ≤ b.toNat ∧ b.toNat < 192) :=
      byte_forall (P := fun b => (128 ≤ (isoChar b).toNat ∧ (isoChar b).toNat < 192) ↔ (128 ≤ b.toNat ∧ b.toNat < 192)) (by decide +kernel)
    cases t[k]? with
    | none => simp
    | some b => simpa using hbyte b
  have h0 : ¬ Spec.MidChar t 0 := by
    rintro ⟨b, hb, h1, h2⟩
    cases t with
    | nil => cases hb
    | cons a r =>
      obtain rfl : a = b := by simpa using hb
      have hc := utf8_head hu
      have : ∀ a : UInt8, isCont a = false → ¬ (128 ≤ a.toNat ∧ a.toNat < 192) :=
        byte_forall (P := fun a => isCont a = false → ¬ (128 ≤ a.toNat ∧ a.toNat < 192)) (by decide +kernel)
      exact this a hc ⟨h1, h2⟩
  have hfirst : (lit "1AAG" ++ t.map isoChar).head? = some (ch '1') := rfl
  have hvar : ∀ large lead f (rest : Str), lead ≤ 2 → (Spec.varCode large lead f ++ rest).head? ≠ some (ch '1') := by
    intro large lead f rest hl
    match lead, hl with
    | 0, _ => cases large <;> simp only [Spec.varCode, if_true, Bool.false_eq_true, if_false, List.cons_append, List.head?_cons] <;> decide +kernel
    | 1, _ => cases large <;> simp only [Spec.varCode, if_true, Bool.false_eq_true, if_false, List.cons_append, List.head?_cons] <;> decide +kernel
    | 2, _ => cases large <;> simp only [Spec.varCode, if_true, Bool.false_eq_true, if_false, List.cons_append, List.head?_cons] <;> decide +kernel
  constructor
  · rintro (⟨large, lead, f, rest, hl, hf, h⟩ | ⟨head, hh, x, y, rest, h, _⟩ | ⟨k, hk, hm⟩)
    · rw [h, ZeroLeadHead, List.append_assoc] at hfirst
      exact absurd hfirst (hvar _ _ _ _ (by omega))
    · exfalso
      rw [h] at hfirst
      have : ∀ head ∈ OneQuadHeads, ∃ a ∈ lit "369", head.head? = some a := by decide +kernel
      obtain ⟨a, ha, hhd⟩ := this head hh
      rw [List.append_assoc, List.head?_append, hhd] at hfirst
      have e : a = ch '1' := by simpa using hfirst
      rw [e] at ha
      revert ha; decide +kernel
    · rcases hk with ⟨c, rest, h, hc⟩ | ⟨large, lead, f, hl, hf, ⟨r, hp⟩, _⟩ | ⟨code, size, head, n, h1, h2, ⟨r, hp⟩, rfl⟩
      · rw [h] at hfirst
        have e : c = ch '1' := by simpa using hfirst
        rw [e, show Spec.codeLength (ch '1') = some 4 by decide +kernel] at hc
        injection hc with hc
        rw [← hc] at hm
        exact absurd ((hmid 0).mp hm) h0
      · rw [← hp] at hfirst
        exact absurd hfirst (hvar _ _ _ _ hl)
      · rw [← hp] at hfirst
        rcases h1 with ⟨n', hn', _, rfl⟩ | ⟨large, lead, f, digits, hl, _, hcode, rfl, _⟩
        · have : ∀ e ∈ Spec.fixedCodes, e.1 ≠ [] ∧ (e.1.head? = some (ch '1') → e.1.length = 4) := by decide +kernel
          obtain ⟨hne, h4⟩ := this _ hn'
          have h4 := h4 (by
            cases head with
            | nil => exact absurd rfl hne
            | cons a l => simpa using hfirst)
          have e : head = lit "1AAG" := by
            have := congrArg (List.take 4) hp
            rw [List.take_left' h4] at this
            exact this
          rw [e] at h2 hm
          have hn : n = 24 := by
            rcases h2 with h2 | ⟨large, lead, f, hl, _, h2, _⟩
            · have : ∀ e ∈ Spec.fixedCodes, e.1 = lit "1AAG" → e.2 = 24 := by decide +kernel
              exact this _ h2 rfl
            · exact absurd (by rw [← h2]; rfl) (hvar large lead f [] hl)
          rw [hn] at hm
          exact (hmid 32).mp hm
        · rw [hcode, List.append_assoc] at hfirst
          exact absurd hfirst (hvar _ _ _ _ hl)
  · intro h
    refine .inr (.inr ⟨36, .inr (.inr ⟨lit "1AAG", 0, lit "1AAG", 24, .inl ⟨24, by decide +kernel, rfl, rfl⟩, .inl (by decide +kernel), ⟨_, rfl⟩, by decide +kernel⟩), (hmid 32).mpr h⟩)

/-- C100. The value of a number panics exactly when there are not as many raw bytes as its code says, that of a sequence number on less than 16 bytes;
the text of a Bexter or Pather and the date-time of a Dater never. -/
theorem C100_values (E : Env) (m : Matter) :
    (let P := ∃ size, (m.code, size) ∈ Spec.numberCodes ∧ m.raw.length ≠ size
     (Number.num m = .panic ↔ P) ∧ (Number.numh m = .panic ↔ P) ∧ (Number.positive m = .panic ↔ P)) ∧
    (let P := m.raw.length < 16
     (Seqner.sn m = .panic ↔ P) ∧ (Seqner.snh m = .panic ↔ P)) ∧
    Bexter.bext m ≠ .panic ∧ (m.code ∈ Spec.Typed.dateCodes → Dater.dts E m ≠ .panic) := by
  have hn : Number.num m = .panic ↔ ∃ size, (m.code, size) ∈ Spec.numberCodes ∧ m.raw.length ≠ size := by
    by_cases hc : ∃ size, (m.code, size) ∈ Spec.numberCodes
    · obtain ⟨size, hc⟩ := hc
      have huniq : ∀ a ∈ Spec.numberCodes, ∀ b ∈ Spec.numberCodes, a.1 = b.1 → a.2 = b.2 := by decide +kernel
      rw [Number.num_eq hc]
      constructor
      · intro h
        split at h
        · cases h
        · rename_i hl; exact ⟨size, hc, hl⟩
      · rintro ⟨s2, h2, hl⟩
        have : s2 = size := huniq _ h2 _ hc rfl
        subst this
        rw [if_neg hl]
    · constructor
      · intro h
        exfalso
        unfold Number.num at h
        have hx : ∀ c n, (c, n) ∈ Spec.numberCodes → m.code ≠ c := fun c n h1 h2 => hc ⟨n, by rw [h2]; exact h1⟩
        rw [if_neg (hx (lit "M") 2 (by decide +kernel)), if_neg (hx (lit "0H") 4 (by decide +kernel)), if_neg (hx (lit "N") 8 (by decide +kernel)),
          if_neg (hx (lit "0A") 16 (by decide +kernel))] at h
        cases h
      · rintro ⟨s, h, _⟩; exact absurd ⟨s, h⟩ hc
  have hs : Seqner.sn m = .panic ↔ m.raw.length < 16 := by
    unfold Seqner.sn slice
    split
    · rename_i h; simp only [Res.ok_bind, reduceCtorEq, false_iff]; omega
    · rename_i h; simp only [Res.panic_bind, true_iff]; omega
  refine ⟨⟨hn, ?_, ?_⟩, ⟨hs, ?_⟩, Pather.bext_ne_panic m, ?_⟩
  · rw [← hn]; unfold Number.numh; cases Number.num m <;> simp
  · rw [← hn]; unfold Number.positive; cases Number.num m <;> simp
  · rw [← hs]; unfold Seqner.snh; cases Seqner.sn m <;> simp
  · intro hc h
    have hc : m.code = lit "1AAG" := by simpa [Spec.Typed.dateCodes] using hc
    have hz : Matter.sizage m.code = .ok ⟨4, 0, 0, 36⟩ := by rw [hc]; rfl
    unfold Dater.dts at h
    rw [hz, Res.ok_bind] at h
    rcases Res.bind_eq_panic.mp h with h | ⟨q, hq, h⟩
    · obtain ⟨_, h⟩ := (C84_text E m).2.mp h
      rcases h with ⟨h, _⟩ | ⟨h, _⟩
      · rw [hc] at h; revert h; decide +kernel
      · rw [hc] at h; revert h; decide +kernel
    rcases Res.bind_eq_panic.mp h with h | ⟨u, _, h⟩
    · have hq : m.infil E = .ok q := hq
      rcases Matter.infil_cases hz E with ⟨_, h2⟩ | ⟨_, e, h2⟩ | ⟨_, _, _, _, h2⟩
      · rw [hq] at h2
        have h2 := Res.ok.inj h2
        have hn : (Matter.normal m ⟨4, 0, 0, 36⟩).code = m.code := by unfold Matter.normal; split <;> rfl
        have hs := Matter.text_split (m := Matter.normal m ⟨4, 0, 0, 36⟩) (z := ⟨4, 0, 0, 36⟩) (by rw [hn]; exact hz)
        rw [hn, hc] at hs
        have hA : Ascii q := by
          rw [h2, hs]
          refine ascii_append (ascii_append (by unfold Ascii; decide +kernel) (ascii_encD (digitsB_lt (by decide) _ _))) (ascii_encD ?_)
          intro x hx
          exact sextets_lt _ _ (List.mem_of_mem_drop hx)
        rw [sliceStr_ascii_to_end hA (by rw [h2, hs]; simp [show (lit "1AAG").length = 4 from rfl]; try omega)] at h
        cases h
      · rw [hq] at h2; cases h2
      · rw [hq] at h2; cases h2
    · cases h

/-- C100 is not vacuous: a list whose second key is a text that panics, a date-time whose byte 32 is inside a character, an event whose keys
are that list. -/
example (E : Env) (x : Sadder) : Spec.ListPanics E Spec.Typed.keyCodes [.str (lit "DAAAAAAAAAAAAAAAAAAAAAAAAAAAAAAAAAAAAAAAAAAA"), .str (lit "5AAA")] ∧
    Dater.new E [] (some (List.replicate 31 (ch 'A') ++ [0xC3, 0xA9])) none none none none none = .panic ∧
    Serder.verfers E { x with ked := .obj [(lit "k", .arr [.str (lit "DAAAAAAAAAAAAAAAAAAAAAAAAAAAAAAAAAAAAAAAAAAA"), .str (lit "5AAA")])] } = .panic := by
  have h : Spec.ListPanics E Spec.Typed.keyCodes [.str (lit "DAAAAAAAAAAAAAAAAAAAAAAAAAAAAAAAAAAAAAAAAAAA"), .str (lit "5AAA")] := by
    refine ⟨[.str (lit "DAAAAAAAAAAAAAAAAAAAAAAAAAAAAAAAAAAAAAAAAAAA")], lit "5AAA", [], [⟨lit "D", 0, List.replicate 32 0⟩], rfl, .cons ⟨_, rfl, ?_, ?_⟩ .nil, ?_⟩
    · exact (by decide +kernel : Matter.exfil (lit "DAAAAAAAAAAAAAAAAAAAAAAAAAAAAAAAAAAAAAAAAAAA") = .ok ⟨lit "D", 0, List.replicate 32 0⟩)
    · decide +kernel
    · exact (by decide +kernel : Matter.exfil (lit "5AAA") = .panic)
  refine ⟨h, (C100_date E [] _ (by decide +kernel)).mpr ⟨0xA9, by decide +kernel, by decide, by decide⟩, ?_⟩
  exact ((C100_lists E zeroHash rfl).1).mpr ⟨_, by rfl, h⟩

end Cesride
