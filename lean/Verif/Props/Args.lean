import Verif.Props.Classes
import Verif.Props.Counter

/-!
# Property C67: which arguments of a constructor count

All constructors take the same five optional arguments: code, raw, text bytes, text, binary.
-/

namespace Cesride
open Matter

/-- Reading one encoded primitive, by the constructor with that single argument. -/
def Matter.read (E : Env) : Spec.Input → Res Matter
  | .bytes b => Matter.ofTextBytes E b
  | .text t => Matter.ofText E t
  | .binary b => Matter.ofBinary E b

/-- Reading one encoded indexed signature. -/
def Indexer.read (E : Env) : Spec.Input → Res Indexer
  | .bytes b => Indexer.ofTextBytes E b
  | .text t => Indexer.ofText E t
  | .binary b => Indexer.ofBinary E b

/-- Reading one encoded counter. -/
def Counter.read (E : Env) : Spec.Input → Res Counter
  | .bytes b => Counter.ofTextBytes E b
  | .text t => Counter.ofText E t
  | .binary b => Counter.ofBinary E b

/-- C67. Raw bytes count before everything else and need a code; otherwise the first encoded input counts and the code does not; text bytes that are
UTF-8 are read as the text, others are refused. -/
theorem C67_primitive (E : Env) (code : Option Str) (raw : List UInt8) (qb64b : Option (List UInt8)) (qb64 : Option Str) (qb2 : Option (List UInt8)) :
    Matter.new E code (some raw) qb64b qb64 qb2 = (match code with | some c => Matter.ofRaw E c raw | none => .err .emptyMaterial) ∧
    Matter.new E code none qb64b qb64 qb2 =
      (match Spec.firstInput qb64b qb64 qb2 with | some i => Matter.read E i | none => .err .validation) ∧
    (∀ t, Matter.read E (.bytes t) = if utf8Valid t then Matter.read E (.text t) else .err .utf8) := by
  refine ⟨?_, ?_, ?_⟩
  · cases code <;> rfl
  · cases qb64b <;> cases qb64 <;> cases qb2 <;> rfl
  · intro t
    show (do let q ← fromUtf8 t; exfil q) = _
    unfold fromUtf8
    split <;> rfl

/-- C67. Indexed signatures: as for primitives; index and ondex count only with raw bytes, the index is 0 by default. -/
theorem C67_indexed (E : Env) (index ondex : Option Nat) (code : Option Str) (raw : List UInt8) (qb64b : Option (List UInt8)) (qb64 : Option Str)
    (qb2 : Option (List UInt8)) :
    Indexer.new E index ondex code (some raw) qb64b qb64 qb2 =
      (match code with | some c => Indexer.ofRaw E c raw (index.getD 0) ondex | none => .err .emptyMaterial) ∧
    Indexer.new E index ondex code none qb64b qb64 qb2 =
      (match Spec.firstInput qb64b qb64 qb2 with | some i => Indexer.read E i | none => .err .validation) ∧
    (∀ t, Indexer.read E (.bytes t) = if utf8Valid t then Indexer.read E (.text t) else .err .utf8) := by
  refine ⟨?_, ?_, ?_⟩
  · cases code <;> rfl
  · cases qb64b <;> cases qb64 <;> cases qb2 <;> rfl
  · intro t
    show (do let q ← fromUtf8 t; Indexer.exfil q) = _
    unfold fromUtf8
    split <;> rfl

/-- C67. Counters: a code counts before everything else, with the count, else the count text, else 1. -/
theorem C67_counter (E : Env) (count : Option Nat) (countB64 : Option Str) (code : Str) (qb64b : Option (List UInt8)) (qb64 : Option Str)
    (qb2 : Option (List UInt8)) :
    (∀ n, Counter.new E (some n) countB64 (some code) qb64b qb64 qb2 = Counter.ofCode E code n) ∧
    (∀ t, Counter.new E none (some t) (some code) qb64b qb64 qb2 = (do let n ← b64ToU32 t; Counter.ofCode E code n)) ∧
    Counter.new E none none (some code) qb64b qb64 qb2 = Counter.ofCode E code 1 ∧
    Counter.new E count countB64 none qb64b qb64 qb2 =
      (match Spec.firstInput qb64b qb64 qb2 with | some i => Counter.read E i | none => .err .validation) ∧
    (∀ t, Counter.read E (.bytes t) = if utf8Valid t then Counter.read E (.text t) else .err .utf8) := by
  refine ⟨fun _ => rfl, fun _ => rfl, rfl, ?_, ?_⟩
  · cases qb64b <;> cases qb64 <;> cases qb2 <;> rfl
  · intro t
    show (do let q ← fromUtf8 t; Counter.exfil q) = _
    unfold fromUtf8
    split <;> rfl

/-- The check of a code list. -/
def withCode (codes : List Str) (m : Matter) : Res Matter := if m.code ∈ codes then .ok m else .err .unexpectedCode

theorem check_eq {α : Type} (l l' : List Str) (c : Str) (x : α) (h : ∀ c, c ∈ l ↔ c ∈ l') :
    (do let _ ← (if l.contains c then (.ok () : Res Unit) else .err .unexpectedCode); Res.ok x) =
      if c ∈ l' then .ok x else .err .unexpectedCode := by
  by_cases hc : c ∈ l
  · rw [if_pos (by simpa using hc), if_pos ((h c).mp hc)]; rfl
  · rw [if_neg (by simpa using hc), if_neg (fun h' => hc ((h c).mpr h'))]; rfl

theorem new_read {E : Env} {code : Option Str} {qb64b : Option (List UInt8)} {qb64 : Option Str} {qb2 : Option (List UInt8)} {i : Spec.Input}
    (h : Spec.firstInput qb64b qb64 qb2 = some i) : Matter.new E code none qb64b qb64 qb2 = Matter.read E i := by
  rw [(C67_primitive E code [] qb64b qb64 qb2).2.1, h]

theorem some_input {qb64b : Option (List UInt8)} {qb64 : Option Str} {qb2 : Option (List UInt8)} {i : Spec.Input}
    (h : Spec.firstInput qb64b qb64 qb2 = some i) : ¬ (qb64b.isNone = true ∧ qb64.isNone = true ∧ qb2.isNone = true) := by
  rintro ⟨h1, h2, h3⟩
  cases qb64b <;> cases qb64 <;> cases qb2 <;> simp_all [Spec.firstInput]

/-- C67. Reading a typed primitive is reading the primitive and then checking that its code is one of the type. The code argument has no influence
(for Salter, Number and Prefixer it has to be a code of the type, and the code read is not checked). A digest object built with data takes the
digest of the data when the input cannot be read. -/
theorem C67_typed (E : Env) (H : Hash) (C : Crypto) (code : Option Str) (qb64b : Option (List UInt8)) (qb64 : Option Str) (qb2 : Option (List UInt8))
    (i : Spec.Input) (hi : Spec.firstInput qb64b qb64 qb2 = some i) :
    Verfer.new E code none qb64b qb64 qb2 = (do let m ← Matter.read E i; withCode Spec.Typed.keyCodes m) ∧
    (∀ v, Cigar.new E v code none qb64b qb64 qb2 =
      (do let m ← Matter.read E i; let m ← withCode Spec.Typed.sigCodes m; .ok { matter := m, verfer := v.getD Verfer.default })) ∧
    (∀ sn snh, Seqner.new E sn snh code none qb64b qb64 qb2 = (do let m ← Matter.read E i; withCode Spec.Typed.seqnerCodes m)) ∧
    (∀ now dts, Dater.new E now dts code none qb64b qb64 qb2 = (do let m ← Matter.read E i; withCode Spec.Typed.dateCodes m)) ∧
    Bexter.new E none code none qb64b qb64 qb2 = (do let m ← Matter.read E i; withCode Spec.Typed.textCodes m) ∧
    (∀ path, Pather.new E path none code none qb64b qb64 qb2 = (do let m ← Matter.read E i; withCode Spec.Typed.textCodes m)) ∧
    (∀ label kind ignore, Saider.new E H none label kind ignore code none qb64b qb64 qb2 =
      (do let m ← Matter.read E i; withCode Spec.Typed.digestCodes m)) ∧
    (∀ ser, Diger.new E H ser code none qb64b qb64 qb2 = (match Matter.read E i with
      | .ok m => withCode Spec.Typed.digestCodes m
      | .panic => .panic
      | .err _ => (match ser with | some _ => Diger.new E H ser code none none none none | none => .err .validation))) ∧
    (∀ num numh, Number.new E num numh code none qb64b qb64 qb2 =
      if code.getD (lit "M") ∈ Spec.Typed.numberCodes then Matter.read E i else .err .unexpectedCode) ∧
    (∀ rnd tier, Salter.new E rnd tier code none qb64b qb64 qb2 =
      if code.getD (lit "0A") ∈ Spec.Typed.saltCodes then (do let m ← Matter.read E i; .ok { matter := m, tier := tier.getD (lit "low") })
      else .err .unexpectedCode) ∧
    (∀ ked allows, Prefixer.new E H ked allows code none qb64b qb64 qb2 =
      if code.getD (lit "B") ∈ Spec.Typed.prefixCodes then Matter.read E i else .err .unexpectedCode) ∧
    (∀ r t, Signer.new E C r t code none qb64b qb64 qb2 = (do
      let m ← Matter.read E i
      let m ← withCode Spec.Typed.seedCodes m
      let v ← Signer.deriveVerfer E C m.code m.raw (t.getD true)
      .ok { matter := m, verfer := v })) ∧
    (∀ v index ondex, Siger.new E v index ondex code none qb64b qb64 qb2 = (do
      let x ← Indexer.read E i
      if x.code ∈ Spec.Typed.indexedSigCodes then .ok { indexer := x, verfer := v.getD Verfer.default } else .err .unexpectedCode)) := by
  have hn := some_input hi
  have ht : ∀ (a b : Prop), ¬ (a ∧ b ∧ qb64b.isNone = true ∧ qb64.isNone = true ∧ qb2.isNone = true) := fun a b h => hn h.2.2
  refine ⟨?_, ?_, ?_, ?_, ?_, ?_, ?_, ?_, ?_, ?_, ?_, ?_, ?_⟩
  · unfold Verfer.new
    simp only []
    rw [new_read hi]
    congr 1; funext m
    exact check_eq _ _ _ _ fun _ => Iff.rfl
  · intro v
    unfold Cigar.new
    rw [new_read hi]
    congr 1; funext m
    rw [show Cigar.validateCode m.code = _ from rfl, Cigar.validateCode, check_eq [lit "0B", lit "0C", lit "0I"] Spec.Typed.sigCodes _ _ fun _ => Iff.rfl, withCode]
    split <;> rfl
  · intro sn snh
    unfold Seqner.new
    rw [if_neg (fun h => hn h.2)]
    simp only [Res.ok_bind]
    rw [new_read hi]
    congr 1; funext m
    simp [withCode, Spec.Typed.seqnerCodes]
  · intro now dts
    unfold Dater.new
    simp only []
    rw [if_neg (fun h => hn h.2), new_read hi]
    congr 1; funext m
    simp [withCode, Spec.Typed.dateCodes]
  · unfold Bexter.new
    simp only
    rw [if_neg (fun h => hn h.2.2), new_read hi]
    congr 1; funext m
    simp [withCode, Spec.Typed.textCodes, Bexter.hasCode]
  · intro path
    unfold Pather.new
    simp only
    rw [if_neg (fun h => hn h.2.2), new_read hi]
    congr 1; funext m
    simp [withCode, Spec.Typed.textCodes, Bexter.hasCode]
  · intro label kind ignore
    unfold Saider.new
    rw [if_neg (by simp), new_read hi]
    congr 1; funext m
    exact check_eq _ _ _ _ fun _ => Iff.rfl
  · intro ser
    unfold Diger.new
    rw [new_read hi]
    cases Matter.read E i with
    | ok m => exact check_eq _ _ _ _ fun _ => Iff.rfl
    | panic => rfl
    | err e => cases ser <;> rfl
  · intro num numh
    unfold Number.new
    rw [if_neg (fun h => hn h.2)]
    simp only []
    rw [new_read hi]
    simp [Spec.Typed.numberCodes, Number.hasCode]
  · intro rnd tier
    unfold Salter.new
    simp only [Spec.Typed.saltCodes, List.mem_cons, List.not_mem_nil, or_false]
    by_cases hc : code.getD (lit "0A") = lit "0A"
    · rw [if_neg (by simpa using hc), if_pos hc, if_neg (fun h => hn h.2), new_read hi]
    · rw [if_pos hc, if_neg hc]
  · intro ked allows
    unfold Prefixer.new
    rw [if_pos (by
      cases qb64b <;> cases qb64 <;> cases qb2 <;> simp_all [Spec.firstInput])]
    rw [new_read hi]
    unfold Prefixer.validateCode
    have : ∀ c, c ∈ [lit "B", lit "1AAA", lit "1AAI", lit "D", lit "1AAB", lit "1AAJ", lit "E", lit "0D", lit "F", lit "0E", lit "G", lit "H", lit "0F", lit "I",
      lit "0G"] ↔ c ∈ Spec.Typed.prefixCodes := by
      intro c
      simp only [Spec.Typed.prefixCodes, Spec.Typed.keyCodes, Spec.Typed.digestCodes, List.cons_append, List.nil_append, List.mem_cons, List.not_mem_nil, or_false]
      grind
    by_cases hc : code.getD (lit "B") ∈ Spec.Typed.prefixCodes
    · rw [if_pos (by rw [List.contains_iff_mem]; exact (this _).mpr hc), if_pos hc]; rfl
    · rw [if_neg (by rw [List.contains_iff_mem]; exact fun h => hc ((this _).mp h)), if_neg hc]; rfl
  · intro r t
    unfold Signer.new
    simp only
    rw [if_neg hn, new_read hi]
    cases Matter.read E i with
    | ok m =>
      simp only [Res.ok_bind]
      rw [Signer.validateCode, check_eq [lit "A", lit "J", lit "Q"] Spec.Typed.seedCodes _ _ fun _ => Iff.rfl, withCode]
    | panic => rfl
    | err e => rfl
  · intro v index ondex
    unfold Siger.new
    rw [(C67_indexed E index ondex code [] qb64b qb64 qb2).2.1, hi]
    simp only
    congr 1; funext x
    exact check_eq _ _ _ _ fun _ => Iff.rfl

/-! Non-trivial cases: the code argument and the later inputs have no influence; a digest object of unreadable text is the digest of the data. -/

example : Verfer.new Env.debug (some (lit "B")) none none (some (lit "DKxy2sgzfplyr-tgwIxS19f2OchFHtLwPWD3v4oYimBx")) (some [1, 2])
    = Verfer.new Env.debug none none none (some (lit "DKxy2sgzfplyr-tgwIxS19f2OchFHtLwPWD3v4oYimBx")) none := by
  rw [(C67_typed Env.debug zeroHash toy _ _ _ _ (.text (lit "DKxy2sgzfplyr-tgwIxS19f2OchFHtLwPWD3v4oYimBx")) rfl).1,
    (C67_typed Env.debug zeroHash toy _ _ _ _ (.text (lit "DKxy2sgzfplyr-tgwIxS19f2OchFHtLwPWD3v4oYimBx")) rfl).1]

example : Diger.new Env.debug zeroHash (some [7]) none none none (some (lit "E")) none = .ok { code := lit "E", size := 0, raw := List.replicate 32 0 } := by
  decide +kernel

end Cesride
