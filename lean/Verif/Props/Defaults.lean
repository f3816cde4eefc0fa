import Verif.Model.Defaults
import Verif.Props.Matter
import Verif.Props.Saider

/-! # C102: objects from `default()` -/

namespace Cesride

/-- C102. Keys. The default key verifies no signature, the default signer signs nothing, and a signature that was made or read without naming a
key carries the default key. -/
theorem C102_keys (E : Env) (C : Crypto) :
    (∀ sig ser, ∃ e, Verfer.verify C Verfer.default sig ser = .err e) ∧
    (∀ ser r, ∃ e, Signer.default.signUnindexed E C ser r = .err e) ∧
    (∀ ser only index ondex r, ∃ e, Signer.default.signIndexed E C ser only index ondex r = .err e) ∧
    (∀ code raw qb64b qb64 qb2 c, Cigar.new E none code raw qb64b qb64 qb2 = .ok c → ∀ sig ser, ∃ e, Verfer.verify C c.verfer sig ser = .err e) ∧
    (∀ index ondex code raw qb64b qb64 qb2 s, Siger.new E none index ondex code raw qb64b qb64 qb2 = .ok s → ∀ sig ser, ∃ e, Verfer.verify C s.verfer sig ser = .err e) ∧
    Signer.default.verfer = Verfer.default ∧ Cigar.default.verfer = Verfer.default ∧ Siger.default.verfer = Verfer.default := by
  have hv : ∀ sig ser, ∃ e, Verfer.verify C Verfer.default sig ser = .err e := fun sig ser => ⟨.tryFrom, rfl⟩
  refine ⟨hv, fun ser r => ⟨.tryFrom, rfl⟩, ?_, ?_, ?_, rfl, rfl, rfl⟩
  · intro ser only index ondex r
    have hs : Sign.sign C Signer.default.matter.code Signer.default.matter.raw ser r = .err .tryFrom := rfl
    refine ⟨.tryFrom, ?_⟩
    unfold Signer.signIndexed
    rw [hs]
    have hp : ∀ a b c, Signer.pick Signer.default.matter.code a b c = .ok a := fun _ _ _ => rfl
    simp only [hp]
    cases only with
    | true => by_cases h : index < 64 <;> simp [h]
    | false =>
      simp only [Bool.false_eq_true, if_false]
      by_cases h : index = ondex.getD index ∧ index < 64
      · rw [if_pos h]; rfl
      · rw [if_neg h]; rfl
  · intro code raw qb64b qb64 qb2 c h
    unfold Cigar.new at h
    obtain ⟨m, _, h⟩ := Res.bind_eq_ok.mp h
    obtain ⟨_, _, h⟩ := Res.bind_eq_ok.mp h
    rw [← Res.ok.inj h]
    exact hv
  · intro index ondex code raw qb64b qb64 qb2 s h
    unfold Siger.new at h
    obtain ⟨m, _, h⟩ := Res.bind_eq_ok.mp h
    obtain ⟨_, _, h⟩ := Res.bind_eq_ok.mp h
    rw [← Res.ok.inj h]
    exact hv

/-- C102. Digests. The default digest object matches no data, the default SAID no document, the default prefix no event. -/
theorem C102_digests (E : Env) (H : Hash) :
    (∀ ser, Diger.verify H Diger.default ser = .ok false) ∧
    (∀ ser dig diger b, Diger.compare E H Diger.default ser dig diger ≠ .ok b) ∧
    (∀ sad prefixed versioned kind label ignore, Saider.verify E H Saider.default sad prefixed versioned kind label ignore ≠ .ok true) ∧
    (∀ ked prefixed, ∀ b, Prefixer.verify E H Prefixer.default ked prefixed ≠ .ok b) := by
  have hd : ∀ ser, Diger.verify H Diger.default ser = .ok false := by
    intro ser
    have hl := H.length (lit "E") 32 (by decide +kernel) ser
    have e : Diger.verify H Diger.default ser = .ok (decide (H.digest (lit "E") ser = [])) := rfl
    rw [e, decide_eq_false]
    intro h; rw [h] at hl; cases hl
  refine ⟨hd, ?_, ?_, ?_⟩
  · intro ser dig diger b h
    cases dig with
    | some dig => cases h
    | none =>
      cases diger with
      | none => cases h
      | some d =>
        have h : Diger.compareDiger E H Diger.default ser d = .ok b := h
        unfold Diger.compareDiger at h
        obtain ⟨t, _, h⟩ := Res.bind_eq_ok.mp h
        cases h
  · intro sad prefixed versioned kind label ignore h
    unfold Saider.verify at h
    rw [show Saider.default.qb64 E = .err .invalidCodeSize from rfl] at h
    simp only at h
    split at h
    · cases h
    · cases h
    · split at h
      · cases h
      · cases h
      · cases h
  · intro ked prefixed b h
    unfold Prefixer.verify at h
    obtain ⟨t, _, h⟩ := Res.bind_eq_ok.mp h
    obtain ⟨ilk, _, h⟩ := Res.bind_eq_ok.mp h
    rw [show Prefixer.default.qb64 E = .err .invalidCodeSize from rfl] at h
    split at h
    · cases h
    · split at h
      · cases h
      · split at h
        · cases h
        · split at h
          · cases h
          · cases h

/-- C102. The default threshold calls for one signature but is met by no set of signatures, and has no limen. -/
theorem C102_threshold (E : Env) :
    (∀ is, Tholder.default.satisfy E is = .ok false) ∧ (∃ e, Tholder.default.limen E = .err e) ∧ Tholder.default.num = .ok (some 1) ∧
    Tholder.default.sith = .ok (.str (lit "1")) ∧ Tholder.default.weighted = false ∧ Tholder.default.size = 1 := by
  refine ⟨fun is => rfl, ⟨.value, rfl⟩, rfl, ?_, rfl, rfl⟩
  show Res.ok (Value.str (Tholder.i64Hex 1)) = _
  rw [show Tholder.i64Hex 1 = lit "1" by decide +kernel]

/-- C102. Transport: only the empty text and the empty path can be encoded and come back; a date-time has a text, its code, which nothing reads. -/
theorem C102_transport (E : Env) :
    (∀ m ∈ [Verfer.default, Diger.default, Saider.default, Prefixer.default, Number.default, Seqner.default, Salter.default.matter,
        Signer.default.matter, Cigar.default.matter], (∃ e, m.qb64 E = .err e) ∧ (∃ e, m.qb64b E = .err e) ∧ (∃ e, m.qb2 E = .err e)) ∧
    (∃ e, Siger.default.indexer.qb64 E = .err e) ∧ (∃ e, Siger.default.indexer.qb2 E = .err e) ∧
    (∃ e, Counter.default.qb64 E = .err e) ∧ (∃ e, Counter.default.qb2 E = .err e) ∧
    (∀ m ∈ [Bexter.default, Pather.default], m.qb64 E = .ok (lit "4AAA") ∧ Matter.ofText E (lit "4AAA") = .ok m ∧
      m.qb2 E = .ok [224, 0, 0] ∧ Matter.ofBinary E [224, 0, 0] = .ok m) ∧
    Dater.default.qb64 E = .ok (lit "1AAG") ∧ (∃ e, Matter.ofText E (lit "1AAG") = .err e) ∧ (∃ e, Dater.default.qb2 E = .err e) := by
  refine ⟨?_, ⟨_, rfl⟩, ⟨_, rfl⟩, ⟨_, rfl⟩, ⟨_, rfl⟩, ?_, rfl, ⟨_, rfl⟩, ⟨_, rfl⟩⟩
  · simp only [List.forall_mem_cons, List.not_mem_nil, false_implies, implies_true, and_true]
    refine ⟨⟨⟨_, rfl⟩, ⟨_, rfl⟩, ⟨_, rfl⟩⟩, ⟨⟨_, rfl⟩, ⟨_, rfl⟩, ⟨_, rfl⟩⟩, ⟨⟨_, rfl⟩, ⟨_, rfl⟩, ⟨_, rfl⟩⟩, ⟨⟨_, rfl⟩, ⟨_, rfl⟩, ⟨_, rfl⟩⟩,
      ⟨⟨_, rfl⟩, ⟨_, rfl⟩, ⟨_, rfl⟩⟩, ⟨⟨_, rfl⟩, ⟨_, rfl⟩, ⟨_, rfl⟩⟩, ⟨⟨_, rfl⟩, ⟨_, rfl⟩, ⟨_, rfl⟩⟩, ⟨⟨_, rfl⟩, ⟨_, rfl⟩, ⟨_, rfl⟩⟩,
      ⟨⟨_, rfl⟩, ⟨_, rfl⟩, ⟨_, rfl⟩⟩⟩
  · simp only [List.forall_mem_cons, List.not_mem_nil, false_implies, implies_true, and_true]
    have ho : Obtained E Bexter.default := by
      exact .built (code := lit "4A") (raw := []) (.inr ⟨false, 0, ch 'A', by decide, .inl rfl, by decide +kernel⟩) rfl
    obtain ⟨b, h1, h2⟩ := C02_binary_roundtrip E ho
    rw [show Bexter.default.qb2 E = .ok [224, 0, 0] from rfl] at h1
    rw [← Res.ok.inj h1] at h2
    exact ⟨⟨rfl, rfl, rfl, h2⟩, ⟨rfl, rfl, rfl, h2⟩⟩

/-- C102. What the values of the other classes answer. -/
theorem C102_values (E : Env) :
    Number.num Number.default = .panic ∧ Number.numh Number.default = .panic ∧ Number.positive Number.default = .panic ∧
    Seqner.sn Seqner.default = .panic ∧ Seqner.snh Seqner.default = .panic ∧
    Bexter.bext Bexter.default = .ok [] ∧ (∃ e, Pather.path Pather.default = .err e) ∧ (∀ sad, ∃ e, Pather.resolve E Pather.default sad = .err e) ∧
    Dater.dts E Dater.default = .ok [] := by
  refine ⟨rfl, rfl, rfl, rfl, rfl, rfl, ⟨_, rfl⟩, fun sad => ⟨_, rfl⟩, rfl⟩

/-- C102. The default salt derives what the library derives from no salt: nothing when that is refused, as Argon2 does. -/
theorem C102_salt (E : Env) (C : Crypto) (hC : ∀ m t pwd len, C.argon m t pwd [] len = none) :
    (∀ size path tier temp, ∃ e, Salter.default.stretch C size path tier temp = .err e) ∧
    (∀ code transferable path tier temp, ∃ e, Salter.default.signer E C code transferable path tier temp = .err e) := by
  have h1 : ∀ size path tier temp, ∃ e, Salter.default.stretch C size path tier temp = .err e := by
    intro size path tier temp
    unfold Salter.stretch stretchSalt
    simp only [show Salter.default.matter.raw = [] from rfl, hC]
    repeat' split
    all_goals exact ⟨_, rfl⟩
  refine ⟨h1, ?_⟩
  intro code transferable path tier temp
  unfold Salter.signer
  cases hr : Matter.rawSize (code.getD (lit "A")) with
  | err e => exact ⟨e, by simp only [hr]; rfl⟩
  | panic =>
    exfalso
    unfold Matter.rawSize at hr
    rcases Res.bind_eq_panic.mp hr with h | ⟨z, _, h⟩
    · unfold Matter.sizage at h
      split at h <;> cases h
    · split at h <;> cases h
  | ok n =>
    obtain ⟨e, he⟩ := h1 (some n) (some (path.getD [])) tier (some (temp.getD false))
    exact ⟨e, by simp only [hr, Res.ok_bind, he]; rfl⟩

/-- C102. The default messages: accepted as a message to copy, without SAID, keys, witnesses and thresholds, of version 1.0 of their protocol. -/
theorem C102_messages (E : Env) (F : Str → Option Str) (H : Hash) :
    (∀ code kind, Serder.new E F H code none kind none (some Serder.default) = .ok Serder.default) ∧
    (∀ code kind, Creder.new E F H code none kind none (some Creder.default) = .ok Creder.default) ∧
    (∀ s ∈ [Serder.default, Creder.default], (∃ e, s.said E = .err e) ∧ s.raw = [] ∧ s.size = 0 ∧ s.kind = lit "JSON" ∧ s.ked = .obj [] ∧ s.code = lit "E" ∧
      s.version = ⟨1, 0⟩ ∧ s.saider = Saider.default) ∧
    Serder.default.ident = lit "KERI" ∧ Creder.default.ident = lit "ACDC" ∧
    Serder.verfers E Serder.default = .ok [] ∧ Serder.digers E H Serder.default = .ok [] ∧ Serder.werfers E Serder.default = .ok [] ∧
    Serder.tholder E F Serder.default = .ok none ∧ Serder.ntholder E F Serder.default = .ok none ∧
    Serder.sner E Serder.default = .panic ∧ Serder.pre Serder.default = .panic ∧ Serder.est Serder.default = .panic ∧
    Creder.issuer Creder.default = .panic ∧ Creder.schema Creder.default = .panic ∧ Creder.subject Creder.default = .panic ∧
    Creder.status Creder.default = .ok none ∧ Creder.chains Creder.default = .ok (.obj []) := by
  refine ⟨fun code kind => ?_, fun code kind => ?_, ?_, rfl, rfl, rfl, rfl, rfl, rfl, rfl, rfl, rfl, rfl, rfl, rfl, rfl, rfl, rfl⟩
  · cases code <;> rfl
  · cases code <;> rfl
  · simp only [List.forall_mem_cons, List.not_mem_nil, false_implies, implies_true, and_true]
    exact ⟨⟨⟨_, rfl⟩, rfl, rfl, rfl, rfl, rfl, rfl, rfl⟩, ⟨⟨_, rfl⟩, rfl, rfl, rfl, rfl, rfl, rfl, rfl⟩⟩

/-- C102. Codes: a default has a code of its class (a counter has none), and holds nothing. -/
theorem C102_codes :
    (∀ p ∈ [(Verfer.default, lit "D"), (Diger.default, lit "E"), (Saider.default, lit "E"), (Prefixer.default, lit "E"), (Number.default, lit "M"), (Seqner.default, lit "0A"),
        (Dater.default, lit "1AAG"), (Bexter.default, lit "4A"), (Pather.default, lit "4A"), (Salter.default.matter, lit "0A"), (Signer.default.matter, lit "A"),
        (Cigar.default.matter, lit "0B")], p.1.code = p.2 ∧ p.1.raw = [] ∧ p.1.size = 0) ∧
    Siger.default.indexer.code = lit "A" ∧ Siger.default.indexer.raw = [] ∧ Siger.default.indexer.index = 0 ∧ Siger.default.indexer.ondex = 0 ∧
    Counter.default.code = [] ∧ Counter.default.count = 0 ∧ Salter.default.tier = lit "low" := by
  refine ⟨?_, rfl, rfl, rfl, rfl, rfl, rfl, rfl⟩
  simp only [List.forall_mem_cons, List.not_mem_nil, false_implies, implies_true, and_true]
  repeat' constructor

/-! ## Non-trivial cases: a signature can be read without a key, and the hypothesis of `C102_salt` can be met. -/

example : ∃ c, Cigar.new Env.debug none (some (lit "0B")) (some (List.replicate 64 7)) none none none = .ok c ∧ c.matter.raw ≠ [] :=
  ⟨⟨⟨lit "0B", 0, List.replicate 64 7⟩, Verfer.default⟩, by decide +kernel, by decide +kernel⟩
example : ∃ s, Siger.new Env.debug none (some 3) none (some (lit "A")) (some (List.replicate 64 7)) none none none = .ok s ∧ s.indexer.index = 3 :=
  ⟨⟨⟨lit "A", List.replicate 64 7, 3, 3⟩, Verfer.default⟩, by decide +kernel, rfl⟩
example (C : Crypto) : ∃ C' : Crypto, ∀ m t pwd len, C'.argon m t pwd [] len = none :=
  ⟨{ C with
      argon := fun m t pwd salt len => if salt.length < 8 then none else C.argon m t pwd salt len
      argon_length := by intro m t pwd salt len out h; split at h; cases h; exact C.argon_length m t pwd salt len out h }, fun _ _ _ _ => rfl⟩

end Cesride
