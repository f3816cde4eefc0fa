import Verif.Lemmas.Builds
import Verif.Props.Pather
import Verif.Props.Salter
import Verif.Props.Saider2
import Verif.Props.Tholder3
import Verif.Props.Indexer
import Verif.Props.Counter

/-!
# Property C95: all builds and platforms give the same answers

A build of the library is described by `Env`: whether integer overflow is checked, the width of a machine word, and how the processor rounds
the logarithm by which numbers are cut to a given length. `BuildsAgree` (in `Verif.Spec.Builds`) is the weaker form that lets a checked build panic.
-/

namespace Cesride
open Spec

/-- C95. Building, parsing and deriving a primitive gives the same answer in every build and on every platform, whatever the arguments. -/
theorem C95_construction (E E' : Env) :
    Matter.new E = Matter.new E' ∧ Indexer.new E = Indexer.new E' ∧ Counter.new E = Counter.new E' ∧
    Verfer.new E = Verfer.new E' ∧ Diger.new E = Diger.new E' ∧ Saider.new E = Saider.new E' ∧ Prefixer.new E = Prefixer.new E' ∧
    Cigar.new E = Cigar.new E' ∧ Siger.new E = Siger.new E' ∧ Number.new E = Number.new E' ∧ Seqner.new E = Seqner.new E' ∧
    Bexter.new E = Bexter.new E' ∧ Dater.new E = Dater.new E' ∧ Pather.new E = Pather.new E' ∧ Signer.new E = Signer.new E' ∧
    Salter.new E = Salter.new E' ∧ Counter.semVerToB64 E = Counter.semVerToB64 E' ∧ Counter.semVerStrToB64 E = Counter.semVerStrToB64 E' :=
  ⟨Matter.new_builds, Indexer.new_builds, Counter.new_builds, Verfer.new_builds, Diger.new_builds, Saider.new_builds, Prefixer.new_builds,
    Cigar.new_builds, Siger.new_builds, Number.new_builds, Seqner.new_builds, Bexter.new_builds, Dater.new_builds, Pather.new_builds,
    Signer.new_builds, Salter.new_builds, Counter.semVerToB64_builds, Counter.semVerStrToB64_builds⟩

/-- C95 (messages). So do building and parsing events and credentials and reading keys, digests, witnesses and sequence numbers. -/
theorem C95_messages (E E' : Env) :
    Serder.new E = Serder.new E' ∧ Creder.new E = Creder.new E' ∧ Serder.verfers E = Serder.verfers E' ∧ Serder.digers E = Serder.digers E' ∧
    Serder.werfers E = Serder.werfers E' ∧ Serder.sner E = Serder.sner E' ∧ Serder.sn E = Serder.sn E' ∧ Serder.fner E = Serder.fner E' ∧
    Serder.fn E = Serder.fn E' :=
  ⟨Serder.new_builds, Creder.new_builds, Serder.lists_builds.1, Serder.lists_builds.2.1, Serder.lists_builds.2.2, Serder.numbers_builds.1,
    Serder.numbers_builds.2.1, Serder.numbers_builds.2.2.1, Serder.numbers_builds.2.2.2⟩

/-- C95 (signing). So do signing, and the signers derived from a salt as long as the positions fit 32 bits. -/
theorem C95_signing (E E' : Env) :
    Signer.signUnindexed E = Signer.signUnindexed E' ∧ Signer.signIndexed E = Signer.signIndexed E' ∧ Salter.signer E = Salter.signer E' ∧
    ∀ (C : Crypto) (s : Salter) (count start : Option Nat) (path code : Option Str) (tr : Option Bool) (tier : Option Str) (temp : Option Bool),
      start.getD 0 + count.getD 1 ≤ 2 ^ 32 →
      Salter.signers E C s count start path code tr tier temp = Salter.signers E' C s count start path code tr tier temp := by
  refine ⟨Signer.signUnindexed_builds, Signer.signIndexed_builds, Salter.signer_builds, ?_⟩
  intro C s count start path code tr tier temp h
  unfold Salter.signers
  have key : ∀ l : List Nat, (∀ i ∈ l, i < count.getD 1) →
      Salter.signersLoop E C s (start.getD 0) (path.getD []) code tr tier temp l = Salter.signersLoop E' C s (start.getD 0) (path.getD []) code tr tier temp l := by
    intro l
    induction l with
    | nil => intro _; rfl
    | cons i is ih =>
      intro hl
      have hi := hl i (by simp)
      have e1 : (2 : Nat) ^ 32 ≤ 2 ^ E.usizeBits := Nat.pow_le_pow_right (by decide) E.usizeBits_ge
      have e2 : (2 : Nat) ^ 32 ≤ 2 ^ E'.usizeBits := Nat.pow_le_pow_right (by decide) E'.usizeBits_ge
      unfold Salter.signersLoop Salter.addUsize
      rw [if_pos (by omega), if_pos (by omega), ih (fun j hj => hl j (by simp [hj])), Salter.signer_builds (E := E) (E' := E')]
  exact key _ fun i hi => List.mem_range.mp hi

theorem Obtained.builds {E : Env} (E' : Env) {m : Matter} (h : Obtained E m) : Obtained E' m := by
  cases h with
  | built hc h => exact .built hc (by rw [Matter.ofRaw, Matter.new_builds (E := E') (E' := E)]; exact h)
  | binary h => exact .binary (by rw [Matter.ofBinary, Matter.new_builds (E := E') (E' := E)]; exact h)
  | text h hn hp => exact .text (by rw [Matter.ofText, Matter.new_builds (E := E') (E' := E)]; exact h) hn hp

theorem IdxObtained.builds {E : Env} (E' : Env) {c : Spec.IdxCode} {x : Indexer} (h : IdxObtained E c x) : IdxObtained E' c x := by
  cases h with
  | built hc h => exact .built hc (by rw [Indexer.ofRaw, Indexer.new_builds (E := E') (E' := E)]; exact h)
  | binary h hc => exact .binary (by rw [Indexer.ofBinary, Indexer.new_builds (E := E') (E' := E)]; exact h) hc
  | text h hc hn hp => exact .text (by rw [Indexer.ofText, Indexer.new_builds (E := E') (E' := E)]; exact h) hc hn hp

theorem Matter.Wf.builds {m : Matter} {z : Sizage} (w : Matter.Wf m z) (E E' : Env) : m.qb64 E = m.qb64 E' :=
  (show m.qb64 E = _ from w.infil E).trans (show m.qb64 E' = _ from w.infil E').symm

/-- C95 (encoding). Every obtained primitive, indexed signature and counter has the same text and binary form in every build, and every obtained
counter the same digits of its count; the text of a date-time primitive is the same too. (The binary form of the two large indexed codes panics in
checked builds: C18.) -/
theorem C95_encoding (E E' : Env) :
    (∀ m, Obtained E m → m.qb64 E = m.qb64 E' ∧ m.qb64b E = m.qb64b E' ∧ m.qb2 E = m.qb2 E' ∧ Dater.dts E m = Dater.dts E' m) ∧
    (∀ c ∈ Spec.idxCodes, ∀ x, IdxObtained E c x → x.qb64 E = x.qb64 E' ∧ x.qb64b E = x.qb64b E' ∧
      (c.code ≠ lit "3A" ∧ c.code ≠ lit "3B" → x.qb2 E = x.qb2 E') ∧ BuildsAgree E E' (x.qb2 E) (x.qb2 E')) ∧
    (∀ x, x.qb64 E = Counter.qb64 E' x ∧ x.qb64b E = Counter.qb64b E' x ∧ x.qb2 E = Counter.qb2 E' x) ∧
    (∀ x, CounterObtained E x → ∀ len, len = 0 ∨ x.count < 64 ^ len → x.countAsB64 E len = x.countAsB64 E' len) := by
  refine ⟨?_, ?_, ?_, ?_⟩
  · intro m h
    obtain ⟨z, w⟩ := h.wf
    have e := w.builds E E'
    refine ⟨e, e, Matter.qb2_builds m, ?_⟩
    unfold Dater.dts
    rw [e]
  · intro c hc x h
    obtain ⟨_, w, _⟩ := h.wf hc
    have e : x.qb64 E = x.qb64 E' := (show x.qb64 E = _ from w.infil E).trans (show x.qb64 E' = _ from w.infil E').symm
    have ha : BuildsAgree E E' (x.qb2 E) (x.qb2 E') := by
      refine Indexer.qb2_builds x fun z hz => ?_
      have : z = idxRow c := by have := w.toHeadOk.szg; rw [hz] at this; exact Res.ok.inj this
      subst this
      exact ⟨fun _ => w.index, fun ho => w.ondex (by omega)⟩
    refine ⟨e, e, fun hn => ?_, ha⟩
    obtain ⟨⟨b, _, hb⟩, _⟩ := C18_binary_roundtrip E hc h
    obtain ⟨⟨b', _, hb'⟩, _⟩ := C18_binary_roundtrip E' hc (h.builds E')
    refine Builds.eq_of_ne ha ?_ ?_
    · rw [hb (by rintro ⟨h | h, _⟩ <;> simp_all)]; simp
    · rw [hb' (by rintro ⟨h | h, _⟩ <;> simp_all)]; simp
  · intro x
    exact ⟨Counter.qb64_builds x, Counter.qb64_builds x, Counter.qb2_builds x⟩
  · intro x h len hl
    refine Counter.countAsB64_builds x len fun n hn hn' => ?_
    by_cases h0 : len = 0
    · obtain ⟨z, hz, rfl⟩ := hn h0
      obtain ⟨d, hd, hc⟩ := C24_obtained_fits h
      have : z.ss = d := by
        have r := Counter.sizage_of_mem (counter_row hd)
        rw [hz] at r
        rw [Res.ok.inj r]
      rw [this]; exact hc
    · rw [hn' h0]
      rcases hl with hl | hl
      · exact absurd hl h0
      · exact hl


/-- C95 (any object). Objects that were altered after they were obtained, or read from text with `=`, may make a checked build panic; apart from that all builds
give the same text, and the same binary form of a primitive. -/
theorem C95_altered (E E' : Env) :
    (∀ m : Matter, BuildsAgree E E' (m.qb64 E) (m.qb64 E') ∧ m.qb2 E = m.qb2 E' ∧ BuildsAgree E E' (Dater.dts E m) (Dater.dts E' m)) ∧
    (∀ x : Indexer, BuildsAgree E E' (x.qb64 E) (x.qb64 E')) ∧
    (∀ s : Sadder, BuildsAgree E E' (s.said E) (s.said E')) :=
  ⟨fun m => ⟨Matter.qb64_builds m, Matter.qb2_builds m, Dater.dts_builds m⟩, Indexer.qb64_builds, Sadder.said_builds⟩

/-- C95 (SAIDs). Computing a SAID gives the same answer in every build. So does checking one, comparing digests and checking a prefix, when the objects involved
are obtained ones; otherwise a checked build may panic. -/
theorem C95_saids (E E' : Env) (H : Hash) :
    Saider.saidify E H = Saider.saidify E' H ∧
    (∀ self sad prefixed versioned kind label ignore,
      (Obtained E self → Saider.verify E H self sad prefixed versioned kind label ignore = Saider.verify E' H self sad prefixed versioned kind label ignore) ∧
      BuildsAgree E E' (Saider.verify E H self sad prefixed versioned kind label ignore)
        (Saider.verify E' H self sad prefixed versioned kind label ignore)) ∧
    (∀ self ser dig diger,
      (Obtained E self → (∀ d, diger = some d → Obtained E d) → Diger.compare E H self ser dig diger = Diger.compare E' H self ser dig diger) ∧
      BuildsAgree E E' (Diger.compare E H self ser dig diger) (Diger.compare E' H self ser dig diger)) ∧
    (∀ self ked prefixed,
      (Obtained E self → Prefixer.verify E H self ked prefixed = Prefixer.verify E' H self ked prefixed) ∧
      BuildsAgree E E' (Prefixer.verify E H self ked prefixed) (Prefixer.verify E' H self ked prefixed)) := by
  refine ⟨?_, ?_, ?_, ?_⟩
  · funext sad code kind label ignore
    exact Builds.eq_of_ne (Saider.saidify_builds H sad code kind label ignore) (C58_saidify E H sad code kind label ignore)
      (C58_saidify E' H sad code kind label ignore)
  · intro self sad prefixed versioned kind label ignore
    refine ⟨fun h => ?_, Saider.verify_builds H self sad prefixed versioned kind label ignore⟩
    obtain ⟨z, w⟩ := h.wf
    unfold Saider.verify
    rw [Saider.new_builds (E := E) (E' := E'), w.builds E E']
    dsimp only
    split
    · rfl
    · rfl
    · split
      · rfl
      · rfl
      · next saider hs =>
        have : saider.qb64 E = saider.qb64 E' := by
          unfold Saider.new at hs
          simp only [Option.isSome_some, true_or, if_true] at hs
          obtain ⟨p, h1, h2⟩ := Res.bind_eq_ok.mp hs
          obtain ⟨u, h3, h4⟩ := Res.bind_eq_ok.mp h1
          have h4 := Res.ok.inj h4
          subst h4
          obtain ⟨n, hn⟩ := validateDigestCode_ok.mp h3
          obtain ⟨z, hz, _⟩ := digest_row hn
          obtain ⟨z, w⟩ := Matter.new_wf' hz h2
          exact w.builds E E'
        rw [this]
  · intro self ser dig diger
    refine ⟨fun h hd => ?_, Diger.compare_builds H self ser dig diger⟩
    obtain ⟨z, w⟩ := h.wf
    unfold Diger.compare
    cases dig with
    | some dig =>
      dsimp only
      unfold Diger.compareDig
      rw [Matter.new_builds (E := E) (E' := E'), show self.qb64b E = self.qb64b E' from w.builds E E']
    | none =>
      cases diger with
      | none => rfl
      | some d =>
        obtain ⟨z', w'⟩ := (hd d rfl).wf
        dsimp only
        unfold Diger.compareDiger
        rw [w.builds E E', w'.builds E E']
  · intro self ked prefixed
    refine ⟨fun h => ?_, Prefixer.verify_builds H self ked prefixed⟩
    obtain ⟨z, w⟩ := h.wf
    unfold Prefixer.verify
    rw [w.builds E E']
    have : ∀ pre b c, Prefixer.verifyDigest E H ked pre b c = Prefixer.verifyDigest E' H ked pre b c := by
      intro pre b c
      unfold Prefixer.verifyDigest
      rw [Diger.new_builds (E := E) (E' := E')]
      cases hd : Prefixer.deriveDigest H ked c with
      | err e => rfl
      | panic => rfl
      | ok rc =>
        obtain ⟨raw, code⟩ := rc
        rw [Res.ok_bind, Res.ok_bind]
        dsimp only
        cases hn : Diger.new E' H none (some code) (some raw) none none none with
        | err e => rfl
        | panic => rfl
        | ok d =>
          rw [Res.ok_bind, Res.ok_bind]
          have : d.qb64 E = d.qb64 E' := by
            unfold Diger.new at hn
            split at hn
            · cases hn
            · next m hm =>
              obtain ⟨u, h3, h4⟩ := Res.bind_eq_ok.mp hn
              have h4 := Res.ok.inj h4
              subst h4
              unfold Prefixer.deriveDigest at hd
              obtain ⟨z, hz, hd⟩ := Res.bind_eq_ok.mp hd
              obtain ⟨_, _, hd⟩ := Res.bind_eq_ok.mp hd
              obtain ⟨_, _, hd⟩ := Res.bind_eq_ok.mp hd
              obtain ⟨_, _, hd⟩ := Res.bind_eq_ok.mp hd
              obtain ⟨_, _, hd⟩ := Res.bind_eq_ok.mp hd
              have hd := (Prod.mk.inj (Res.ok.inj hd)).2
              subst hd
              obtain ⟨z, w⟩ := Matter.new_wf' hz hm
              exact w.builds E E'
            · cases hn
          rw [this]
    simp only [this]


/-- C95 (thresholds). For every threshold and every list of positions the builds agree, up to a panic of a checked build (C36: without overflow checks the sums wrap).
When the weights are small they give the same answer (C35). -/
theorem C95_thresholds (E E' : Env) (F : Str → Option Str) :
    (∀ thold limen sith, BuildsAgree E E' (Tholder.new E F thold limen sith) (Tholder.new E' F thold limen sith)) ∧
    (∀ t : Tholder, BuildsAgree E E' (t.limen E) (t.limen E') ∧ ∀ indices, BuildsAgree E E' (t.satisfy E indices) (t.satisfy E' indices)) ∧
    (∀ s, BuildsAgree E E' (Serder.tholder E F s) (Serder.tholder E' F s) ∧ BuildsAgree E E' (Serder.ntholder E F s) (Serder.ntholder E' F s)) :=
  ⟨Tholder.new_builds F, fun t => ⟨Tholder.limen_builds t, Tholder.satisfy_builds t⟩,
    fun s => ⟨Serder.tholderAt_builds _ F s, Serder.tholderAt_builds _ F s⟩⟩

theorem Pather.walk_builds {b b' : Nat} (h : 32 ≤ b) (h' : 32 ≤ b') : ∀ (cs : List Str) (v : Value),
    (∀ c ∈ cs, ∀ n i, Spec.Position n c i → i < 2 ^ 32) → Pather.walk b v cs = Pather.walk b' v cs
  | [], v, _ => rfl
  | c :: cs, v, hc => by
    have ih := fun v => walk_builds h h' cs v fun c hc' => hc c (by simp [hc'])
    have e1 : (2 : Nat) ^ 32 ≤ 2 ^ b := Nat.pow_le_pow_right (by decide) h
    have e2 : (2 : Nat) ^ 32 ≤ 2 ^ b' := Nat.pow_le_pow_right (by decide) h'
    have hp : ∀ i, Spec.Position b c i ↔ Spec.Position b' c i := by
      intro i
      constructor
      · intro hi
        have := hc c (by simp) b i hi
        obtain ⟨s, d, h1, h2, h3, h4, h5, h6⟩ := hi
        exact ⟨s, d, h1, h2, h3, h4, h5, by omega⟩
      · intro hi
        have := hc c (by simp) b' i hi
        obtain ⟨s, d, h1, h2, h3, h4, h5, h6⟩ := hi
        exact ⟨s, d, h1, h2, h3, h4, h5, by omega⟩
    have hq : Pather.parseUsize b c = Pather.parseUsize b' c := by
      cases hx : Pather.parseUsize b c with
      | ok i => exact (parseUsize_ok.mpr ((hp i).mp (parseUsize_ok.mp hx))).symm
      | panic => exact absurd hx (parseUsize_ne_panic b c)
      | err e =>
        cases hy : Pather.parseUsize b' c with
        | ok i => rw [parseUsize_ok.mpr ((hp i).mpr (parseUsize_ok.mp hy))] at hx; cases hx
        | panic => exact absurd hy (parseUsize_ne_panic b' c)
        | err e' =>
          have : ∀ {b : Nat} {e : Err}, Pather.parseUsize b c = .err e → e = .parseInt := by
            intro b e h
            unfold Pather.parseUsize at h
            dsimp only at h
            have key : ∀ d : Str, (if d = [] then (.err .parseInt : Res Nat) else match decLoop (2 ^ b - 1) 0 d with | some n => .ok n | none => .err .parseInt) =
                .err e → e = .parseInt := by
              intro d h
              by_cases hd : d = []
              · rw [if_pos hd] at h; exact (Res.err.inj h).symm
              · rw [if_neg hd] at h
                cases hl : decLoop (2 ^ b - 1) 0 d with
                | some n => rw [hl] at h; cases h
                | none => rw [hl] at h; exact (Res.err.inj h).symm
            exact key _ h
          rw [this hx, this hy]
    unfold Pather.walk
    rw [hq]
    simp only [ih]

/-- C95 (paths). Building and combining paths gives the same answer everywhere. So does following a path, unless a component is a number that does not fit 32 bits
(C50 has such a case); then only machines with the same word size agree. -/
theorem C95_paths (E E' : Env) :
    Pather.newWithPath E = Pather.newWithPath E' ∧ Pather.root E = Pather.root E' ∧ Pather.strip E = Pather.strip E' ∧
    (E.usizeBits = E'.usizeBits → Pather.resolve E = Pather.resolve E' ∧ Pather.tail E = Pather.tail E') ∧
    (∀ (p : Matter) (cs : List Str), Pather.path p = .ok (.arr (cs.map .str)) → (∀ c ∈ cs, ∀ bits i, Spec.Position bits c i → i < 2 ^ 32) →
      ∀ sad H, Pather.resolve E p sad = Pather.resolve E' p sad ∧ Pather.tail E H p sad = Pather.tail E' H p sad) := by
  refine ⟨?_, Pather.root_builds, Pather.strip_builds, fun h => ⟨Pather.resolve_builds h, Pather.tail_builds h⟩, ?_⟩
  · funext v; unfold Pather.newWithPath; rw [Pather.new_builds (E := E) (E' := E')]
  · intro p cs hp hc sad H
    have hcs : Pather.comps p = .ok cs := by
      unfold Pather.path at hp
      obtain ⟨cs', h1, h2⟩ := Res.bind_eq_ok.mp hp
      have h2 := Res.ok.inj h2
      injection h2 with h2
      rw [h1, List.map_injective_iff.mpr (fun a b h => by injection h) h2]
    have hr : Pather.resolve E p sad = Pather.resolve E' p sad := by
      unfold Pather.resolve
      rw [hcs, Res.ok_bind, Res.ok_bind]
      exact Pather.walk_builds E.usizeBits_ge E'.usizeBits_ge cs sad hc
    refine ⟨hr, ?_⟩
    unfold Pather.tail
    rw [hr, Saider.new_builds (E := E) (E' := E')]

/-- Non-vacuity: a build for 32-bit words with overflow checks and another rounding, a primitive and its text in three builds. -/
def C95_other : Env where
  overflowChecks := true
  usizeBits := 32
  usizeBits_ge := by decide
  drop n len := if n < 64 ^ len then 0 else 7
  drop_fits n len h := if_pos h

example : (do let m ← Matter.new C95_other (some (lit "0A")) (some (List.replicate 16 7)) none none none; m.qb64 Env.release) = .ok (lit "0AAHBwcHBwcHBwcHBwcHBwcH") ∧
    (do let m ← Matter.new Env.release (some (lit "0A")) (some (List.replicate 16 7)) none none none; m.qb64 C95_other) = .ok (lit "0AAHBwcHBwcHBwcHBwcHBwcH") := by
  decide +kernel

/-- The builds do differ where no claim is made: an altered count in too few digits. -/
example : ({ code := lit "-A", count := 4096 } : Counter).countAsB64 Env.release 1 ≠ ({ code := lit "-A", count := 4096 } : Counter).countAsB64 C95_other 1 := by
  decide +kernel

/-- Non-vacuity: a threshold on which a checked build panics where an unchecked one answers. -/
example : (∃ t, Tholder.ofThold Env.release (fun _ => none) C36_sample = .ok t) ∧ Tholder.ofThold Env.debug (fun _ => none) C36_sample = .panic := by
  refine ⟨?_, ?_⟩
  · obtain ⟨t, h, _⟩ := C36_not_monotone_release Env.release (fun _ => none) rfl
    exact ⟨t, h⟩
  · have h : Tholder.valuesToRationals true C36_sample = .panic := by
      have : (match Tholder.valuesToRationals true C36_sample with | .panic => true | _ => false) = true := by decide +kernel
      split at this
      · assumption
      · cases this
    have h2 : Tholder.processThold Env.debug C36_sample = .panic := by
      show (do let cs ← Tholder.valuesToRationals true C36_sample; _ : Res Tholder) = .panic
      rw [h]; rfl
    unfold Tholder.ofThold Tholder.new
    dsimp only
    rw [h2]; rfl

end Cesride
