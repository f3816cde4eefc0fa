import Verif.Spec.Builds
import Verif.Lemmas.B64
import Verif.Lemmas.Digits
import Verif.Model.Prefixer
import Verif.Model.Pather
import Verif.Model.Counter
import Verif.Model.Signer
import Verif.Model.Sadder

namespace Cesride
open Spec

variable {E E' : Env}

namespace Builds

theorem refl {α : Type} (x : Res α) : BuildsAgree E E' x x := .inl rfl

theorem of_eq {α : Type} {x y : Res α} (h : x = y) : BuildsAgree E E' x y := .inl h

theorem bind {α β : Type} {x y : Res α} {f g : α → Res β} (h : BuildsAgree E E' x y) (hf : ∀ a, BuildsAgree E E' (f a) (g a)) :
    BuildsAgree E E' (x >>= f) (y >>= g) := by
  rcases h with rfl | ⟨h1, h2, rfl⟩ | ⟨h1, h2, rfl⟩
  · cases x with
    | ok a => exact hf a
    | err e => exact refl _
    | panic => exact refl _
  · exact .inr (.inl ⟨h1, h2, rfl⟩)
  · exact .inr (.inr ⟨h1, h2, rfl⟩)

theorem ite {α : Type} {p : Prop} [Decidable p] {x y x' y' : Res α} (h1 : p → BuildsAgree E E' x x') (h2 : ¬p → BuildsAgree E E' y y') :
    BuildsAgree E E' (if p then x else y) (if p then x' else y') := by
  by_cases h : p
  · rw [if_pos h, if_pos h]; exact h1 h
  · rw [if_neg h, if_neg h]; exact h2 h

/-- The two answers are equal when neither is a panic. -/
theorem eq_of_ne {α : Type} {x y : Res α} (h : BuildsAgree E E' x y) (h1 : x ≠ .panic) (h2 : y ≠ .panic) : x = y := by
  rcases h with h | ⟨_, _, h⟩ | ⟨_, _, h⟩
  · exact h
  · exact absurd h h1
  · exact absurd h h2


theorem sub (a b : Nat) : BuildsAgree E E' (E.subU32 a b) (E'.subU32 a b) := by
  unfold Env.subU32
  refine ite (fun _ => refl _) fun _ => ?_
  unfold BuildsAgree
  cases h : E.overflowChecks <;> cases h' : E'.overflowChecks <;> simp

theorem fit (n : Nat) : BuildsAgree E E' (E.fitU32 n) (E'.fitU32 n) := by
  unfold Env.fitU32
  refine ite (fun _ => refl _) fun _ => ?_
  unfold BuildsAgree
  cases h : E.overflowChecks <;> cases h' : E'.overflowChecks <;> simp

theorem pow (n : Nat) : BuildsAgree E E' (Indexer.powBound E n) (Indexer.powBound E' n) := by
  unfold Indexer.powBound
  refine ite (fun _ => refl _) fun _ => ?_
  unfold BuildsAgree
  cases h : E.overflowChecks <;> cases h' : E'.overflowChecks <;> simp

theorem uint {n len : Nat} (h : len ≠ 0 → n < 64 ^ len) : uintToB64 E n len = uintToB64 E' n len := by
  unfold uintToB64
  by_cases hl : len = 0
  · rw [if_pos hl, if_pos hl]
  · rw [if_neg hl, if_neg hl, E.drop_fits _ _ (h hl), E'.drop_fits _ _ (h hl)]

private theorem bound (l : List UInt8) (n a t len : Nat) (hn : l.length = n) (hb : 256 ^ n * a ≤ 2 ^ t * 64 ^ len) (ha : 0 < a) :
    beNat l * a / 2 ^ t < 64 ^ len := by
  have := beNat_lt l
  rw [hn] at this
  rw [Nat.div_lt_iff_lt_mul (Nat.pow_pos (by decide)), Nat.mul_comm (64 ^ len)]
  exact Nat.lt_of_lt_of_le (Nat.mul_lt_mul_of_pos_right this ha) hb

theorem codeB2 (b : List UInt8) (len : Nat) : codeB2ToB64 E b len = codeB2ToB64 E' b len := by
  unfold codeB2ToB64
  dsimp only
  split
  · rfl
  · split
    · rfl
    · next h0 h1 =>
      have hl : (b.take ((len + 1) * 3 / 4)).length = (len + 1) * 3 / 4 := by rw [List.length_take]; omega
      split
      · refine uint fun _ => bound _ _ _ _ _ hl ?_ (Nat.pow_pos (by decide))
        have : len = 1 ∨ len = 2 ∨ len = 3 ∨ len = 4 := by omega
        rcases this with rfl | rfl | rfl | rfl <;> decide
      · split
        · refine uint fun _ => bound _ _ _ _ _ hl ?_ (Nat.pow_pos (by decide))
          have : len = 5 ∨ len = 6 ∨ len = 7 ∨ len = 8 := by omega
          rcases this with rfl | rfl | rfl | rfl <;> decide
        · rfl

end Builds



theorem Matter.new_builds : Matter.new E = Matter.new E' := by
  funext c r b t q
  unfold Matter.new Matter.newWithQb2 Matter.bexfil
  simp only [Builds.codeB2 (E := E) (E' := E')]

theorem Indexer.new_builds : Indexer.new E = Indexer.new E' := by
  funext i o c r b t q
  unfold Indexer.new Indexer.bexfil
  simp only [Builds.codeB2 (E := E) (E' := E')]

theorem Counter.new_builds : Counter.new E = Counter.new E' := by
  funext i o c b t q
  unfold Counter.new Counter.bexfil
  simp only [Builds.codeB2 (E := E) (E' := E')]

theorem Counter.go_builds : ∀ l : List Nat, (∀ p ∈ l, p ≤ 63) → Counter.semVerPartsToB64.go E l = Counter.semVerPartsToB64.go E' l
  | [], _ => rfl
  | p :: ps, h => by
    unfold Counter.semVerPartsToB64.go
    rw [Builds.uint (E := E) (E' := E') (fun _ => by have := h p (by simp); omega), go_builds ps (fun q hq => h q (by simp [hq]))]

theorem Counter.semVerPartsToB64_builds (l : List Nat) : Counter.semVerPartsToB64 E l = Counter.semVerPartsToB64 E' l := by
  unfold Counter.semVerPartsToB64
  split
  · rfl
  · next h =>
    refine Counter.go_builds l fun p hp => Nat.le_of_not_lt fun hc => h ?_
    exact List.any_eq_true.mpr ⟨p, hp, by simpa using hc⟩

theorem Counter.semVerStrToB64_builds : Counter.semVerStrToB64 E = Counter.semVerStrToB64 E' := by
  funext v
  unfold Counter.semVerStrToB64
  simp only [Counter.semVerPartsToB64_builds (E := E) (E' := E')]

theorem Counter.semVerToB64_builds : Counter.semVerToB64 E = Counter.semVerToB64 E' := by
  funext a b c
  exact Counter.semVerPartsToB64_builds _

theorem Verfer.new_builds : Verfer.new E = Verfer.new E' := by
  funext c r b t q
  unfold Verfer.new
  rw [Matter.new_builds (E := E) (E' := E')]

theorem Diger.new_builds : Diger.new E = Diger.new E' := by
  funext H s c r b t q
  unfold Diger.new
  rw [Matter.new_builds (E := E) (E' := E')]

theorem Saider.new_builds : Saider.new E = Saider.new E' := by
  funext H s l k i c r b t q
  unfold Saider.new
  simp only [Matter.new_builds (E := E) (E' := E')]

theorem Cigar.new_builds : Cigar.new E = Cigar.new E' := by
  funext v c r b t q
  unfold Cigar.new
  rw [Matter.new_builds (E := E) (E' := E')]

theorem Siger.new_builds : Siger.new E = Siger.new E' := by
  funext v i o c r b t q
  unfold Siger.new
  rw [Indexer.new_builds (E := E) (E' := E')]

theorem Number.new_builds : Number.new E = Number.new E' := by
  funext n h c r b t q
  unfold Number.new
  simp only [Matter.new_builds (E := E) (E' := E')]

theorem Seqner.new_builds : Seqner.new E = Seqner.new E' := by
  funext n h c r b t q
  unfold Seqner.new
  simp only [Matter.new_builds (E := E) (E' := E')]

theorem Bexter.new_builds : Bexter.new E = Bexter.new E' := by
  funext n c r b t q
  unfold Bexter.new
  simp only [Matter.new_builds (E := E) (E' := E')]

theorem Dater.new_builds : Dater.new E = Dater.new E' := by
  funext n d c r b t q
  unfold Dater.new
  simp only [Matter.new_builds (E := E) (E' := E')]

theorem Pather.new_builds : Pather.new E = Pather.new E' := by
  funext n d c r b t q
  unfold Pather.new Pather.ofBext
  simp only [Matter.new_builds (E := E) (E' := E')]

theorem Signer.new_builds : Signer.new E = Signer.new E' := by
  funext C n tr c r b t q
  unfold Signer.new Signer.deriveVerfer
  simp only [Matter.new_builds (E := E) (E' := E'), Verfer.new_builds (E := E) (E' := E')]

theorem Salter.new_builds : Salter.new E = Salter.new E' := by
  funext n tr c r b t q
  unfold Salter.new
  simp only [Matter.new_builds (E := E) (E' := E')]

theorem Signer.signUnindexed_builds : Signer.signUnindexed E = Signer.signUnindexed E' := by
  funext C s ser r
  unfold Signer.signUnindexed
  simp only [Cigar.new_builds (E := E) (E' := E')]

theorem Signer.signIndexed_builds : Signer.signIndexed E = Signer.signIndexed E' := by
  funext C s ser only i o r
  unfold Signer.signIndexed
  simp only [Siger.new_builds (E := E) (E' := E')]

theorem Salter.signer_builds : Salter.signer E = Salter.signer E' := by
  funext C s c tr p ti te
  unfold Salter.signer
  simp only [Signer.new_builds (E := E) (E' := E')]

theorem Prefixer.derive_builds : Prefixer.derive E = Prefixer.derive E' := by
  funext H k c
  unfold Prefixer.derive Prefixer.deriveNontransferable Prefixer.deriveTransferable Prefixer.theKey
  simp only [Verfer.new_builds (E := E) (E' := E')]

theorem Prefixer.new_builds : Prefixer.new E = Prefixer.new E' := by
  funext H k a c r b t q
  unfold Prefixer.new
  simp only [Matter.new_builds (E := E) (E' := E'), Prefixer.derive_builds (E := E) (E' := E')]

theorem Sadder.new_builds : Sadder.new E = Sadder.new E' := by
  funext F H d c r k ked s
  unfold Sadder.new Sadder.populateFromRaw Sadder.populateFromKed Sadder.setSaider Sadder.saiderOf
  simp only [Saider.new_builds (E := E) (E' := E')]

theorem Serder.new_builds : Serder.new E = Serder.new E' := by
  funext F H c r k ked s
  unfold Serder.new
  rw [Sadder.new_builds (E := E) (E' := E')]

theorem Creder.new_builds : Creder.new E = Creder.new E' := by
  funext F H c r k ked s
  unfold Creder.new
  rw [Sadder.new_builds (E := E) (E' := E')]

theorem Serder.lists_builds : Serder.verfers E = Serder.verfers E' ∧ Serder.digers E = Serder.digers E' ∧ Serder.werfers E = Serder.werfers E' := by
  refine ⟨?_, ?_, ?_⟩
  · funext s; unfold Serder.verfers; rw [Verfer.new_builds (E := E) (E' := E')]
  · funext H s; unfold Serder.digers; rw [Diger.new_builds (E := E) (E' := E')]
  · funext s; unfold Serder.werfers; rw [Verfer.new_builds (E := E) (E' := E')]

theorem Serder.numbers_builds : Serder.sner E = Serder.sner E' ∧ Serder.sn E = Serder.sn E' ∧ Serder.fner E = Serder.fner E' ∧
    Serder.fn E = Serder.fn E' := by
  have h1 : Serder.sner E = Serder.sner E' := by funext s; unfold Serder.sner; rw [Number.new_builds (E := E) (E' := E')]
  have h2 : Serder.fner E = Serder.fner E' := by funext s; unfold Serder.fner; simp only [Number.new_builds (E := E) (E' := E')]
  refine ⟨h1, ?_, h2, ?_⟩
  · funext s; unfold Serder.sn; rw [h1]
  · funext s; unfold Serder.fn; rw [h2]


/-! ## Encodings -/

theorem Matter.qb64_builds (m : Matter) : BuildsAgree E E' (m.qb64 E) (m.qb64 E') := by
  unfold Matter.qb64 Matter.infil
  refine Builds.bind (Builds.refl _) fun z => ?_
  dsimp only
  refine Builds.ite (fun _ => ?_) fun _ => ?_
  · refine Builds.ite (fun _ => Builds.refl _) fun _ => Builds.ite (fun _ => Builds.refl _) fun h => ?_
    rw [Builds.uint (E := E) (E' := E') (fun _ => by have : 0 < 64 ^ z.ss := Nat.pow_pos (by decide); omega)]
    exact Builds.refl _
  · exact Builds.bind (Builds.sub _ _) fun d => Builds.refl _

theorem Matter.qb2_builds (m : Matter) : m.qb2 E = m.qb2 E' := by
  unfold Matter.qb2 Matter.binfil
  cases hz : Matter.sizage m.code with
  | err e => rfl
  | panic => rfl
  | ok z =>
    rw [Res.ok_bind, Res.ok_bind]
    dsimp only
    congr 1
    split
    · split
      · rfl
      · split
        · rfl
        · next h => rw [Builds.uint (E := E) (E' := E') (fun _ => by have : 0 < 64 ^ z.ss := Nat.pow_pos (by decide); omega)]
    · rfl

theorem Indexer.qb64_builds (x : Indexer) : BuildsAgree E E' (x.qb64 E) (x.qb64 E') := by
  unfold Indexer.qb64 Indexer.infil
  refine Builds.bind (Builds.refl _) fun z => ?_
  dsimp only
  refine Builds.bind ?_ fun fs => ?_
  · refine Builds.ite (fun _ => Builds.ite (fun _ => Builds.refl _) fun _ => Builds.ite (fun _ => Builds.refl _) fun _ => Builds.fit _)
      fun _ => Builds.refl _
  · refine Builds.ite (fun _ => Builds.refl _) fun h1 => Builds.ite (fun _ => Builds.refl _) fun h2 => ?_
    rw [Builds.uint (E := E) (E' := E') (n := x.index)
        (fun _ => by have : 0 < 64 ^ (z.ss - z.os) := Nat.pow_pos (by decide); omega),
      Builds.uint (E := E) (E' := E') (n := x.ondex)
        (fun hn => by have : 0 < 64 ^ z.os := Nat.pow_pos (by decide); omega)]
    refine Builds.bind (Builds.refl _) fun i => Builds.bind (Builds.refl _) fun o => Builds.ite (fun _ => Builds.refl _) fun _ => ?_
    exact Builds.bind (Builds.sub _ _) fun d => Builds.refl _

theorem Indexer.qb2_builds (x : Indexer)
    (h : ∀ z, Indexer.sizage x.code = .ok z → (z.ss ≠ z.os → x.index < 64 ^ (z.ss - z.os)) ∧ (z.os ≠ 0 → x.ondex < 64 ^ z.os)) :
    BuildsAgree E E' (x.qb2 E) (x.qb2 E') := by
  unfold Indexer.qb2 Indexer.binfil
  cases hz : Indexer.sizage x.code with
  | err e => exact Builds.refl _
  | panic => exact Builds.refl _
  | ok z =>
    rw [Res.ok_bind, Res.ok_bind]
    dsimp only
    refine Builds.bind (Builds.pow _) fun b => ?_
    refine Builds.ite (fun _ => Builds.refl _) fun h1 => Builds.ite (fun _ => Builds.refl _) fun h2 => ?_
    refine Builds.bind (Builds.refl _) fun fs => ?_
    rw [Builds.uint (E := E) (E' := E') (n := x.index) (fun hn => (h z hz).1 (by omega)),
      Builds.uint (E := E) (E' := E') (n := x.ondex) (fun hn => (h z hz).2 hn)]
    refine Builds.bind (Builds.refl _) fun i => Builds.bind (Builds.refl _) fun o => Builds.ite (fun _ => Builds.refl _) fun _ => ?_
    exact Builds.bind (Builds.sub _ _) fun d => Builds.refl _

theorem Counter.qb64_builds (x : Counter) : x.qb64 E = x.qb64 E' := by
  unfold Counter.qb64 Counter.infil
  cases hz : Counter.sizage x.code with
  | err e => rfl
  | panic => rfl
  | ok z =>
    rw [Res.ok_bind, Res.ok_bind]
    dsimp only
    split
    · rfl
    · split
      · rfl
      · next h => rw [Builds.uint (E := E) (E' := E') (fun _ => by have : 0 < 64 ^ z.ss := Nat.pow_pos (by decide); omega)]

theorem Counter.qb2_builds (x : Counter) : x.qb2 E = x.qb2 E' := by
  have h := Counter.qb64_builds (E := E) (E' := E') x
  unfold Counter.qb64 at h
  unfold Counter.qb2 Counter.binfil
  rw [h]

theorem Counter.countAsB64_builds (x : Counter) (len : Nat) (h : ∀ n, (len = 0 → ∃ z, Counter.sizage x.code = .ok z ∧ z.ss = n) →
      (len ≠ 0 → n = len) → x.count < 64 ^ n) : x.countAsB64 E len = x.countAsB64 E' len := by
  unfold Counter.countAsB64
  split
  · next h0 =>
    cases hz : Counter.sizage x.code with
    | err e => rfl
    | panic => rfl
    | ok z =>
      simp only [Res.ok_bind]
      exact Builds.uint fun _ => h z.ss (fun _ => ⟨z, hz, rfl⟩) (fun hn => absurd h0 hn)
  · next h0 =>
    simp only [Res.ok_bind]
    exact Builds.uint fun _ => h len (fun hn => absurd hn h0) (fun _ => rfl)

/-! ## Digests, SAIDs, prefixes -/

theorem Diger.compare_builds (H : Hash) (self : Matter) (ser : List UInt8) (dig : Option (List UInt8)) (diger : Option Matter) :
    BuildsAgree E E' (Diger.compare E H self ser dig diger) (Diger.compare E' H self ser dig diger) := by
  unfold Diger.compare
  cases dig with
  | some dig =>
    dsimp only
    unfold Diger.compareDig
    rw [Matter.new_builds (E := E) (E' := E')]
    exact Builds.bind (Matter.qb64_builds _) fun t => Builds.refl _
  | none =>
    cases diger with
    | none => exact Builds.refl _
    | some d =>
      dsimp only
      unfold Diger.compareDiger
      exact Builds.bind (Matter.qb64_builds _) fun s => Builds.bind (Matter.qb64_builds _) fun t => Builds.refl _

theorem Saider.saidify_builds (H : Hash) (sad : Value) (code kind label : Option Str) (ignore : Option (List Str)) :
    BuildsAgree E E' (Saider.saidify E H sad code kind label ignore) (Saider.saidify E' H sad code kind label ignore) := by
  unfold Saider.saidify
  rw [Saider.new_builds (E := E) (E' := E')]
  dsimp only
  refine Builds.bind (Builds.refl _) fun map => Builds.ite (fun _ => Builds.refl _) fun _ => ?_
  refine Builds.bind (Builds.refl _) fun p => Builds.bind (Builds.refl _) fun s => ?_
  exact Builds.bind (Matter.qb64_builds _) fun t => Builds.refl _

theorem Saider.verify_builds (H : Hash) (self : Matter) (sad : Value) (prefixed versioned : Option Bool) (kind label : Option Str)
    (ignore : Option (List Str)) : BuildsAgree E E' (Saider.verify E H self sad prefixed versioned kind label ignore)
      (Saider.verify E' H self sad prefixed versioned kind label ignore) := by
  unfold Saider.verify
  rw [Saider.new_builds (E := E) (E' := E')]
  dsimp only
  split
  · exact Builds.refl _
  · exact Builds.refl _
  · split
    · exact Builds.refl _
    · exact Builds.refl _
    · refine Builds.bind (Matter.qb64_builds _) fun s => Builds.bind (Matter.qb64_builds _) fun t => Builds.ite (fun _ => Builds.refl _) fun _ => ?_
      refine Builds.bind (Builds.refl _) fun u => Builds.ite (fun _ => Builds.refl _) fun _ => ?_
      refine Builds.bind (Builds.ite (fun _ => ?_) fun _ => Builds.refl _) fun u => Builds.refl _
      exact Builds.bind (Builds.refl _) fun x => Builds.bind (Builds.refl _) fun xs => Builds.bind (Matter.qb64_builds _) fun s => Builds.refl _

theorem Prefixer.verify_builds (H : Hash) (self : Matter) (ked : Value) (prefixed : Option Bool) :
    BuildsAgree E E' (Prefixer.verify E H self ked prefixed) (Prefixer.verify E' H self ked prefixed) := by
  unfold Prefixer.verify
  dsimp only
  refine Builds.bind (Builds.refl _) fun t => Builds.bind (Builds.refl _) fun ilk => Builds.ite (fun _ => Builds.refl _) fun _ => ?_
  refine Builds.ite (fun _ => Builds.bind (Matter.qb64_builds _) fun p => Builds.refl _) fun _ => ?_
  refine Builds.ite (fun _ => Builds.bind (Matter.qb64_builds _) fun p => Builds.refl _) fun _ => ?_
  refine Builds.ite (fun _ => Builds.bind (Matter.qb64_builds _) fun p => ?_) fun _ => Builds.refl _
  unfold Prefixer.verifyDigest
  rw [Diger.new_builds (E := E) (E' := E')]
  refine Builds.bind (Builds.refl _) fun rc => Builds.bind (Builds.refl _) fun c => ?_
  exact Builds.bind (Matter.qb64_builds _) fun t => Builds.refl _

theorem Dater.dts_builds (m : Matter) : BuildsAgree E E' (Dater.dts E m) (Dater.dts E' m) := by
  unfold Dater.dts
  exact Builds.bind (Builds.refl _) fun z => Builds.bind (Matter.qb64_builds _) fun t => Builds.refl _

theorem Sadder.said_builds (s : Sadder) : BuildsAgree E E' (s.said E) (s.said E') := Matter.qb64_builds _

/-! ## Paths -/

theorem Pather.root_builds : Pather.root E = Pather.root E' := by
  funext a b; unfold Pather.root Pather.newWithPath; rw [Pather.new_builds (E := E) (E' := E')]

theorem Pather.strip_builds : Pather.strip E = Pather.strip E' := by
  funext a b; unfold Pather.strip Pather.newWithPath; rw [Pather.new_builds (E := E) (E' := E')]

theorem Pather.resolve_builds (h : E.usizeBits = E'.usizeBits) : Pather.resolve E = Pather.resolve E' := by
  funext a b; unfold Pather.resolve; rw [h]

theorem Pather.tail_builds (h : E.usizeBits = E'.usizeBits) : Pather.tail E = Pather.tail E' := by
  funext H a b; unfold Pather.tail; rw [Pather.resolve_builds h, Saider.new_builds (E := E) (E' := E')]

/-! ## Signers of a salt -/

theorem Salter.signersLoop_builds (h : E.usizeBits = E'.usizeBits) (C : Crypto) (s : Salter) (start : Nat) (path : Str) (code : Option Str)
    (transferable : Option Bool) (tier : Option Str) (temp : Option Bool) : ∀ l : List Nat,
    BuildsAgree E E' (Salter.signersLoop E C s start path code transferable tier temp l)
      (Salter.signersLoop E' C s start path code transferable tier temp l)
  | [] => Builds.refl _
  | i :: is => by
    unfold Salter.signersLoop
    rw [Salter.signer_builds (E := E) (E' := E')]
    refine Builds.bind ?_ fun n => Builds.bind (Builds.refl _) fun x =>
      Builds.bind (signersLoop_builds h C s start path code transferable tier temp is) fun xs => Builds.refl _
    unfold Salter.addUsize
    rw [h]
    refine Builds.ite (fun _ => Builds.refl _) fun _ => ?_
    unfold BuildsAgree
    cases h : E.overflowChecks <;> cases h' : E'.overflowChecks <;> simp

/-! ## Thresholds -/

namespace Builds

theorem i32_agree (x : Int) : BuildsAgree E E' (i32 E.overflowChecks x) (i32 E'.overflowChecks x) := by
  unfold i32
  refine ite (fun _ => refl _) fun _ => ?_
  unfold BuildsAgree
  cases h : E.overflowChecks <;> cases h' : E'.overflowChecks <;> simp

theorem lcm_agree (a b : Int) : BuildsAgree E E' (R32.lcm32 E.overflowChecks a b) (R32.lcm32 E'.overflowChecks a b) := by
  unfold R32.lcm32 R32.gcd32
  exact ite (fun _ => refl _) fun _ => bind (i32_agree _) fun g => bind (i32_agree _) fun p => i32_agree _

theorem ratio_agree (a b : Int) : BuildsAgree E E' (R32.new E.overflowChecks a b) (R32.new E'.overflowChecks a b) := by
  unfold R32.new R32.gcd32
  refine ite (fun _ => refl _) fun _ => ite (fun _ => refl _) fun _ => ite (fun _ => refl _) fun _ => bind (i32_agree _) fun g => ?_
  exact ite (fun _ => bind (i32_agree _) fun n => bind (i32_agree _) fun d => refl _) fun _ => refl _

theorem add_agree (a b : R32) : BuildsAgree E E' (R32.add E.overflowChecks a b) (R32.add E'.overflowChecks a b) := by
  unfold R32.add
  refine ite (fun _ => bind (i32_agree _) fun n => ratio_agree _ _) fun _ => bind (lcm_agree _ _) fun l => ?_
  exact bind (i32_agree _) fun x => bind (i32_agree _) fun y => bind (i32_agree _) fun n => ratio_agree _ _

theorem weight_agree (s : Str) : BuildsAgree E E' (Tholder.weight E.overflowChecks s) (Tholder.weight E'.overflowChecks s) := by
  unfold Tholder.weight
  split
  · refine bind (refl _) fun n => bind (refl _) fun d => ite (fun _ => refl _) fun _ => ite (fun _ => refl _) fun _ => ratio_agree _ _
  · exact refl _
  · exact refl _

theorem weights_agree : ∀ l : List Value, BuildsAgree E E' (Tholder.weights E.overflowChecks l) (Tholder.weights E'.overflowChecks l)
  | [] => refl _
  | v :: rest => by
    unfold Tholder.weights
    exact bind (refl _) fun s => bind (weight_agree s) fun w => bind (weights_agree rest) fun ws => refl _

theorem clauses_agree : ∀ l : List Value, BuildsAgree E E' (Tholder.clausesOf E.overflowChecks l) (Tholder.clausesOf E'.overflowChecks l)
  | [] => refl _
  | v :: rest => by
    unfold Tholder.clausesOf
    exact bind (refl _) fun a => bind (weights_agree a) fun w => bind (clauses_agree rest) fun ws => refl _

theorem sum_agree : ∀ (l : List R32) (s : R32), BuildsAgree E E' (Tholder.sumFrom E.overflowChecks s l) (Tholder.sumFrom E'.overflowChecks s l)
  | [], _ => refl _
  | w :: ws, s => by
    unfold Tholder.sumFrom
    exact bind (add_agree s w) fun s => sum_agree ws s

theorem sums_agree : ∀ l : List (List R32), BuildsAgree E E' (Tholder.checkSums E.overflowChecks l) (Tholder.checkSums E'.overflowChecks l)
  | [] => refl _
  | c :: rest => by
    unfold Tholder.checkSums
    exact bind (sum_agree c _) fun s => ite (fun _ => refl _) fun _ => sums_agree rest

theorem values_agree (v : Value) :
    BuildsAgree E E' (Tholder.valuesToRationals E.overflowChecks v) (Tholder.valuesToRationals E'.overflowChecks v) := by
  unfold Tholder.valuesToRationals
  exact bind (refl _) fun a => bind (clauses_agree a) fun cs => bind (sums_agree cs) fun _ => refl _

theorem weighted_agree (v : Value) : BuildsAgree E E' (Tholder.processWeighted E v) (Tholder.processWeighted E' v) := by
  unfold Tholder.processWeighted
  rw [Bexter.new_builds (E := E) (E' := E')]
  exact bind (values_agree v) fun cs => refl _

theorem unweighted_eq (n : Int) : Tholder.processUnweighted E n = Tholder.processUnweighted E' n := by
  unfold Tholder.processUnweighted
  rw [Number.new_builds (E := E) (E' := E')]

theorem thold_agree (v : Value) : BuildsAgree E E' (Tholder.processThold E v) (Tholder.processThold E' v) := by
  unfold Tholder.processThold
  split
  · exact of_eq (unweighted_eq _)
  · exact weighted_agree v

theorem limen_agree (l : List UInt8) : BuildsAgree E E' (Tholder.processLimen E l) (Tholder.processLimen E' l) := by
  unfold Tholder.processLimen
  rw [Number.new_builds (E := E) (E' := E'), Bexter.new_builds (E := E) (E' := E')]
  refine bind (refl _) fun s => ?_
  split
  · exact refl _
  · refine bind (refl _) fun hs => bind (refl _) fun code => ite (fun _ => ?_) fun _ => ite (fun _ => ?_) fun _ => refl _
    · exact bind (refl _) fun m => bind (refl _) fun n => ite (fun _ => of_eq (unweighted_eq _)) fun _ => refl _
    · exact bind (refl _) fun m => bind (refl _) fun t => weighted_agree _

theorem array_agree (v : Value) : BuildsAgree E E' (Tholder.processSithArray E v) (Tholder.processSithArray E' v) := by
  unfold Tholder.processSithArray
  refine bind (refl _) fun a => ite (fun _ => refl _) fun _ => ?_
  exact bind (refl _) fun b => bind (refl _) fun _ => weighted_agree _

theorem sith_agree (F : Str → Option Str) (v : Value) : BuildsAgree E E' (Tholder.processSith E F v) (Tholder.processSith E' F v) := by
  unfold Tholder.processSith
  split
  · exact of_eq (unweighted_eq _)
  · exact ite (fun _ => bind (refl _) fun v => array_agree v) fun _ => bind (refl _) fun n => of_eq (unweighted_eq _)
  · exact array_agree _

theorem clause_agree (sats : List Bool) : ∀ (l : List R32) (cw : R32) (i : Nat),
    BuildsAgree E E' (Tholder.clauseWeight E.overflowChecks sats cw i l) (Tholder.clauseWeight E'.overflowChecks sats cw i l)
  | [], _, _ => refl _
  | w :: ws, cw, i => by
    unfold Tholder.clauseWeight
    split
    · exact refl _
    · exact bind (add_agree _ _) fun cw => clause_agree sats ws cw _
    · exact clause_agree sats ws cw _

theorem reach_agree (sats : List Bool) : ∀ (l : List (List R32)) (i : Nat),
    BuildsAgree E E' (Tholder.clausesReach E.overflowChecks sats i l) (Tholder.clausesReach E'.overflowChecks sats i l)
  | [], _ => refl _
  | c :: rest, i => by
    unfold Tholder.clausesReach
    exact bind (clause_agree sats c _ _) fun cw => ite (fun _ => refl _) fun _ => reach_agree sats rest _

end Builds

theorem Tholder.new_builds (F : Str → Option Str) (thold : Option Value) (limen : Option (List UInt8)) (sith : Option Value) :
    BuildsAgree E E' (Tholder.new E F thold limen sith) (Tholder.new E' F thold limen sith) := by
  unfold Tholder.new
  dsimp only
  refine Builds.bind ?_ fun t => Builds.bind ?_ fun t => Builds.bind ?_ fun t => Builds.refl _
  · split
    · exact Builds.thold_agree _
    · exact Builds.refl _
  · split
    · exact Builds.ite (fun _ => Builds.refl _) fun _ => Builds.limen_agree _
    · exact Builds.refl _
  · split
    · exact Builds.sith_agree F _
    · exact Builds.refl _

theorem Tholder.limen_builds (t : Tholder) : BuildsAgree E E' (t.limen E) (t.limen E') := by
  unfold Tholder.limen
  refine Builds.ite (fun _ => ?_) fun _ => ?_
  all_goals
    split
    · exact Matter.qb64_builds _
    · exact Builds.refl _

theorem Tholder.satisfy_builds (t : Tholder) (indices : List Nat) : BuildsAgree E E' (t.satisfy E indices) (t.satisfy E' indices) := by
  unfold Tholder.satisfy
  refine Builds.ite (fun _ => Builds.refl _) fun _ => Builds.ite (fun _ => ?_) fun _ => Builds.refl _
  unfold Tholder.satisfyWeighted
  exact Builds.bind (Builds.refl _) fun sats => Builds.bind (Builds.values_agree _) fun cs => Builds.reach_agree sats cs 0

theorem Serder.tholderAt_builds (label : Str) (F : Str → Option Str) (s : Sadder) :
    BuildsAgree E E' (Serder.tholderAt label E F s) (Serder.tholderAt label E' F s) := by
  unfold Serder.tholderAt
  refine Builds.bind (Builds.refl _) fun map => Builds.ite (fun _ => ?_) fun _ => Builds.refl _
  exact Builds.bind (Builds.refl _) fun v => Builds.bind (Tholder.new_builds F _ _ _) fun t => Builds.refl _

end Cesride
