import Verif.Props.Stream
import Verif.Props.Serder
import Verif.Props.Signer
import Verif.Props.Tholder
import Verif.Props.Saider
import Verif.Props.JsonRead
import Verif.Model.Short
import Verif.Lemmas.KernelRfl
import Mathlib.Data.List.Dedup

/-!
# Property C87: signed events

The client below is what a user of the library writes to receive a signed event: a key event followed by a counter and indexed signatures. Its
loops are not library code; everything it calls is.
-/

namespace Cesride
open Spec

/-- Parse `n` indexed signatures, one after the other, skipping `full_size` characters for each. -/
def readSigs (E : Env) : Nat → Str → Res (List Siger × Str)
  | 0, s => .ok ([], s)
  | n + 1, s => do
    let x ← Siger.newWithQb64 E s none
    let k ← x.indexer.fullSize
    let rest ← sliceStr s k s.length
    let (xs, left) ← readSigs E n rest
    .ok (x :: xs, left)

/-- Whether a signature verifies over `ser` under the key its index names. -/
def verifiesUnder (C : Crypto) (keys : List Matter) (ser : List UInt8) (x : Siger) : Bool :=
  match keys[x.indexer.index]? with
  | some k => decide (Verfer.verify C k x.indexer.raw ser = .ok true)
  | none => false

/-- What a receiver learns: the event, whether its SAID is the digest of its content, the positions of the keys that have signed it (each once),
whether they reach the signing threshold, and the text after the signatures. -/
structure Received where
  event : Sadder
  genuine : Bool
  signers : List Nat
  enough : Bool
  left : Str

/-- Receive a signed event from the front of a byte stream. -/
def receive (E : Env) (F : Str → Option Str) (H : Hash) (C : Crypto) (stream : List UInt8) : Res Received := do
  let event ← Serder.newWithRaw E F H stream
  let genuine ← Saider.verify E H event.saider event.ked (some true) (some true) none none none
  let attached ← slice stream event.raw.length stream.length
  let text ← fromUtf8 attached
  let counter ← Counter.new E none none none none (some text) none
  let k ← counter.fullSize
  let text ← sliceStr text k text.length
  let (sigs, left) ← readSigs E counter.count text
  let keys ← Serder.verfers E event
  let signers := ((sigs.filter (verifiesUnder C keys event.raw)).map (·.indexer.index)).dedup
  let threshold ← Serder.tholder E F event
  let enough ← (match threshold with
    | some t => t.satisfy E signers
    | none => .ok false : Res Bool)
  .ok { event := event, genuine := genuine, signers := signers, enough := enough, left := left }

/-- What the signature made by a signer is. -/
theorem signIndexed_obtained {E : Env} {C : Crypto} {r₀ : Nat} {t : Option Bool} {code : Option Str} {raw qb64b : Option (List UInt8)} {qb64 : Option Str}
    {qb2 : Option (List UInt8)} {s : Signer} (h : Signer.new E C r₀ t code raw qb64b qb64 qb2 = .ok s) {ser : List UInt8} {r : Nat} {only : Bool} {index : Nat}
    {ondex : Option Nat} {sig : Siger} (hsig : Signer.signIndexed E C s ser only index ondex r = .ok sig) :
    sig.indexer.index = index ∧ Siger.validateCode sig.indexer.code = .ok () ∧ ∃ c ∈ Spec.idxCodes, IdxObtained E c sig.indexer := by
  obtain ⟨c, ok, _⟩ := Signer.new_ok h
  rw [ok.indexed_eq] at hsig
  generalize hbig : bigChoice only index (ondex.getD index) = big at hsig
  obtain ⟨h1, h2, h3, h4⟩ := idxOf_rows c only big
  have hl := C.sign_length c s.matter.raw ser r ok.valid
  obtain ⟨o, hoe⟩ : ∃ o : Option Nat, o = if only then none else some (ondex.getD index) := ⟨_, rfl⟩
  rw [← hoe] at hsig
  have hsig' := hsig
  rw [Siger.new_built E h1 h3 _ _ _ (by rw [hl, h4])] at hsig'
  split at hsig'
  · cases hsig'
  · rename_i hno
    injection hsig' with hs
    have hx : Indexer.ofRaw E (idxOf c only big).code (C.sign c s.matter.raw ser r) index o = .ok sig.indexer := by
      rw [C20_limits E h1, if_neg hno, if_neg (by omega), List.take_of_length_le (by omega), ← hs]
    have hp : Spec.Permitted (idxOf c only big) index o := by
      simp only [not_or, not_exists, not_and] at hno
      refine ⟨Nat.lt_of_not_le hno.1, ?_⟩
      subst hoe
      cases only
      · simp only [Bool.false_eq_true, if_false]
        refine ⟨by cases big <;> rfl, ?_⟩
        have h5 := hno.2 _ rfl
        cases big
        · unfold bigChoice at hbig
          simp only [Bool.false_eq_true, if_false, Bool.not_eq_false', decide_eq_true_eq] at hbig
          exact hbig.1
        · exact Nat.lt_of_not_le (h5.2 rfl)
      · trivial
    refine ⟨by rw [← hs], by rw [← hs]; exact h3, _, h1, IdxObtained.built hp hx⟩

theorem readSigs_of {E : Env} : ∀ {sigs : List Siger} {sts : List Str} {left : Str},
    (∀ x ∈ sigs, Siger.validateCode x.indexer.code = .ok () ∧ ∃ c ∈ Spec.idxCodes, IdxObtained E c x.indexer) →
    Aligned (fun x t => x.indexer.qb64 E = .ok t) sigs sts → utf8Valid left = true →
    readSigs E sigs.length (sts.flatten ++ left) = .ok (sigs.map (fun x => { indexer := x.indexer, verfer := Verfer.default }), left) ∧
      Ascii sts.flatten
  | _, _, left, _, .nil, _ => ⟨rfl, by intro c hc; simp at hc⟩
  | x :: sigs, t :: sts, left, ho, .cons ht hr, hl => by
    obtain ⟨hv, c, hc, hx⟩ := ho x (by simp)
    obtain ⟨ih, ha⟩ := readSigs_of (fun y hy => ho y (by simp [hy])) hr hl
    obtain ⟨t', ht', hf, _, _, hb, hp, _⟩ := Item.Obtainable.facts (i := .sig x.indexer) (E := E) ⟨c, hc, hx⟩
    have ht' : x.indexer.qb64 E = .ok t' := ht'
    obtain rfl := Res.ok.inj (ht'.symm.trans ht)
    have hu : utf8Valid (sts.flatten ++ left) = true := by rw [utf8Valid_ascii_append ha]; exact hl
    have hq := hp _ hu
    have hq : (do let x ← Indexer.ofText E (t' ++ (sts.flatten ++ left)); Res.ok (Item.sig x)) = .ok (Item.sig x.indexer) := hq
    obtain ⟨y, hy, e⟩ := Res.bind_eq_ok.mp hq
    have e : y = x.indexer := by simpa using e
    subst e
    have hsl : sliceStr (t' ++ (sts.flatten ++ left)) t'.length (t' ++ (sts.flatten ++ left)).length = .ok (sts.flatten ++ left) := by
      unfold sliceStr
      rw [if_pos ⟨by simp, Nat.le_refl _, isBoundary_prefix (isB64Text_ascii hb) hu (Nat.le_refl _), by simp [isBoundary]⟩]
      rw [List.take_length, List.drop_left]
    have hn : Siger.newWithQb64 E (t' ++ (sts.flatten ++ left)) none = .ok { indexer := x.indexer, verfer := Verfer.default } := by
      show (do let x ← Indexer.ofText E (t' ++ (sts.flatten ++ left)); Siger.validateCode x.code; Res.ok (Siger.mk x Verfer.default)) = _
      rw [hy, Res.ok_bind, hv, Res.ok_bind]
    refine ⟨?_, ?_⟩
    · simp only [List.flatten_cons, List.length_cons, readSigs, List.append_assoc]
      have hf : x.indexer.fullSize = .ok t'.length := hf
      rw [hn, Res.ok_bind]
      dsimp only
      rw [hf, Res.ok_bind, hsl, Res.ok_bind, ih, Res.ok_bind]
      rfl
    · intro b hb'
      rw [List.flatten_cons, List.mem_append] at hb'
      rcases hb' with h | h
      · exact isB64Text_ascii hb b h
      · exact ha b h


/-- A signer that some constructor call has returned. -/
def MadeSigner (E : Env) (C : Crypto) (g : Signer) : Prop :=
  ∃ r t code raw qb64b qb64 qb2, Signer.new E C r t code raw qb64b qb64 qb2 = .ok g

theorem verfers_of_signers {E : Env} {C : Crypto} : ∀ {signers : List Signer} {ks : List Str}, (∀ g ∈ signers, MadeSigner E C g) →
    Aligned (fun g t => g.verfer.qb64 E = .ok t) signers ks →
    Aligned (fun v m => ∃ t, v = Value.str t ∧ Matter.ofText E t = .ok m ∧ m.code ∈ verferCodes) (ks.map .str) (signers.map (·.verfer))
  | _, _, _, .nil => .nil
  | g :: signers, t :: ks, hm, .cons ht hr => by
    refine .cons ?_ (verfers_of_signers (fun g hg => hm g (by simp [hg])) hr)
    obtain ⟨_, _, _, _, _, _, _, hg⟩ := hm g (by simp)
    obtain ⟨x, b, h1, _, h3, _⟩ := C53_key_transport E C hg
    obtain rfl := Res.ok.inj (h1.symm.trans ht)
    obtain ⟨m, hm1, hm2⟩ := Res.bind_eq_ok.mp h3
    obtain ⟨_, hm3, hm4⟩ := Res.bind_eq_ok.mp hm2
    obtain rfl := Res.ok.inj hm4
    refine ⟨x, rfl, hm1, ?_⟩
    unfold Verfer.validateCode at hm3
    split at hm3
    · rename_i hc; simpa [verferCodes] using hc
    · cases hm3

/-- C87. An event built from a map with the texts of the public keys of some signers in `k`, signed by any of them at their positions in that list,
and sent as its bytes, a counter and the signatures, with any further text after them: the receiver gets the event back, with the positions of all
who signed, the verdict of the event's threshold on them, the verdict on the SAID, and exactly the text that followed. -/
theorem C87_received {E : Env} {F : Str → Option Str} {H : Hash} {C : Crypto} {kind : Option Str} {rest : List (Str × Value)} {x : Value} {s : Sadder}
    (h : Serder.new E F H none none kind (some (.obj ((lit "v", x) :: rest))) none = .ok s)
    (hp : Plain (.obj ((lit "v", x) :: rest))) (hF : FloatsRead F (.obj ((lit "v", x) :: rest))) (hu : Utf8Value (.obj ((lit "v", x) :: rest))) (hd : depth (.obj ((lit "v", x) :: rest)) < 128)
    (hl : s.raw.length < 2 ^ 32) {o : List (Str × Value)} (ho : s.ked = .obj o)
    {signers : List Signer} {ks : List Str} (hmade : ∀ g ∈ signers, MadeSigner E C g)
    (hk : o.lookup (lit "k") = some (.arr (ks.map .str))) (hks : Aligned (fun g t => g.verfer.qb64 E = .ok t) signers ks)
    {kt : Value} {th : Tholder} (hkt : o.lookup (lit "kt") = some kt) (hth : Tholder.new E F none none (some kt) = .ok th)
    {sigs : List Siger} (hsigs : ∀ y ∈ sigs, ∃ g only ondex r, signers[y.indexer.index]? = some g ∧
      Signer.signIndexed E C g s.raw only y.indexer.index ondex r = .ok y)
    {c : Counter} (hc : Counter.new E (some sigs.length) none (some (lit "-A")) none none none = .ok c)
    {ct : Str} {sts : List Str} (hct : c.qb64 E = .ok ct) (hst : Aligned (fun y t => y.indexer.qb64 E = .ok t) sigs sts)
    {genuine enough : Bool} (hg : Saider.verify E H s.saider s.ked (some true) (some true) none none none = .ok genuine)
    (he : th.satisfy E (sigs.map (·.indexer.index)).dedup = .ok enough) {left : Str} (hleft : utf8Valid left = true) :
    receive E F H C (s.raw ++ (ct ++ (sts.flatten ++ left))) =
      .ok { event := s, genuine := genuine, signers := (sigs.map (·.indexer.index)).dedup, enough := enough, left := left } := by
  have hobt : ∀ y ∈ sigs, Siger.validateCode y.indexer.code = .ok () ∧ ∃ c ∈ Spec.idxCodes, IdxObtained E c y.indexer := by
    intro y hy
    obtain ⟨g, only, ondex, r, hi, hs⟩ := hsigs y hy
    obtain ⟨_, _, _, _, _, _, _, hg⟩ := hmade g (List.mem_of_getElem? hi)
    exact (signIndexed_obtained hg hs).2
  obtain ⟨hread, hasc⟩ := readSigs_of hobt hst hleft
  have hu1 : utf8Valid (sts.flatten ++ left) = true := by rw [utf8Valid_ascii_append hasc]; exact hleft
  obtain ⟨ct', hct', hcf, _, _, hcb, hcp, _⟩ := Item.Obtainable.facts (i := .count c) (E := E) (CounterObtained.built hc)
  have hct' : c.qb64 E = .ok ct' := hct'
  obtain rfl := Res.ok.inj (hct'.symm.trans hct)
  have hcf : c.fullSize = .ok ct'.length := hcf
  have hu2 : utf8Valid (ct' ++ (sts.flatten ++ left)) = true := by rw [utf8Valid_ascii_append (isB64Text_ascii hcb)]; exact hu1
  have hcq : (do let x ← Counter.ofText E (ct' ++ (sts.flatten ++ left)); Res.ok (Item.count x)) = .ok (Item.count c) := hcp _ hu1
  obtain ⟨c', hc', e⟩ := Res.bind_eq_ok.mp hcq
  have e : c' = c := by simpa using e
  subst e
  have hcn : c'.count = sigs.length := by
    have hc : Counter.newWithCodeAndCount (lit "-A") sigs.length = .ok c' := hc
    unfold Counter.newWithCodeAndCount at hc
    rw [if_neg (by decide)] at hc
    obtain ⟨z, _, hc⟩ := Res.bind_eq_ok.mp hc
    dsimp only at hc
    split at hc
    · cases hc
    · split at hc
      · cases hc
      · rw [← Res.ok.inj hc]
  have hev : Serder.newWithRaw E F H (s.raw ++ (ct' ++ (sts.flatten ++ left))) = .ok s := by
    have := C59_serder h hp hF hu hd hl (ct' ++ (sts.flatten ++ left))
    rw [if_pos hu2] at this
    exact this
  have hsl : slice (s.raw ++ (ct' ++ (sts.flatten ++ left))) s.raw.length (s.raw ++ (ct' ++ (sts.flatten ++ left))).length = .ok (ct' ++ (sts.flatten ++ left)) := by
    unfold slice
    rw [if_pos ⟨by simp, Nat.le_refl _⟩, List.take_length, List.drop_left]
  have hsl2 : sliceStr (ct' ++ (sts.flatten ++ left)) ct'.length (ct' ++ (sts.flatten ++ left)).length = .ok (sts.flatten ++ left) := by
    unfold sliceStr
    rw [if_pos ⟨by simp, Nat.le_refl _, isBoundary_prefix (isB64Text_ascii hcb) hu1 (Nat.le_refl _), by simp [isBoundary]⟩]
    rw [List.take_length, List.drop_left]
  have hkeys : Serder.verfers E s = .ok (signers.map (·.verfer)) := ((C60_verfers ho).1 _ hk _).mpr (verfers_of_signers hmade hks)
  have hthr : Serder.tholder E F s = .ok (some th) := ((C60_thresholds ho).1 _ _ hkt).mpr hth
  have hfil : ((sigs.map (fun x => ({ indexer := x.indexer, verfer := Verfer.default } : Siger))).filter
      (verifiesUnder C (signers.map (·.verfer)) s.raw)).map (·.indexer.index) = sigs.map (·.indexer.index) := by
    rw [List.filter_eq_self.mpr, List.map_map]
    · rfl
    · intro y hy
      obtain ⟨z, hz, rfl⟩ := List.mem_map.mp hy
      obtain ⟨g, only, ondex, r, hi, hs⟩ := hsigs z hz
      obtain ⟨_, _, _, _, _, _, _, hg⟩ := hmade g (List.mem_of_getElem? hi)
      have hv := (C53_indexed_verifies E C hg s.raw r hs).2.1
      unfold verifiesUnder
      rw [List.getElem?_map, hi]
      simpa using hv
  unfold receive
  rw [hev, Res.ok_bind, hg, Res.ok_bind, hsl, Res.ok_bind, fromUtf8, if_pos hu2, Res.ok_bind]
  have hc' : Counter.new E none none none none (some (ct' ++ (sts.flatten ++ left))) none = .ok c' := hc'
  rw [hc', Res.ok_bind, hcf, Res.ok_bind, hsl2, Res.ok_bind, hcn, hread, Res.ok_bind]
  dsimp only
  rw [hkeys, Res.ok_bind]
  simp only [hfil]
  rw [hthr, Res.ok_bind]
  dsimp only
  rw [he, Res.ok_bind]

theorem sliceStr_to_end {s r : Str} {k : Nat} (h : sliceStr s k s.length = .ok r) : s = s.take k ++ r := by
  unfold sliceStr at h
  split at h
  · rw [← Res.ok.inj h, List.take_length, List.take_append_drop]
  · cases h

theorem readSigs_sound {E : Env} : ∀ {n : Nat} {s left : Str} {sigs : List Siger}, readSigs E n s = .ok (sigs, left) →
    sigs.length = n ∧ (∃ u, s = u ++ left) ∧ ∀ y ∈ sigs, ∃ u v, s = u ++ v ∧ Siger.newWithQb64 E v none = .ok y
  | 0, s, left, sigs, h => by
    have h := Res.ok.inj h
    simp only [Prod.mk.injEq] at h
    obtain ⟨rfl, rfl⟩ := h
    exact ⟨rfl, ⟨[], rfl⟩, by simp⟩
  | n + 1, s, left, sigs, h => by
    unfold readSigs at h
    obtain ⟨x, hx, h⟩ := Res.bind_eq_ok.mp h
    obtain ⟨k, _, h⟩ := Res.bind_eq_ok.mp h
    obtain ⟨rest, hr, h⟩ := Res.bind_eq_ok.mp h
    obtain ⟨⟨xs, l⟩, hxs, h⟩ := Res.bind_eq_ok.mp h
    have h := Res.ok.inj h
    simp only [Prod.mk.injEq] at h
    obtain ⟨rfl, rfl⟩ := h
    obtain ⟨h1, ⟨u, h2⟩, h3⟩ := readSigs_sound hxs
    have hs := sliceStr_to_end hr
    refine ⟨by simp [h1], ⟨s.take k ++ u, by rw [List.append_assoc, ← h2, ← hs]⟩, ?_⟩
    intro y hy
    rcases List.mem_cons.mp hy with rfl | hy
    · exact ⟨[], s, rfl, hx⟩
    · obtain ⟨u', v, e, hv⟩ := h3 y hy
      exact ⟨s.take k ++ u', v, by rw [List.append_assoc, ← e, ← hs], hv⟩

/-- C87, the receiver's verdict means what it says, for every byte stream: the event is the one at its front; a position is reported exactly when an
indexed signature found in the text after the event names it and verifies over the bytes of the event under the key at that position; no position is
reported twice, so that a numeric threshold counts different keys. -/
theorem C87_sound {E : Env} {F : Str → Option Str} {H : Hash} {C : Crypto} {stream : List UInt8} {r : Received} (h : receive E F H C stream = .ok r) :
    Serder.newWithRaw E F H stream = .ok r.event ∧
    Saider.verify E H r.event.saider r.event.ked (some true) (some true) none none none = .ok r.genuine ∧
    (∃ u, stream = r.event.raw ++ (u ++ r.left)) ∧
    (∃ (keys : List Matter) (sigs : List Siger), Serder.verfers E r.event = .ok keys ∧ (∀ y ∈ sigs, ∃ u v, stream = r.event.raw ++ (u ++ v) ∧ Siger.newWithQb64 E v none = .ok y) ∧
      ∀ i, i ∈ r.signers ↔ ∃ (k : Matter) (y : Siger), keys[i]? = some k ∧ y ∈ sigs ∧ y.indexer.index = i ∧ Verfer.verify C k y.indexer.raw r.event.raw = .ok true) ∧
    r.signers.Nodup ∧
    (r.enough = true → ∃ v th, r.event.ked.index (lit "kt") = .ok v ∧ Tholder.new E F none none (some v) = .ok th ∧ th.satisfy E r.signers = .ok true ∧
      ∀ n, th.num = .ok (some n) → 0 < n ∧ n ≤ r.signers.toFinset.card) := by
  unfold receive at h
  obtain ⟨event, hev, h⟩ := Res.bind_eq_ok.mp h
  obtain ⟨genuine, hg, h⟩ := Res.bind_eq_ok.mp h
  obtain ⟨att, hatt, h⟩ := Res.bind_eq_ok.mp h
  obtain ⟨text, htext, h⟩ := Res.bind_eq_ok.mp h
  obtain ⟨counter, _, h⟩ := Res.bind_eq_ok.mp h
  obtain ⟨k, _, h⟩ := Res.bind_eq_ok.mp h
  obtain ⟨text2, ht2, h⟩ := Res.bind_eq_ok.mp h
  obtain ⟨⟨sigs, left⟩, hs, h⟩ := Res.bind_eq_ok.mp h
  obtain ⟨keys, hkeys, h⟩ := Res.bind_eq_ok.mp h
  obtain ⟨th, hth, h⟩ := Res.bind_eq_ok.mp h
  obtain ⟨enough, he, h⟩ := Res.bind_eq_ok.mp h
  have h := Res.ok.inj h
  subst h
  dsimp only
  have htext : text = att := by
    unfold fromUtf8 at htext
    split at htext
    · exact (Res.ok.inj htext).symm
    · cases htext
  subst htext
  have hpre : stream = event.raw ++ text := by
    obtain ⟨size, o, m, hm, e⟩ := (C82_serder E F H none none stream none none event).mp hev
    have hraw : event.raw = stream.take event.raw.length := by
      rw [e]
      simp
    unfold slice at hatt
    split at hatt
    · have hatt := Res.ok.inj hatt
      rw [List.take_length] at hatt
      conv_lhs => rw [← List.take_append_drop event.raw.length stream, ← hraw, hatt]
    · cases hatt
  obtain ⟨_, ⟨u, hu⟩, hall⟩ := readSigs_sound hs
  have h2 := sliceStr_to_end ht2
  have hnd : ((sigs.filter (verifiesUnder C keys event.raw)).map (·.indexer.index)).dedup.Nodup := List.nodup_dedup _
  refine ⟨hev, hg, ⟨text.take k ++ u, ?_⟩, ⟨keys, sigs, hkeys, ?_, ?_⟩, hnd, ?_⟩
  · rw [List.append_assoc, ← hu, ← h2, ← hpre]
  · intro y hy
    obtain ⟨u', v, e, hv⟩ := hall y hy
    exact ⟨text.take k ++ u', v, by rw [List.append_assoc, ← e, ← h2, ← hpre], hv⟩
  · intro i
    rw [List.mem_dedup, List.mem_map]
    constructor
    · rintro ⟨y, hy, rfl⟩
      obtain ⟨hy, hv⟩ := List.mem_filter.mp hy
      unfold verifiesUnder at hv
      split at hv
      · rename_i k' hk'
        exact ⟨k', y, hk', hy, rfl, by simpa using hv⟩
      · cases hv
    · rintro ⟨k', y, hk', hy, rfl, hv⟩
      refine ⟨y, List.mem_filter.mpr ⟨hy, ?_⟩, rfl⟩
      unfold verifiesUnder
      rw [hk']
      simpa using hv
  · intro hen
    cases th with
    | none => rw [hen] at he; cases he
    | some th =>
      dsimp only at he
      obtain ⟨map, hmap, hth⟩ := Res.bind_eq_ok.mp hth
      split at hth
      · obtain ⟨v, hv, hth⟩ := Res.bind_eq_ok.mp hth
        obtain ⟨t, ht, hth⟩ := Res.bind_eq_ok.mp hth
        have e : t = th := by simpa using hth
        subst e
        refine ⟨v, t, hv, ht, by rw [he, hen], fun n hn => ?_⟩
        have := C34_distinct_indices ht hn E hnd
        rw [he, hen] at this
        simpa using this.symm
      · cases hth


/-! ## A concrete event

Two signers with keys of different kinds, and an event that asks for both. -/

def signerA : Signer := signerOf toy .ed25519 true (List.replicate 32 1)
def signerB : Signer := signerOf toy .k1 true (List.replicate 32 2)

def keyTexts : List Str := [lit "DAEBAQEBAQEBAQEBAQEBAQEBAQEBAQEBAQEBAQEBAQEB", lit "1AABAgICAgICAgICAgICAgICAgICAgICAgICAgICAgICAgIC"]

def sampleRest : List (Str × Value) := [(lit "t", .str (lit "icp")), (lit "d", .str zeroSaid), (lit "kt", .str (lit "2")), (lit "k", .arr (keyTexts.map .str))]

def sampleSigned : Sadder :=
  { code := lit "E", raw := (Value.obj ((lit "v", .str (lit "KERI10JSON0000c7_")) :: sampleRest)).toJson,
    ked := .obj ((lit "v", .str (lit "KERI10JSON0000c7_")) :: sampleRest), ident := lit "KERI", kind := lit "JSON", size := 199, version := ⟨1, 0⟩,
    saider := ⟨lit "E", 0, List.replicate 32 0⟩ }

def sigA : Siger := ⟨⟨lit "A", List.replicate 64 3, 0, 0⟩, signerA.verfer⟩
def sigB : Siger := ⟨⟨lit "C", List.replicate 64 4, 1, 1⟩, signerB.verfer⟩

/-- The premises of `C87_received` are met, with one signature sent twice, and something else after the signatures. -/
theorem sample_received : receive Env.debug (fun _ => none) zeroHash toy
      (sampleSigned.raw ++ (lit "-AAD" ++ ([lit "AAADAwMDAwMDAwMDAwMDAwMDAwMDAwMDAwMDAwMDAwMDAwMDAwMDAwMDAwMDAwMDAwMDAwMDAwMDAwMDAwMDAwMD", lit "CBAEBAQEBAQEBAQEBAQEBAQEBAQEBAQEBAQEBAQEBAQEBAQEBAQEBAQEBAQEBAQEBAQEBAQEBAQEBAQEBAQEBAQE", lit "AAADAwMDAwMDAwMDAwMDAwMDAwMDAwMDAwMDAwMDAwMDAwMDAwMDAwMDAwMDAwMDAwMDAwMDAwMDAwMDAwMDAwMD"].flatten ++ lit "{\"v\""))) =
    .ok { event := sampleSigned, genuine := true, signers := [1, 0], enough := true, left := lit "{\"v\"" } := by
  have hnew : Serder.new Env.debug (fun _ => none) zeroHash none none none (some (.obj ((lit "v", .str (lit "KERI10JSON000000_")) :: sampleRest))) none = .ok sampleSigned := by
    kernel_rfl
  refine C87_received (sigs := [sigA, sigB, sigA]) (signers := [signerA, signerB]) (ks := keyTexts) (c := ⟨lit "-A", 3⟩) hnew (by simp [Plain, PlainFields, PlainElems, lit, sampleRest, keyTexts]) (floatsRead_of_noFloats _ (by decide +kernel))
    (by simp [Utf8Value, Utf8Fields, Utf8Elems, sampleRest, keyTexts]; decide +kernel) (by decide +kernel) (by decide +kernel) rfl ?_ (by kernel_rfl)
    (.cons (by decide +kernel) (.cons (by decide +kernel) .nil)) (kt := .str (lit "2")) (by kernel_rfl) (th := ⟨.int 2, false, 2, some ⟨lit "M", 0, [0, 2]⟩, none⟩) (by kernel_rfl) ?_ (by decide +kernel) (by decide +kernel)
    (.cons (by decide +kernel) (.cons (by decide +kernel) (.cons (by decide +kernel) .nil))) (by kernel_rfl) (by decide +kernel) (by decide +kernel)
  · intro g hg
    simp only [List.mem_cons, List.not_mem_nil, or_false] at hg
    rcases hg with rfl | rfl
    · exact ⟨1, none, _, none, none, none, none, C65_generated Env.debug toy 1 none .ed25519⟩
    · exact ⟨2, none, _, none, none, none, none, C65_generated Env.debug toy 2 none .k1⟩
  · intro y hy
    simp only [List.mem_cons, List.not_mem_nil, or_false] at hy
    rcases hy with rfl | rfl | rfl
    · exact ⟨signerA, false, none, 3, rfl, by decide +kernel⟩
    · exact ⟨signerB, false, none, 4, rfl, by decide +kernel⟩
    · exact ⟨signerA, false, none, 3, rfl, by decide +kernel⟩

end Cesride
