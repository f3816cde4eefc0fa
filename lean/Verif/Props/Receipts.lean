import Verif.Props.Signed
import Verif.Props.Prims

/-!
# Property C92: receipted events

The client below is what a user of the library writes to receive an event with receipts of witnesses: the event, a counter and couples of a public key
and a signature. Its loops are not library code; everything it calls is.
-/

namespace Cesride
open Spec

/-- Parse `n` couples of a key and a signature, one after the other, skipping `full_size` characters for each part. -/
def readCouples (E : Env) : Nat → Str → Res (List (Matter × Cigar) × Str)
  | 0, s => .ok ([], s)
  | n + 1, s => do
    let key ← Verfer.newWithQb64 E s
    let k ← key.fullSize
    let s ← sliceStr s k s.length
    let sig ← Cigar.newWithQb64 E s (some key)
    let k ← sig.matter.fullSize
    let s ← sliceStr s k s.length
    let (couples, left) ← readCouples E n s
    .ok ((key, sig) :: couples, left)

/-- What a receiver learns: the event, the witnesses named in it that have signed it (each once), whether they are as many as the event asks for, and the
text after the couples. -/
structure Receipted where
  event : Sadder
  witnesses : List Matter
  enough : Bool
  left : Str

/-- The number in the `bt` field, which is written in hexadecimal or as a number. -/
def witnessThreshold (E : Env) (event : Sadder) : Res Nat := do
  let v ← event.ked.index (lit "bt")
  match v.toI64 with
  | .ok i => if 0 ≤ i then .ok i.toNat else .err .value
  | _ => do
    let t ← v.toStr
    let n ← Number.newWithNumh E t
    Number.num n

/-- Receive a receipted event from the front of a byte stream. -/
def receiveReceipts (E : Env) (F : Str → Option Str) (H : Hash) (C : Crypto) (stream : List UInt8) : Res Receipted := do
  let event ← Serder.newWithRaw E F H stream
  let attached ← slice stream event.raw.length stream.length
  let text ← fromUtf8 attached
  let counter ← Counter.new E none none none none (some text) none
  let k ← counter.fullSize
  let text ← sliceStr text k text.length
  let (couples, left) ← readCouples E counter.count text
  let named ← Serder.werfers E event
  let signed := (couples.filter (fun x => decide (Verfer.verify C x.1 x.2.matter.raw event.raw = .ok true))).map (·.1)
  let witnesses := (signed.filter (fun k => decide (k ∈ named))).dedup
  let toad ← witnessThreshold E event
  .ok { event := event, witnesses := witnesses, enough := decide (toad ≤ witnesses.length), left := left }

/-- C92. The number of receipts that are asked for is what the `bt` field says: an integer that is not negative, or a hexadecimal number below 2^128 (no digits at all
count as zero). -/
theorem C92_threshold {E : Env} {event : Sadder} {n : Nat} :
    witnessThreshold E event = .ok n ↔ ∃ o, event.ked = .obj o ∧ (o.lookup (lit "bt") = some (.int n) ∨
      ∃ t, o.lookup (lit "bt") = some (.str t) ∧ ((t = [] ∧ n = 0) ∨ (HexNumeral t n ∧ n < 2 ^ 128))) := by
  have hz : ∀ t, ∃ s' : Sadder, s'.ked = .obj [(lit "s", .str t)] := fun t => ⟨{ event with ked := .obj [(lit "s", .str t)] }, rfl⟩
  have key : ∀ t, (do let x ← Number.newWithNumh E t; Number.num x) = .ok n ↔ (t = [] ∧ n = 0) ∨ (HexNumeral t n ∧ n < 2 ^ 128) := by
    intro t
    obtain ⟨s', hs'⟩ := hz t
    have := (C60_sn (E := E) hs').1 n
    unfold Serder.sn Serder.sner at this
    rw [hs', Sadder.index_ok.mpr ⟨_, rfl, rfl⟩, Res.ok_bind, Sadder.toStr_ok.mpr rfl, Res.ok_bind] at this
    refine this.trans ⟨?_, fun h => ⟨t, rfl, h⟩⟩
    rintro ⟨u, hu, h⟩
    have hu : some (Value.str t) = some (.str u) := hu
    cases hu
    exact h
  unfold witnessThreshold
  constructor
  · intro h
    obtain ⟨v, hv, h⟩ := Res.bind_eq_ok.mp h
    obtain ⟨o, ho, hl⟩ := Sadder.index_ok.mp hv
    refine ⟨o, ho, ?_⟩
    cases v with
    | int i =>
      dsimp only [Value.toI64] at h
      split at h
      · cases h
        left
        rw [hl, Int.toNat_of_nonneg (by assumption)]
      · cases h
    | str t =>
      right
      exact ⟨t, hl, (key t).mp h⟩
    | _ => cases h
  · rintro ⟨o, ho, hl | ⟨t, hl, h⟩⟩ <;> rw [ho, Sadder.index_ok.mpr ⟨o, rfl, hl⟩, Res.ok_bind]
    · dsimp only [Value.toI64]
      rw [if_pos (Int.natCast_nonneg n), Int.toNat_natCast]
    · exact (key t).mpr h

example (s : Sadder) : witnessThreshold Env.debug { s with ked := .obj [(lit "bt", .str (lit "a"))] } = .ok 10 ∧
    witnessThreshold Env.debug { s with ked := .obj [(lit "bt", .int 3)] } = .ok 3 :=
  ⟨C92_threshold.mpr ⟨_, rfl, .inr ⟨_, rfl, .inr ⟨⟨[], lit "a", [10], rfl, .inl rfl, by decide, by show (97, 10) ∈ hexValues ∧ True; decide, rfl⟩, by decide⟩⟩⟩,
    C92_threshold.mpr ⟨_, rfl, .inl rfl⟩⟩

theorem front_read {E : Env} {m : Matter} (h : Obtained E m) {t : Str} (ht : m.qb64 E = .ok t) : Ascii t ∧ m.fullSize = .ok t.length ∧
    ∀ rest, utf8Valid rest = true → Matter.ofText E (t ++ rest) = .ok m ∧ sliceStr (t ++ rest) t.length (t ++ rest).length = .ok rest := by
  obtain ⟨t', h1, h2, _, _, h5, h6, _⟩ := Item.Obtainable.facts (i := .prim m) (E := E) h
  have h1 : m.qb64 E = .ok t' := h1
  obtain rfl := Res.ok.inj (h1.symm.trans ht)
  refine ⟨isB64Text_ascii h5, h2, fun rest hr => ⟨?_, ?_⟩⟩
  · have := h6 rest hr
    have this : (do let m ← Matter.ofText E (t' ++ rest); Res.ok (Item.prim m)) = .ok (Item.prim m) := this
    obtain ⟨y, hy, e⟩ := Res.bind_eq_ok.mp this
    have e : y = m := by simpa using e
    rw [hy, e]
  · unfold sliceStr
    rw [if_pos ⟨by simp, Nat.le_refl _, isBoundary_prefix (isB64Text_ascii h5) hr (Nat.le_refl _), by simp [isBoundary]⟩]
    rw [List.take_length, List.drop_left]

theorem verfer_obtained {E : Env} {C : Crypto} {g : Signer} (h : MadeSigner E C g) :
    Obtained E g.verfer ∧ Verfer.validateCode g.verfer.code = .ok () ∧ ∃ t, g.verfer.qb64 E = .ok t := by
  obtain ⟨_, _, _, _, _, _, _, h⟩ := h
  obtain ⟨x, b, h1, _, _, _, h5⟩ := C53_key_transport E C h
  obtain ⟨m, hm, h5⟩ := Res.bind_eq_ok.mp h5
  obtain ⟨_, hv, h5⟩ := Res.bind_eq_ok.mp h5
  obtain rfl := Res.ok.inj h5
  exact ⟨Obtained.binary hm, hv, x, h1⟩

theorem cigar_obtained {E : Env} {C : Crypto} {g : Signer} (h : MadeSigner E C g) {ser : List UInt8} {r : Nat} {c : Cigar}
    (hc : Signer.signUnindexed E C g ser r = .ok c) : Obtained E c.matter ∧ Cigar.validateCode c.matter.code = .ok () ∧ c.verfer = g.verfer ∧
      Verfer.verify C g.verfer c.matter.raw ser = .ok true := by
  obtain ⟨_, _, _, _, _, _, _, h⟩ := h
  obtain ⟨c', x, b, h1, h2, h3, _, _, _, _, h4⟩ := C53_unindexed_verifies E C h ser r
  obtain rfl := Res.ok.inj (h1.symm.trans hc)
  obtain ⟨m, hm, h4⟩ := Res.bind_eq_ok.mp h4
  obtain ⟨_, hv, h4⟩ := Res.bind_eq_ok.mp h4
  have h4 := Res.ok.inj h4
  have : m = c'.matter := by rw [← h4]
  subst this
  exact ⟨Obtained.binary hm, hv, h2, h3⟩

/-- A receipt: a witness and its signature over some bytes. -/
structure Receipt (E : Env) (C : Crypto) (ser : List UInt8) where
  signer : Signer
  made : MadeSigner E C signer
  nonce : Nat
  cigar : Cigar
  signed : Signer.signUnindexed E C signer ser nonce = .ok cigar

theorem readCouples_of {E : Env} {C : Crypto} {ser : List UInt8} : ∀ {rs : List (Receipt E C ser)} {ts : List Str} {left : Str},
    Aligned (fun r t => ∃ k c, r.signer.verfer.qb64 E = .ok k ∧ r.cigar.matter.qb64 E = .ok c ∧ t = k ++ c) rs ts → utf8Valid left = true →
    readCouples E rs.length (ts.flatten ++ left) = .ok (rs.map (fun r => (r.signer.verfer, r.cigar)), left) ∧ Ascii ts.flatten
  | _, _, left, .nil, _ => ⟨rfl, by intro c hc; simp at hc⟩
  | r :: rs, t :: ts, left, .cons ⟨k, c, hk, hc, e⟩ hr, hl => by
    obtain ⟨ih, ha⟩ := readCouples_of hr hl
    obtain ⟨ov, vv, _⟩ := verfer_obtained r.made
    obtain ⟨oc, vc, ec, _⟩ := cigar_obtained r.made r.signed
    obtain ⟨ak, fk, rk⟩ := front_read ov hk
    obtain ⟨ac, fc, rc⟩ := front_read oc hc
    have hu : utf8Valid (ts.flatten ++ left) = true := by rw [utf8Valid_ascii_append ha]; exact hl
    have hu2 : utf8Valid (c ++ (ts.flatten ++ left)) = true := by rw [utf8Valid_ascii_append ac]; exact hu
    obtain ⟨p1, s1⟩ := rk _ hu2
    obtain ⟨p2, s2⟩ := rc _ hu
    have q1 : Verfer.newWithQb64 E (k ++ (c ++ (ts.flatten ++ left))) = .ok r.signer.verfer := by
      show (do let m ← Matter.ofText E (k ++ (c ++ (ts.flatten ++ left))); Verfer.validateCode m.code; Res.ok m) = _
      rw [p1, Res.ok_bind, vv, Res.ok_bind]
    have q2 : Cigar.newWithQb64 E (c ++ (ts.flatten ++ left)) (some r.signer.verfer) = .ok r.cigar := by
      show (do let m ← Matter.ofText E (c ++ (ts.flatten ++ left)); Cigar.validateCode m.code; Res.ok (Cigar.mk m r.signer.verfer)) = _
      rw [p2, Res.ok_bind, vc, Res.ok_bind, ← ec]
    refine ⟨?_, ?_⟩
    · subst e
      simp only [List.flatten_cons, List.length_cons, readCouples, List.append_assoc]
      rw [q1, Res.ok_bind, fk, Res.ok_bind, s1, Res.ok_bind, q2, Res.ok_bind, fc, Res.ok_bind, s2, Res.ok_bind, ih, Res.ok_bind]
      rfl
    · intro b hb
      rw [List.flatten_cons, e, List.mem_append, List.mem_append] at hb
      rcases hb with (h | h) | h
      · exact ak b h
      · exact ac b h
      · exact ha b h

/-- C92. An event built from a map, sent as its bytes, a counter and couples made by witnesses, with any further text: the receiver gets the event back,
with every witness that is named in its `b` and has signed, and whether they are at least as many as `bt` says. -/
theorem C92_received {E : Env} {F : Str → Option Str} {H : Hash} {C : Crypto} {kind : Option Str} {rest : List (Str × Value)} {x : Value} {s : Sadder}
    (h : Serder.new E F H none none kind (some (.obj ((lit "v", x) :: rest))) none = .ok s)
    (hp : Plain (.obj ((lit "v", x) :: rest))) (hF : FloatsRead F (.obj ((lit "v", x) :: rest))) (hu : Utf8Value (.obj ((lit "v", x) :: rest))) (hd : depth (.obj ((lit "v", x) :: rest)) < 128)
    (hl : s.raw.length < 2 ^ 32) {o : List (Str × Value)} (ho : s.ked = .obj o)
    {named : List Matter} {ws : List Str} (hb : o.lookup (lit "b") = some (.arr (ws.map .str)))
    (hws : Aligned (fun t m => Matter.ofText E t = .ok m ∧ m.code ∈ verferCodes) ws named)
    {bt : Str} {toad : Nat} (hbt : o.lookup (lit "bt") = some (.str bt)) (hnum : HexNumeral bt toad) (hsmall : toad < 2 ^ 128)
    {rs : List (Receipt E C s.raw)} {c : Counter} (hc : Counter.new E (some rs.length) none (some (lit "-C")) none none none = .ok c)
    {ct : Str} {ts : List Str} (hct : c.qb64 E = .ok ct)
    (hts : Aligned (fun r t => ∃ k c, r.signer.verfer.qb64 E = .ok k ∧ r.cigar.matter.qb64 E = .ok c ∧ t = k ++ c) rs ts)
    {left : Str} (hleft : utf8Valid left = true) :
    receiveReceipts E F H C (s.raw ++ (ct ++ (ts.flatten ++ left))) =
      .ok { event := s, witnesses := ((rs.map (·.signer.verfer)).filter (fun k => decide (k ∈ named))).dedup,
            enough := decide (toad ≤ ((rs.map (·.signer.verfer)).filter (fun k => decide (k ∈ named))).dedup.length), left := left } := by
  obtain ⟨hread, hasc⟩ := readCouples_of hts hleft
  have hu1 : utf8Valid (ts.flatten ++ left) = true := by rw [utf8Valid_ascii_append hasc]; exact hleft
  obtain ⟨ct', hct', hcf, _, _, hcb, hcp, _⟩ := Item.Obtainable.facts (i := .count c) (E := E) (CounterObtained.built hc)
  have hct' : c.qb64 E = .ok ct' := hct'
  obtain rfl := Res.ok.inj (hct'.symm.trans hct)
  have hcf : c.fullSize = .ok ct'.length := hcf
  have hu2 : utf8Valid (ct' ++ (ts.flatten ++ left)) = true := by rw [utf8Valid_ascii_append (isB64Text_ascii hcb)]; exact hu1
  have hcq : (do let x ← Counter.ofText E (ct' ++ (ts.flatten ++ left)); Res.ok (Item.count x)) = .ok (Item.count c) := hcp _ hu1
  obtain ⟨c', hc', e⟩ := Res.bind_eq_ok.mp hcq
  have e : c' = c := by simpa using e
  subst e
  have hcn : c'.count = rs.length := by
    have hc : Counter.newWithCodeAndCount (lit "-C") rs.length = .ok c' := hc
    unfold Counter.newWithCodeAndCount at hc
    rw [if_neg (by decide)] at hc
    obtain ⟨z, _, hc⟩ := Res.bind_eq_ok.mp hc
    dsimp only at hc
    split at hc
    · cases hc
    · split at hc
      · cases hc
      · rw [← Res.ok.inj hc]
  have hev : Serder.newWithRaw E F H (s.raw ++ (ct' ++ (ts.flatten ++ left))) = .ok s := by
    have := C59_serder h hp hF hu hd hl (ct' ++ (ts.flatten ++ left))
    rw [if_pos hu2] at this
    exact this
  have hsl : slice (s.raw ++ (ct' ++ (ts.flatten ++ left))) s.raw.length (s.raw ++ (ct' ++ (ts.flatten ++ left))).length = .ok (ct' ++ (ts.flatten ++ left)) := by
    unfold slice
    rw [if_pos ⟨by simp, Nat.le_refl _⟩, List.take_length, List.drop_left]
  have hsl2 : sliceStr (ct' ++ (ts.flatten ++ left)) ct'.length (ct' ++ (ts.flatten ++ left)).length = .ok (ts.flatten ++ left) := by
    unfold sliceStr
    rw [if_pos ⟨by simp, Nat.le_refl _, isBoundary_prefix (isB64Text_ascii hcb) hu1 (Nat.le_refl _), by simp [isBoundary]⟩]
    rw [List.take_length, List.drop_left]
  have hwer : Serder.werfers E s = .ok named := by
    refine ((C60_werfers ho).1 _ hb _).mpr ?_
    clear hb
    induction hws with
    | nil => exact .nil
    | cons a _ ih => exact .cons ⟨_, rfl, a.1, a.2⟩ ih
  have hth : witnessThreshold E s = .ok toad := by
    unfold witnessThreshold
    rw [ho, Sadder.index_ok.mpr ⟨o, rfl, hbt⟩, Res.ok_bind]
    dsimp only [Value.toI64]
    rw [Sadder.toStr_ok.mpr rfl, Res.ok_bind]
    have hz : ∃ s' : Sadder, s'.ked = .obj [(lit "s", .str bt)] := ⟨{ s with ked := .obj [(lit "s", .str bt)] }, rfl⟩
    obtain ⟨s', hs'⟩ := hz
    have := ((C60_sn (E := E) hs').1 toad).mpr ⟨bt, rfl, .inr ⟨hnum, hsmall⟩⟩
    unfold Serder.sn Serder.sner at this
    rw [hs', Sadder.index_ok.mpr ⟨_, rfl, rfl⟩, Res.ok_bind, Sadder.toStr_ok.mpr rfl, Res.ok_bind] at this
    exact this
  have hfil : ((rs.map (fun r => (r.signer.verfer, r.cigar))).filter (fun x => decide (Verfer.verify C x.1 x.2.matter.raw s.raw = .ok true))).map (·.1) =
      rs.map (·.signer.verfer) := by
    rw [List.filter_eq_self.mpr, List.map_map]
    · rfl
    · intro y hy
      obtain ⟨r, _, rfl⟩ := List.mem_map.mp hy
      simpa using (cigar_obtained r.made r.signed).2.2.2
  unfold receiveReceipts
  rw [hev, Res.ok_bind, hsl, Res.ok_bind, fromUtf8, if_pos hu2, Res.ok_bind]
  have hc' : Counter.new E none none none none (some (ct' ++ (ts.flatten ++ left))) none = .ok c' := hc'
  rw [hc', Res.ok_bind, hcf, Res.ok_bind, hsl2, Res.ok_bind, hcn, hread, Res.ok_bind]
  dsimp only
  rw [hwer, Res.ok_bind]
  simp only [hfil]
  rw [hth, Res.ok_bind]

theorem readCouples_sound {E : Env} : ∀ {n : Nat} {s left : Str} {cs : List (Matter × Cigar)}, readCouples E n s = .ok (cs, left) →
    cs.length = n ∧ (∃ u, s = u ++ left) ∧ ∀ x ∈ cs, ∃ u v w, s = u ++ (v ++ w) ∧ x.1.fullSize = .ok v.length ∧ Verfer.newWithQb64 E (v ++ w) = .ok x.1 ∧
      Cigar.newWithQb64 E w (some x.1) = .ok x.2
  | 0, s, left, cs, h => by
    have h := Res.ok.inj h
    simp only [Prod.mk.injEq] at h
    obtain ⟨rfl, rfl⟩ := h
    exact ⟨rfl, ⟨[], rfl⟩, by simp⟩
  | n + 1, s, left, cs, h => by
    unfold readCouples at h
    obtain ⟨key, hk, h⟩ := Res.bind_eq_ok.mp h
    obtain ⟨i, hi, h⟩ := Res.bind_eq_ok.mp h
    obtain ⟨s1, h1, h⟩ := Res.bind_eq_ok.mp h
    obtain ⟨sig, hs, h⟩ := Res.bind_eq_ok.mp h
    obtain ⟨j, _, h⟩ := Res.bind_eq_ok.mp h
    obtain ⟨s2, h2, h⟩ := Res.bind_eq_ok.mp h
    obtain ⟨⟨xs, l⟩, hxs, h⟩ := Res.bind_eq_ok.mp h
    have h := Res.ok.inj h
    simp only [Prod.mk.injEq] at h
    obtain ⟨rfl, rfl⟩ := h
    obtain ⟨g1, ⟨u, g2⟩, g3⟩ := readCouples_sound hxs
    have e1 := sliceStr_to_end h1
    have e2 := sliceStr_to_end h2
    have hlen : (s.take i).length = i := by
      rw [List.length_take, Nat.min_eq_left]
      unfold sliceStr at h1
      split at h1
      · rename_i hc; exact hc.1
      · cases h1
    refine ⟨by simp [g1], ⟨s.take i ++ (s1.take j ++ u), by rw [List.append_assoc, List.append_assoc, ← g2, ← e2, ← e1]⟩, ?_⟩
    intro y hy
    rcases List.mem_cons.mp hy with rfl | hy
    · exact ⟨[], s.take i, s1, by rw [List.nil_append, ← e1], by rw [hlen]; exact hi, by rw [← e1]; exact hk, hs⟩
    · obtain ⟨u', v, w, e, q⟩ := g3 y hy
      exact ⟨s.take i ++ (s1.take j ++ u'), v, w, by rw [List.append_assoc, List.append_assoc, ← e, ← e2, ← e1], q⟩

/-- C92, the receiver's verdict means what it says, for every byte stream: the event is the one at its front; a key is reported exactly when the event
names it in `b` and a couple found in the text after the event consists of this key and a signature that verifies under it over the bytes of the event;
no key is reported twice, so that `enough` means that as many different named witnesses have signed as the number in `bt` says. -/
theorem C92_sound {E : Env} {F : Str → Option Str} {H : Hash} {C : Crypto} {stream : List UInt8} {r : Receipted} (h : receiveReceipts E F H C stream = .ok r) :
    Serder.newWithRaw E F H stream = .ok r.event ∧ (∃ u, stream = r.event.raw ++ (u ++ r.left)) ∧
    (∃ (named : List Matter) (couples : List (Matter × Cigar)), Serder.werfers E r.event = .ok named ∧
      (∀ x ∈ couples, ∃ u v w, stream = r.event.raw ++ (u ++ (v ++ w)) ∧ x.1.fullSize = .ok v.length ∧ Verfer.newWithQb64 E (v ++ w) = .ok x.1 ∧
        Cigar.newWithQb64 E w (some x.1) = .ok x.2) ∧
      ∀ k, k ∈ r.witnesses ↔ k ∈ named ∧ ∃ sig, (k, sig) ∈ couples ∧ Verfer.verify C k sig.matter.raw r.event.raw = .ok true) ∧
    r.witnesses.Nodup ∧ ∃ toad, witnessThreshold E r.event = .ok toad ∧ (r.enough = true ↔ toad ≤ r.witnesses.toFinset.card) := by
  unfold receiveReceipts at h
  obtain ⟨event, hev, h⟩ := Res.bind_eq_ok.mp h
  obtain ⟨att, hatt, h⟩ := Res.bind_eq_ok.mp h
  obtain ⟨text, htext, h⟩ := Res.bind_eq_ok.mp h
  obtain ⟨counter, _, h⟩ := Res.bind_eq_ok.mp h
  obtain ⟨k, _, h⟩ := Res.bind_eq_ok.mp h
  obtain ⟨text2, ht2, h⟩ := Res.bind_eq_ok.mp h
  obtain ⟨⟨couples, left⟩, hs, h⟩ := Res.bind_eq_ok.mp h
  obtain ⟨named, hn, h⟩ := Res.bind_eq_ok.mp h
  obtain ⟨toad, ht, h⟩ := Res.bind_eq_ok.mp h
  have h := Res.ok.inj h
  subst h
  dsimp only
  have htext : text = att := by
    unfold fromUtf8 at htext
    split at htext
    · exact (Res.ok.inj htext).symm
    · cases htext
  subst htext
  have hpre : stream = event.raw ++ text := by
    obtain ⟨size, o, m, hm, e⟩ := (C82_serder E F H none none stream none none event).mp hev
    have hraw : event.raw = stream.take event.raw.length := by
      rw [e]
      simp
    unfold slice at hatt
    split at hatt
    · have hatt := Res.ok.inj hatt
      rw [List.take_length] at hatt
      conv_lhs => rw [← List.take_append_drop event.raw.length stream, ← hraw, hatt]
    · cases hatt
  obtain ⟨_, ⟨u, hu⟩, hall⟩ := readCouples_sound hs
  have h2 := sliceStr_to_end ht2
  refine ⟨hev, ⟨text.take k ++ u, ?_⟩, ⟨named, couples, hn, ?_, ?_⟩, List.nodup_dedup _, toad, ht, ?_⟩
  · rw [List.append_assoc, ← hu, ← h2, ← hpre]
  · intro y hy
    obtain ⟨u', v, w, e, hv⟩ := hall y hy
    exact ⟨text.take k ++ u', v, w, by rw [List.append_assoc, ← e, ← h2, ← hpre], hv⟩
  · intro i
    simp only [List.mem_dedup, List.mem_filter, List.mem_map, decide_eq_true_eq]
    constructor
    · rintro ⟨⟨⟨k', sig⟩, ⟨hm, hv⟩, rfl⟩, hin⟩
      exact ⟨hin, sig, hm, hv⟩
    · rintro ⟨hin, sig, hm, hv⟩
      exact ⟨⟨(i, sig), ⟨hm, hv⟩, rfl⟩, hin⟩
  · rw [decide_eq_true_iff, List.card_toFinset, List.dedup_idem]


/-! ## A concrete event

An event that names one witness and asks for one; receipts of this witness, twice, and of a stranger. -/

def receiptRest : List (Str × Value) :=
  [(lit "t", .str (lit "icp")), (lit "d", .str zeroSaid), (lit "b", .arr ((keyTexts.take 1).map .str)), (lit "bt", .str (lit "1"))]

def receiptEvent : Sadder :=
  { code := lit "E", raw := (Value.obj ((lit "v", .str (lit "KERI10JSON000094_")) :: receiptRest)).toJson,
    ked := .obj ((lit "v", .str (lit "KERI10JSON000094_")) :: receiptRest), ident := lit "KERI", kind := lit "JSON", size := 148, version := ⟨1, 0⟩,
    saider := ⟨lit "E", 0, List.replicate 32 0⟩ }

def receiptA : Receipt Env.debug toy receiptEvent.raw :=
  ⟨signerA, ⟨1, none, _, none, none, none, none, C65_generated Env.debug toy 1 none .ed25519⟩, 3, ⟨⟨lit "0B", 0, List.replicate 64 3⟩, signerA.verfer⟩,
    by kernel_rfl⟩

def receiptB : Receipt Env.debug toy receiptEvent.raw :=
  ⟨signerB, ⟨2, none, _, none, none, none, none, C65_generated Env.debug toy 2 none .k1⟩, 4, ⟨⟨lit "0C", 0, List.replicate 64 4⟩, signerB.verfer⟩,
    by kernel_rfl⟩

def coupleA : Str := lit "DAEBAQEBAQEBAQEBAQEBAQEBAQEBAQEBAQEBAQEBAQEB" ++ lit "0BADAwMDAwMDAwMDAwMDAwMDAwMDAwMDAwMDAwMDAwMDAwMDAwMDAwMDAwMDAwMDAwMDAwMDAwMDAwMDAwMDAwMD"
def coupleB : Str := lit "1AABAgICAgICAgICAgICAgICAgICAgICAgICAgICAgICAgIC" ++ lit "0CAEBAQEBAQEBAQEBAQEBAQEBAQEBAQEBAQEBAQEBAQEBAQEBAQEBAQEBAQEBAQEBAQEBAQEBAQEBAQEBAQEBAQE"

/-- The premises of `C92_received` and of `C92_sound` are met. -/
theorem sample_receipts : receiveReceipts Env.debug (fun _ => none) zeroHash toy
      (receiptEvent.raw ++ (lit "-CAD" ++ ([coupleA, coupleB, coupleA].flatten ++ lit "{\"v\""))) =
    .ok { event := receiptEvent, witnesses := [signerA.verfer], enough := true, left := lit "{\"v\"" } := by
  have hnew : Serder.new Env.debug (fun _ => none) zeroHash none none none (some (.obj ((lit "v", .str (lit "KERI10JSON000000_")) :: receiptRest))) none =
      .ok receiptEvent := by
    kernel_rfl
  refine (C92_received (rs := [receiptA, receiptB, receiptA]) (ws := keyTexts.take 1) (named := [signerA.verfer]) (bt := lit "1") (toad := 1)
    (c := ⟨lit "-C", 3⟩) hnew (by simp [Plain, PlainFields, PlainElems, lit, receiptRest, keyTexts]) (floatsRead_of_noFloats _ (by decide +kernel))
    (by simp [Utf8Value, Utf8Fields, Utf8Elems, receiptRest, keyTexts]; decide +kernel) (by decide +kernel) (by decide +kernel) rfl (by kernel_rfl)
    (.cons (by decide +kernel) .nil) (by kernel_rfl) ?_ (by decide) (by decide +kernel) (by kernel_rfl) ?_ (by decide +kernel)).trans ?_
  · exact ⟨[], lit "1", [1], rfl, .inl rfl, by decide, ⟨by decide, trivial⟩, rfl⟩
  · exact .cons ⟨_, _, by decide +kernel, by decide +kernel, rfl⟩ (.cons ⟨_, _, by decide +kernel, by decide +kernel, rfl⟩
      (.cons ⟨_, _, by decide +kernel, by decide +kernel, rfl⟩ .nil))
  · kernel_rfl

end Cesride
