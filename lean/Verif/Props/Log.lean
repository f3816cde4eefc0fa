import Verif.Props.PartialRotation

/-!
# Property C103: a signed log in one byte stream

The client below reads a whole log of signed events from one byte stream: event, counter, signatures, next event, and so on to the end. It is the client
of C91 with the position in the stream carried along. Its loop is not library code; everything it calls is.
-/

namespace Cesride
open Spec

/-- Accept one more signed event from the front of a stream, and give back the text after its signatures. -/
def admitFront (E : Env) (F : Str → Option Str) (H : Hash) (C : Crypto) (history : List Sadder) (stream : List UInt8) : Res (Sadder × Str) := do
  let e ← acceptEvent E F H history stream
  let (sigs, left) ← attachedSigs E e.raw.length stream
  let (keys, threshold) ← authority E F (e :: history)
  let signers := ((sigs.filter (verifiesUnder C keys e.raw)).map (·.indexer.index)).dedup
  let enough ← reaches E threshold signers
  if enough then .ok (e, left) else .err .validation

/-- Accept signed events until the stream is used up. The first argument bounds the number of rounds; `C103_rounds` shows that the length of the stream
is always enough. -/
def admitStream (E : Env) (F : Str → Option Str) (H : Hash) (C : Crypto) : Nat → List Sadder → List UInt8 → Res (List Sadder)
  | _, history, [] => .ok history
  | 0, _, _ :: _ => .err .validation
  | n + 1, history, b :: stream => do
    let (e, left) ← admitFront E F H C history (b :: stream)
    admitStream E F H C n (e :: history) left

/-- Accept a whole stream. -/
def admitLog (E : Env) (F : Str → Option Str) (H : Hash) (C : Crypto) (stream : List UInt8) : Res (List Sadder) :=
  admitStream E F H C stream.length [] stream

/-- A part of a stream that is an event with a counter and enough signatures: the event comes first, different keys in force that reach the threshold in
force have signed its bytes, and each signature is read from within the part. -/
def Vouched (E : Env) (C : Crypto) (keys : List Matter) (threshold : Tholder) (e : Sadder) (part : List UInt8) : Prop :=
  ∃ signers : List Nat, signers.Nodup ∧ threshold.satisfy E signers = .ok true ∧
    ∀ i ∈ signers, ∃ (k : Matter) (y : Siger) (u t v : List UInt8), keys[i]? = some k ∧ part = e.raw ++ (u ++ (t ++ v)) ∧ y.indexer.fullSize = .ok t.length ∧
      (∃ w, Siger.newWithQb64 E (t ++ w) none = .ok y) ∧ y.indexer.index = i ∧ Verfer.verify C k y.indexer.raw e.raw = .ok true

theorem sliceStr_split {s r : Str} {k : Nat} (h : sliceStr s k s.length = .ok r) : s = s.take k ++ r ∧ (s.take k).length = k := by
  refine ⟨sliceStr_to_end h, ?_⟩
  unfold sliceStr at h
  split at h
  · rename_i hc
    rw [List.length_take, Nat.min_eq_left hc.1]
  · cases h

theorem readSigs_within {E : Env} : ∀ {n : Nat} {s left : Str} {sigs : List Siger}, readSigs E n s = .ok (sigs, left) →
    ∃ p, s = p ++ left ∧ ∀ y ∈ sigs, ∃ u t v, p = u ++ (t ++ v) ∧ y.indexer.fullSize = .ok t.length ∧ Siger.newWithQb64 E (t ++ (v ++ left)) none = .ok y
  | 0, s, left, sigs, h => by
    have h := Res.ok.inj h
    simp only [Prod.mk.injEq] at h
    obtain ⟨rfl, rfl⟩ := h
    exact ⟨[], rfl, by simp⟩
  | n + 1, s, left, sigs, h => by
    unfold readSigs at h
    obtain ⟨x, hx, h⟩ := Res.bind_eq_ok.mp h
    obtain ⟨k, hk, h⟩ := Res.bind_eq_ok.mp h
    obtain ⟨rest, hr, h⟩ := Res.bind_eq_ok.mp h
    obtain ⟨⟨xs, l⟩, hxs, h⟩ := Res.bind_eq_ok.mp h
    have h := Res.ok.inj h
    simp only [Prod.mk.injEq] at h
    obtain ⟨rfl, rfl⟩ := h
    obtain ⟨p, h2, h3⟩ := readSigs_within hxs
    obtain ⟨hs, hlen⟩ := sliceStr_split hr
    refine ⟨s.take k ++ p, by rw [List.append_assoc, ← h2, ← hs], ?_⟩
    intro y hy
    rcases List.mem_cons.mp hy with rfl | hy
    · exact ⟨[], s.take k, p, rfl, by rw [hk, hlen], by rw [← h2, ← hs]; exact hx⟩
    · obtain ⟨u, t, v, e, hf, hv⟩ := h3 y hy
      exact ⟨s.take k ++ u, t, v, by rw [e, List.append_assoc], hf, hv⟩

/-- What the front of a stream is when an event is admitted from it. -/
theorem admitFront_ok {E : Env} {F : Str → Option Str} {H : Hash} {C : Crypto} {history : List Sadder} {stream : List UInt8} {e : Sadder} {left : Str}
    (h : admitFront E F H C history stream = .ok (e, left)) : acceptEvent E F H history stream = .ok e ∧
      ∃ part keys th, stream = part ++ left ∧ e.raw <+: part ∧ authority E F (e :: history) = .ok (keys, some th) ∧ Vouched E C keys th e part := by
  unfold admitFront at h
  obtain ⟨e', he, h⟩ := Res.bind_eq_ok.mp h
  obtain ⟨⟨sigs, l⟩, hs, h⟩ := Res.bind_eq_ok.mp h
  obtain ⟨⟨keys, th⟩, hk, h⟩ := Res.bind_eq_ok.mp h
  obtain ⟨enough, hen, h⟩ := Res.bind_eq_ok.mp h
  split at h
  · rename_i hb
    have := Res.ok.inj h
    simp only [Prod.mk.injEq] at this
    obtain ⟨rfl, rfl⟩ := this
    refine ⟨he, ?_⟩
    unfold attachedSigs at hs
    obtain ⟨att, hatt, hs1⟩ := Res.bind_eq_ok.mp hs
    obtain ⟨text, htext, hs2⟩ := Res.bind_eq_ok.mp hs1
    obtain ⟨counter, _, hs3⟩ := Res.bind_eq_ok.mp hs2
    obtain ⟨k, _, hs4⟩ := Res.bind_eq_ok.mp hs3
    obtain ⟨text2, ht2, hs5⟩ := Res.bind_eq_ok.mp hs4
    have htext : text = att := by
      unfold fromUtf8 at htext
      split at htext
      · exact (Res.ok.inj htext).symm
      · cases htext
    subst htext
    have hpre := event_prefix (accept_ok.mp he).1 hatt
    obtain ⟨p, hp, hall⟩ := readSigs_within hs5
    have h2 := sliceStr_to_end ht2
    cases th with
    | none => cases hen; cases hb
    | some th =>
      refine ⟨e'.raw ++ (text.take k ++ p), keys, th, ?_, ⟨_, rfl⟩, hk, _, List.nodup_dedup _, (show th.satisfy E _ = _ from hen).trans (by rw [hb]), ?_⟩
      · rw [List.append_assoc, List.append_assoc, ← hp, ← h2, ← hpre]
      · intro i hi
        rw [List.mem_dedup, List.mem_map] at hi
        obtain ⟨y, hy, rfl⟩ := hi
        obtain ⟨hy, hv⟩ := List.mem_filter.mp hy
        obtain ⟨u, t, v, hu, hf, hr⟩ := hall y hy
        unfold verifiesUnder at hv
        split at hv
        · rename_i k' hk'
          exact ⟨k', y, text.take k ++ u, t, v, hk', by rw [hu, List.append_assoc], hf, ⟨_, hr⟩, rfl, by simpa using hv⟩
        · cases hv
  · cases h

theorem admitFront_admits {E : Env} {F : Str → Option Str} {H : Hash} {C : Crypto} {history : List Sadder} {stream : List UInt8} {e : Sadder} {left : Str}
    (h : admitFront E F H C history stream = .ok (e, left)) : admitEvent E F H C history stream = .ok e := by
  unfold admitFront at h
  obtain ⟨e', he, h⟩ := Res.bind_eq_ok.mp h
  obtain ⟨⟨sigs, l⟩, hs, h⟩ := Res.bind_eq_ok.mp h
  obtain ⟨⟨keys, th⟩, hk, h⟩ := Res.bind_eq_ok.mp h
  obtain ⟨enough, hen, h⟩ := Res.bind_eq_ok.mp h
  unfold attachedSigs at hs
  obtain ⟨att, hatt, hs⟩ := Res.bind_eq_ok.mp hs
  obtain ⟨text, htext, hs⟩ := Res.bind_eq_ok.mp hs
  obtain ⟨counter, hc, hs⟩ := Res.bind_eq_ok.mp hs
  obtain ⟨k, hfs, hs⟩ := Res.bind_eq_ok.mp hs
  obtain ⟨text2, ht2, hs⟩ := Res.bind_eq_ok.mp hs
  unfold admitEvent
  rw [he, Res.ok_bind, hatt, Res.ok_bind, htext, Res.ok_bind, hc, Res.ok_bind, hfs, Res.ok_bind, ht2, Res.ok_bind, hs, Res.ok_bind]
  dsimp only
  rw [hk, Res.ok_bind]
  split at h
  · rename_i hb
    have := Res.ok.inj h
    simp only [Prod.mk.injEq] at this
    obtain ⟨rfl, rfl⟩ := this
    unfold reaches at hen
    cases th <;> (dsimp only at hen ⊢; rw [hen, Res.ok_bind, if_pos hb])
  · cases h

theorem event_not_empty {E : Env} {F : Str → Option Str} {H : Hash} {stream : List UInt8} {e : Sadder} (h : Serder.newWithRaw E F H stream = .ok e) :
    e.raw ≠ [] ∧ utf8Valid stream = true := by
  obtain ⟨size, o, m, hm, rfl⟩ := (C82_serder E F H none none stream none none e).mp h
  obtain ⟨a, b, hab, _⟩ := doc_obj_split hm.2.2.1
  refine ⟨?_, hm.1.2.1⟩
  dsimp only
  rw [hab]
  simp

theorem admitFront_shorter {E : Env} {F : Str → Option Str} {H : Hash} {C : Crypto} {history : List Sadder} {stream : List UInt8} {e : Sadder} {left : Str}
    (h : admitFront E F H C history stream = .ok (e, left)) : left.length < stream.length := by
  obtain ⟨ha, part, _, _, hs, hp, _⟩ := admitFront_ok h
  have h1 := (event_not_empty (accept_ok.mp ha).1).1
  have h2 := hp.length_le
  have h3 : 0 < e.raw.length := List.length_pos_iff.mpr h1
  rw [hs, List.length_append]
  omega

/-- C103, the reader gets to the end. Every admitted event takes something from the stream, so that the length of the stream is a bound on the rounds that
never matters: any larger bound gives the same answer. -/
theorem C103_rounds {E : Env} {F : Str → Option Str} {H : Hash} {C : Crypto} : ∀ {n m : Nat} {history : List Sadder} {stream : List UInt8},
    stream.length ≤ n → stream.length ≤ m → admitStream E F H C n history stream = admitStream E F H C m history stream
  | 0, 0, _, _, _, _ => rfl
  | _, _, _, [], _, _ => by rw [admitStream, admitStream]
  | 0, _, _, _ :: _, h, _ => by simp at h
  | _, 0, _, _ :: _, _, h => by simp at h
  | n + 1, m + 1, history, b :: stream, hn, hm => by
    rw [admitStream, admitStream]
    cases h : admitFront E F H C history (b :: stream) with
    | ok r =>
      obtain ⟨e, left⟩ := r
      have := admitFront_shorter h
      rw [Res.ok_bind, Res.ok_bind]
      exact C103_rounds (by omega) (by omega)
    | err _ => rfl
    | panic => rfl

/-- The parts of a stream, one for each event of a log (latest first): each event is accepted after those before it, from the front of what is left of the
stream, and different keys that are in force with it and reach the threshold have signed it within its part. -/
inductive Parts (E : Env) (F : Str → Option Str) (H : Hash) (C : Crypto) : List Sadder → List UInt8 → List UInt8 → Prop
  | nil {stream} : Parts E F H C [] stream stream
  | cons {history e stream part left keys th} : Parts E F H C history stream (part ++ left) → acceptEvent E F H history (part ++ left) = .ok e →
      e.raw <+: part → authority E F (e :: history) = .ok (keys, some th) → Vouched E C keys th e part → Parts E F H C (e :: history) stream left

theorem admitStream_parts {E : Env} {F : Str → Option Str} {H : Hash} {C : Crypto} {whole : List UInt8} : ∀ {n : Nat} {history result : List Sadder} {stream : List UInt8},
    Parts E F H C history whole stream → Admitted E F H C history → admitStream E F H C n history stream = .ok result →
    Parts E F H C result whole [] ∧ Admitted E F H C result ∧ history <:+ result
  | _, _, _, [], hp, ha, h => by
    rw [admitStream] at h
    have := Res.ok.inj h
    subst this
    exact ⟨hp, ha, List.suffix_rfl⟩
  | 0, _, _, _ :: _, _, _, h => by simp [admitStream] at h
  | n + 1, history, result, b :: stream, hp, ha, h => by
    rw [admitStream] at h
    obtain ⟨⟨e, left⟩, hf, h⟩ := Res.bind_eq_ok.mp h
    obtain ⟨h1, part, keys, th, hs, hpre, hau, hv⟩ := admitFront_ok hf
    have hp' : Parts E F H C (e :: history) whole left := by
      rw [hs] at hp h1
      exact .cons hp h1 hpre hau hv
    obtain ⟨r1, r2, r3⟩ := admitStream_parts hp' (.cons ha (admitFront_admits hf)) h
    exact ⟨r1, r2, (List.suffix_cons _ _).trans r3⟩

/-- C103, for every byte stream: a stream that is taken in full consists of one part for each event, in order and without a gap; each event is accepted
(C90) after the events before it, and different keys that are in force with it and reach the threshold in force have signed its bytes, with signatures that
stand in its own part. -/
theorem C103_sound {E : Env} {F : Str → Option Str} {H : Hash} {C : Crypto} {stream : List UInt8} {log : List Sadder} (h : admitLog E F H C stream = .ok log) :
    Parts E F H C log stream [] ∧ Admitted E F H C log :=
  let r := admitStream_parts .nil .nil h
  ⟨r.1, r.2.1⟩

/-- C103. Two streams that are taken in full and end with the same SAID hold the same events, unless two events have different contents with the same
digest. -/
theorem C103_same {E : Env} {F : Str → Option Str} {H : Hash} {C : Crypto} {s₁ s₂ : List UInt8} {x y : Sadder} {xs ys : List Sadder}
    (hx : admitLog E F H C s₁ = .ok (x :: xs)) (hy : admitLog E F H C s₂ = .ok (y :: ys)) (px : ∀ e ∈ x :: xs, Plain e.ked) (py : ∀ e ∈ y :: ys, Plain e.ked)
    (h : Sadder.said E x = Sadder.said E y) :
    (x :: xs).map (·.ked) = (y :: ys).map (·.ked) ∨ ∃ a ∈ x :: xs, ∃ b ∈ y :: ys, ContentsCollide H a b :=
  histories_agree (C103_sound hx).2.accepted (C103_sound hy).2.accepted px py h

/-! ## Nothing honest is refused -/

/-- A signed event as a controller makes it after a history: an event from a map (version string first) with its right SAID, the right prior SAID and, if it
sets keys after others, the keys committed to; then a counter and signatures over its bytes, by signers whose public keys are those in force, at their
positions, that reach the threshold in force. -/
def SignedEvent (E : Env) (F : Str → Option Str) (H : Hash) (C : Crypto) (history : List Sadder) (s : Sadder) (part : List UInt8) : Prop :=
  ∃ (kind : Option Str) (rest : List (Str × Value)) (x : Value) (o : List (Str × Value)) (signers : List Signer) (th : Tholder) (sigs : List Siger) (c : Counter)
    (ct : Str) (sts : List Str),
    Serder.new E F H none none kind (some (.obj ((lit "v", x) :: rest))) none = .ok s ∧
    Plain (.obj ((lit "v", x) :: rest)) ∧ FloatsRead F (.obj ((lit "v", x) :: rest)) ∧ Utf8Value (.obj ((lit "v", x) :: rest)) ∧
    depth (.obj ((lit "v", x) :: rest)) < 128 ∧ s.raw.length < 2 ^ 32 ∧ s.ked = .obj o ∧
    Saider.verify E H s.saider s.ked (some true) (some true) none none none = .ok true ∧
    (match history with
      | [] => o.lookup (lit "p") = none
      | q :: _ => (∃ t, Sadder.said E q = .ok t ∧ o.lookup (lit "p") = some (.str t)) ∧
        (Serder.est s = .ok false ∨ Serder.est s = .ok true ∧ ∃ earlier e later os ks ts ds, history = later ++ e :: earlier ∧
          (∀ l ∈ later, Serder.est l = .ok false) ∧ Serder.est e = .ok true ∧ Serder.digers E H e = .ok ds ∧
          o.lookup (lit "k") = some (.arr os) ∧ Aligned (fun v t => v = Value.str t) os ts ∧
          Aligned (fun t k => Matter.ofText E t = .ok k ∧ k.code ∈ verferCodes ∧ k.qb64b E = .ok t) ts ks ∧
          Aligned (fun d t => H.digest d.code t = d.raw) ds ts)) ∧
    (∀ g ∈ signers, MadeSigner E C g) ∧ authority E F (s :: history) = .ok (signers.map (·.verfer), some th) ∧
    (∀ y ∈ sigs, ∃ g only ondex r, signers[y.indexer.index]? = some g ∧ Signer.signIndexed E C g s.raw only y.indexer.index ondex r = .ok y) ∧
    Counter.new E (some sigs.length) none (some (lit "-A")) none none none = .ok c ∧ c.qb64 E = .ok ct ∧
    Aligned (fun y t => y.indexer.qb64 E = .ok t) sigs sts ∧ th.satisfy E (sigs.map (·.indexer.index)).dedup = .ok true ∧
    part = s.raw ++ (ct ++ sts.flatten)

/-- A log of signed events (latest first) and the stream that holds them, one after the other. -/
inductive SignedLog (E : Env) (F : Str → Option Str) (H : Hash) (C : Crypto) : List Sadder → List UInt8 → Prop
  | nil : SignedLog E F H C [] []
  | cons {history stream s part} : SignedLog E F H C history stream → SignedEvent E F H C history s part → SignedLog E F H C (s :: history) (stream ++ part)

theorem SignedEvent.admitted {E : Env} {F : Str → Option Str} {H : Hash} {C : Crypto} {history : List Sadder} {s : Sadder} {part left : List UInt8}
    (h : SignedEvent E F H C history s part) (hleft : utf8Valid left = true) :
    admitFront E F H C history (part ++ left) = .ok (s, left) ∧ part ≠ [] ∧ utf8Valid (part ++ left) = true := by
  obtain ⟨kind, rest, x, o, signers, th, sigs, c, ct, sts, h1, h2, h3, h4, h5, h6, h7, h8, h9, hmade, hauth, hsigs, hc, hct, hst, he, rfl⟩ := h
  have hobt : ∀ y ∈ sigs, Siger.validateCode y.indexer.code = .ok () ∧ ∃ c ∈ Spec.idxCodes, IdxObtained E c y.indexer := by
    intro y hy
    obtain ⟨g, only, ondex, r, hi, hs⟩ := hsigs y hy
    obtain ⟨_, _, _, _, _, _, _, hg⟩ := hmade g (List.mem_of_getElem? hi)
    exact (signIndexed_obtained hg hs).2
  obtain ⟨hatt, hu⟩ := attachedSigs_of s.raw hobt hc hct hst hleft
  have hacc := C90_accepts h1 h2 h3 h4 h5 h6 h7 h8 h9 hu
  obtain ⟨hne, huu⟩ := event_not_empty (accept_ok.mp hacc).1
  have hfil : ((sigs.map (fun x => ({ indexer := x.indexer, verfer := Verfer.default } : Siger))).filter
      (verifiesUnder C (signers.map (·.verfer)) s.raw)).map (·.indexer.index) = sigs.map (·.indexer.index) := by
    rw [List.filter_eq_self.mpr, List.map_map]
    · rfl
    · intro y hy
      obtain ⟨z, hz, rfl⟩ := List.mem_map.mp hy
      obtain ⟨g, only, ondex, r, hi, hs⟩ := hsigs z hz
      obtain ⟨_, _, _, _, _, _, _, hg⟩ := hmade g (List.mem_of_getElem? hi)
      have hv := (C53_indexed_verifies E C hg s.raw r hs).2.1
      unfold verifiesUnder
      rw [List.getElem?_map, hi]
      simpa using hv
  have hassoc : s.raw ++ (ct ++ sts.flatten) ++ left = s.raw ++ (ct ++ (sts.flatten ++ left)) := by simp
  rw [hassoc]
  refine ⟨?_, by simp [hne], huu⟩
  unfold admitFront
  rw [hacc, Res.ok_bind, hatt, Res.ok_bind]
  dsimp only
  rw [hauth, Res.ok_bind]
  dsimp only
  rw [hfil]
  unfold reaches
  dsimp only
  rw [he, Res.ok_bind, if_pos rfl]

/-- C103, nothing honest is refused: any log of signed events of any length, put into one stream, is taken in full and gives exactly its events. -/
theorem C103_received {E : Env} {F : Str → Option Str} {H : Hash} {C : Crypto} {log : List Sadder} {stream : List UInt8} (h : SignedLog E F H C log stream) :
    admitLog E F H C stream = .ok log := by
  have gen : ∀ rest, utf8Valid rest = true → admitStream E F H C (stream ++ rest).length [] (stream ++ rest) = admitStream E F H C rest.length log rest := by
    induction h with
    | nil => intro rest _; rfl
    | @cons history stream s part hl hs ih =>
      intro rest hr
      obtain ⟨h1, h2, h3⟩ := hs.admitted hr
      rw [List.append_assoc, ih _ h3]
      cases part with
      | nil => exact absurd rfl h2
      | cons b part =>
        rw [List.cons_append, List.length_cons, admitStream, ← List.cons_append, h1, Res.ok_bind]
        exact C103_rounds (by simp) (Nat.le_refl _)
  have := gen [] rfl
  rw [List.append_nil] at this
  unfold admitLog
  rw [this]
  rfl

/-! ## A concrete log

The two events of `sample_fork` in one stream. -/

theorem sample_signed_log : SignedLog Env.debug (fun _ => none) addingHash toy [historyEvent (forkIxn "EB7w" "x") 30 240, historyEvent forkIcp 34 137]
    (([] ++ ((historyEvent forkIcp 34 137).raw ++ forkSignature)) ++ ((historyEvent (forkIxn "EB7w" "x") 30 240).raw ++ forkSignature)) := by
  have made : ∀ g ∈ [signerA], MadeSigner Env.debug toy g := by
    intro g hg
    simp only [List.mem_cons, List.not_mem_nil, or_false] at hg
    subst hg
    exact ⟨1, none, _, none, none, none, none, C65_generated Env.debug toy 1 none .ed25519⟩
  have signs : ∀ s : Sadder, ∀ y ∈ [sigA], ∃ g only ondex r, [signerA][y.indexer.index]? = some g ∧ Signer.signIndexed Env.debug toy g s.raw only y.indexer.index ondex r = .ok y := by
    intro s y hy
    simp only [List.mem_cons, List.not_mem_nil, or_false] at hy
    subst hy
    exact ⟨signerA, false, none, 3, rfl, by kernel_rfl⟩
  refine .cons (.cons .nil ?_) ?_
  · refine ⟨none, forkIcp.tail, .str (lit "KERI10JSON000000_"), forkIcp, [signerA], ⟨.int 1, false, 1, some ⟨lit "M", 0, [0, 1]⟩, none⟩, [sigA], ⟨lit "-A", 1⟩, lit "-AAB",
      [lit "AAADAwMDAwMDAwMDAwMDAwMDAwMDAwMDAwMDAwMDAwMDAwMDAwMDAwMDAwMDAwMDAwMDAwMDAwMDAwMDAwMDAwMD"], by kernel_rfl,
      by simp [Plain, PlainFields, PlainElems, lit, forkIcp], floatsRead_of_noFloats _ (by decide +kernel), by simp [Utf8Value, Utf8Fields, Utf8Elems, forkIcp]; decide +kernel,
      by decide +kernel, by decide +kernel, rfl, by kernel_rfl, rfl, made, by kernel_rfl, signs _, by kernel_rfl, by kernel_rfl, .cons (by kernel_rfl) .nil, by kernel_rfl, by kernel_rfl⟩
  · refine ⟨none, (forkIxn "EB7w" "x").tail, .str (lit "KERI10JSON000000_"), forkIxn "EB7w" "x", [signerA], ⟨.int 1, false, 1, some ⟨lit "M", 0, [0, 1]⟩, none⟩, [sigA], ⟨lit "-A", 1⟩, lit "-AAB",
      [lit "AAADAwMDAwMDAwMDAwMDAwMDAwMDAwMDAwMDAwMDAwMDAwMDAwMDAwMDAwMDAwMDAwMDAwMDAwMDAwMDAwMDAwMD"], by kernel_rfl,
      by simp [Plain, PlainFields, lit, forkIxn], floatsRead_of_noFloats _ (by decide +kernel), by simp [Utf8Value, Utf8Fields, forkIxn]; decide +kernel,
      by decide +kernel, by decide +kernel, rfl, by kernel_rfl, ⟨⟨_, by kernel_rfl, rfl⟩, .inl (by kernel_rfl)⟩, made, by kernel_rfl, signs _, by kernel_rfl, by kernel_rfl,
      .cons (by kernel_rfl) .nil, by kernel_rfl, by kernel_rfl⟩

/-- The premises of `C103_received`, and so of `C103_sound` and `C103_same`, are met. The events in the wrong order, or with something that is not an event
after them, are refused. -/
theorem sample_log :
    admitLog Env.debug (fun _ => none) addingHash toy
      ((historyEvent forkIcp 34 137).raw ++ forkSignature ++ ((historyEvent (forkIxn "EB7w" "x") 30 240).raw ++ forkSignature)) =
      .ok [historyEvent (forkIxn "EB7w" "x") 30 240, historyEvent forkIcp 34 137] ∧
    admitLog Env.debug (fun _ => none) addingHash toy
      ((historyEvent (forkIxn "EB7w" "x") 30 240).raw ++ forkSignature ++ ((historyEvent forkIcp 34 137).raw ++ forkSignature)) = .err .validation ∧
    admitLog Env.debug (fun _ => none) addingHash toy
      ((historyEvent forkIcp 34 137).raw ++ forkSignature ++ ((historyEvent (forkIxn "EB7w" "x") 30 240).raw ++ (forkSignature ++ lit "-AAA"))) = .err .value :=
  ⟨C103_received sample_signed_log, by kernel_rfl, by kernel_rfl⟩

end Cesride
