import Verif.Props.Control
import Verif.Props.Ample

/-! # Property C121: receivers who wait for the witnesses agree

A receiver who takes an event only with a receipt of enough of the witnesses of the inception. The loops and comparisons of the receiver are not library code; everything they call is. -/

namespace Cesride
namespace Builder
open Common Spec Tholder R32

variable {E : Env} {F : Str → Option Str} {H : Hash} {C : Crypto}

/-- Receive a receipt message for an event from the front of a byte stream, as `confirm` does, but judged by the witnesses and the threshold of another event, the inception. -/
def confirmBy (E : Env) (F : Str → Option Str) (H : Hash) (C : Crypto) (inception event : Sadder) (stream : List UInt8) : Res Confirmed := do
  let msg ← readMessage E F H stream
  let t ← msg.event.ked.index (lit "t")
  let t ← t.toStr
  let i ← Serder.pre msg.event
  let i' ← Serder.pre event
  let sn ← Serder.sn E msg.event
  let sn' ← Serder.sn E event
  let d ← msg.event.said E
  let d' ← event.said E
  if t = lit "rct" ∧ i = i' ∧ sn = sn' ∧ d = d' then do
    let named ← Serder.werfers E inception
    let witnesses := judge C named event.raw (witnessSigs msg.groups)
    let toad ← witnessThreshold E inception
    .ok { receipt := msg.event, witnesses := witnesses, witnessed := decide (toad ≤ witnesses.length), left := msg.left }
  else .err .value

/-- A receiver who waits for the witnesses: an inception message, whose identifier must belong to it and which must be signed by enough of its keys, and a receipt of enough of its witnesses; and then
some more messages, as in C112 and C115, each with a receipt of enough of the same witnesses. The events, the latest first, and the text that follows. -/
def receiveWitnessed (E : Env) (F : Str → Option Str) (H : Hash) (C : Crypto) : Nat → List UInt8 → Res (List Sadder × Str)
  | 0, stream => do
    let a ← acceptInception E F H C stream
    let c ← confirmBy E F H C a.event a.event a.left
    if a.identified && a.signed && c.witnessed then .ok ([a.event], c.left) else .err .validation
  | n + 1, stream => do
    let (history, rest) ← receiveWitnessed E F H C n stream
    let (e, left) ← receiveNext E F H C history rest
    match history.getLast? with
    | none => .err .validation
    | some inception => do
      let c ← confirmBy E F H C inception e left
      if c.witnessed then .ok (e :: history, c.left) else .err .validation

/-- In the stream stands an event, and a signature over its bytes that verifies under a key. -/
def Attested (E : Env) (F : Str → Option Str) (H : Hash) (C : Crypto) (k : Matter) (event : Sadder) (stream : List UInt8) : Prop :=
  ∃ (y : Siger) (u v w : List UInt8), stream = u ++ (event.raw ++ (v ++ w)) ∧ Serder.newWithRaw E F H (event.raw ++ (v ++ w)) = .ok event ∧
    Siger.newWithQb64 E w none = .ok y ∧ Verfer.verify C k y.indexer.raw event.raw = .ok true

/-! ## Proofs -/

theorem confirm_by (event : Sadder) (stream : List UInt8) : confirmBy E F H C event event stream = confirm E F H C event stream := rfl

theorem inception_left {stream : List UInt8} {a : Accepted} (h : acceptInception E F H C stream = .ok a) : Serder.newWithRaw E F H stream = .ok a.event ∧ ∃ u, stream = a.event.raw ++ (u ++ a.left) := by
  obtain ⟨h1, ⟨text, h2, ⟨u, h3⟩, _⟩, _⟩ := C110_sound h
  exact ⟨h1, u, by rw [h2, ← h3]⟩

theorem next_left {history : List Sadder} {stream : List UInt8} {e : Sadder} {left : Str} (h : receiveNext E F H C history stream = .ok (e, left)) :
    Serder.newWithRaw E F H stream = .ok e ∧ follows E history e = .ok true ∧ ∃ u, stream = e.raw ++ (u ++ left) := by
  unfold receiveNext at h
  obtain ⟨s, hs, h⟩ := Res.bind_eq_ok.mp h
  obtain ⟨b, hb, h⟩ := Res.bind_eq_ok.mp h
  cases b with
  | true =>
    rw [if_pos rfl] at h
    obtain ⟨r, hr, h⟩ := Res.bind_eq_ok.mp h
    have h := Res.ok.inj h
    simp only [Prod.mk.injEq] at h
    obtain ⟨rfl, rfl⟩ := h
    obtain ⟨h1, _, h3, _⟩ := C93_sound hr
    refine ⟨h1, h3, ?_⟩
    unfold acceptRotation at hr
    obtain ⟨e, hev, g⟩ := Res.bind_eq_ok.mp hr
    obtain ⟨genuine, _, g⟩ := Res.bind_eq_ok.mp g
    obtain ⟨linked, _, g⟩ := Res.bind_eq_ok.mp g
    obtain ⟨⟨sigs, left⟩, hsg, g⟩ := Res.bind_eq_ok.mp g
    obtain ⟨keys, _, g⟩ := Res.bind_eq_ok.mp g
    obtain ⟨commits, _, g⟩ := Res.bind_eq_ok.mp g
    obtain ⟨th, _, g⟩ := Res.bind_eq_ok.mp g
    obtain ⟨enough, _, g⟩ := Res.bind_eq_ok.mp g
    obtain ⟨next, _, g⟩ := Res.bind_eq_ok.mp g
    obtain ⟨allowed, _, g⟩ := Res.bind_eq_ok.mp g
    split at g
    swap
    · cases g
    have g := Res.ok.inj g
    subst g
    exact (attachedSigs_sound hev hsg).1
  | false =>
    rw [if_neg (by simp)] at h
    obtain ⟨hacc, part, _, _, hp, ⟨u, rfl⟩, _⟩ := admitFront_ok h
    obtain ⟨a1, _, a3, _⟩ := accept_ok.mp hacc
    exact ⟨a1, a3, u, by rw [hp, List.append_assoc]⟩

theorem confirmBy_sound {inception event : Sadder} {stream : List UInt8} {c : Confirmed} (h : confirmBy E F H C inception event stream = .ok c) :
    ∃ named toad, Serder.werfers E inception = .ok named ∧ witnessThreshold E inception = .ok toad ∧ (∃ u, stream = u ++ c.left) ∧ c.witnesses.Nodup ∧
      (c.witnessed = true ↔ toad ≤ c.witnesses.length) ∧
      ∀ i ∈ c.witnesses, ∃ (k : Matter) (y : Siger) (u v : List UInt8), named[i]? = some k ∧ stream = u ++ v ∧ Siger.newWithQb64 E v none = .ok y ∧
        Verfer.verify C k y.indexer.raw event.raw = .ok true := by
  unfold confirmBy at h
  obtain ⟨m, hm, h⟩ := Res.bind_eq_ok.mp h
  obtain ⟨tv, ht1, h⟩ := Res.bind_eq_ok.mp h
  obtain ⟨t, ht2, h⟩ := Res.bind_eq_ok.mp h
  obtain ⟨i, hi, h⟩ := Res.bind_eq_ok.mp h
  obtain ⟨i', hi', h⟩ := Res.bind_eq_ok.mp h
  obtain ⟨sn, hs, h⟩ := Res.bind_eq_ok.mp h
  obtain ⟨sn', hs', h⟩ := Res.bind_eq_ok.mp h
  obtain ⟨d, hd, h⟩ := Res.bind_eq_ok.mp h
  obtain ⟨d', hd', h'⟩ := Res.bind_eq_ok.mp h
  clear h
  split at h'
  · obtain ⟨named, hnamed, g⟩ := Res.bind_eq_ok.mp h'
    obtain ⟨n, hn, g2⟩ := Res.bind_eq_ok.mp g
    have g3 := Res.ok.inj g2
    subst g3
    dsimp only
    obtain ⟨_, text, h2, ⟨w, h3⟩, _, h5⟩ := readMessage_sound hm
    refine ⟨named, n, hnamed, hn, ⟨m.event.raw ++ w, by rw [List.append_assoc, ← h3, ← h2]⟩, List.nodup_dedup _, decide_eq_true_iff, ?_⟩
    intro j hj
    obtain ⟨k, y, hk, hy, _, hv⟩ := mem_judge.mp hj
    obtain ⟨u, v, w', x, cc, rfl, _, _, _, hr⟩ := h5 y hy
    exact ⟨k, y, m.event.raw ++ (u ++ (v ++ w')), x, hk, by rw [h2]; simp only [List.append_assoc], hr, hv⟩
  · cases h'

/-- The SAID of an event that is read is that in its field `d`. -/
theorem same_saider {bytes bytes' : List UInt8} {a b : Sadder} (ha : Serder.newWithRaw E F H bytes = .ok a) (hb : Serder.newWithRaw E F H bytes' = .ok b) (h : a.ked = b.ked) : a.saider = b.saider := by
  obtain ⟨_, o, m, hm, rfl⟩ := (C82_serder E F H none none _ none none a).mp ha
  obtain ⟨_, o', m', hm', rfl⟩ := (C82_serder E F H none none _ none none b).mp hb
  dsimp only at h ⊢
  injection h with h
  subst h
  obtain ⟨_, _, _, _, t, h1, h2, _⟩ := hm
  obtain ⟨_, _, _, _, t', h3, h4, _⟩ := hm'
  rw [h1] at h3
  injection h3 with h3
  injection h3 with h3
  subst h3
  exact Res.ok.inj (h2.symm.trans h4)

/-- An event the receiver has taken: what came before it, and the witnesses that have signed it. -/
theorem received_at : ∀ {n : Nat} {stream : List UInt8} {la : List Sadder} {a : Sadder} {ca : List Sadder} {x : Sadder} {left : Str},
    receiveWitnessed E F H C n stream = .ok (la ++ a :: ca, left) → (la ++ a :: ca).getLast? = some x →
    (∃ u, stream = u ++ left) ∧ (∃ bytes, Serder.newWithRaw E F H bytes = .ok a) ∧ (ca = [] ∨ follows E ca a = .ok true) ∧ ∃ named toad, Serder.werfers E x = .ok named ∧ witnessThreshold E x = .ok toad ∧
      ∃ W : Finset Nat, toad ≤ W.card ∧ ∀ i ∈ W, ∃ k, named[i]? = some k ∧ Attested E F H C k a stream
  | 0, stream, la, a, ca, x, left, h, hx => by
    unfold receiveWitnessed at h
    obtain ⟨acc, hacc, h⟩ := Res.bind_eq_ok.mp h
    obtain ⟨c, hc, h⟩ := Res.bind_eq_ok.mp h
    split at h
    swap
    · cases h
    rename_i hb
    have h := Res.ok.inj h
    simp only [Prod.mk.injEq] at h
    obtain ⟨e1, rfl⟩ := h
    have e2 : la = [] ∧ a = acc.event ∧ ca = [] := by
      cases la with
      | nil => simp only [List.nil_append, List.cons.injEq] at e1; exact ⟨rfl, e1.1.symm, e1.2.symm⟩
      | cons _ _ => simp only [List.cons_append, List.cons.injEq] at e1; have := congrArg List.length e1.2; simp at this
    obtain ⟨rfl, rfl, rfl⟩ := e2
    obtain rfl : acc.event = x := by simpa using hx
    obtain ⟨h1, u, h2⟩ := inception_left hacc
    obtain ⟨named, toad, n1, n2, ⟨w, n3⟩, n4, n5, n6⟩ := confirmBy_sound hc
    simp only [Bool.and_eq_true] at hb
    refine ⟨⟨acc.event.raw ++ (u ++ w), by rw [h2, n3]; simp only [List.append_assoc]⟩, ⟨_, h1⟩, .inl rfl, named, toad, n1, n2, c.witnesses.toFinset, ?_, ?_⟩
    · rw [List.toFinset_card_of_nodup n4]; exact n5.mp hb.2
    · intro i hi
      obtain ⟨k, y, u', v', q1, q2, q3, q4⟩ := n6 i (List.mem_toFinset.mp hi)
      refine ⟨k, q1, y, [], u ++ u', v', ?_, ?_, q3, q4⟩
      · rw [h2, q2]; simp only [List.nil_append, List.append_assoc]
      · rw [List.append_assoc, ← q2, ← h2]; exact h1
  | n + 1, stream, la, a, ca, x, left, h, hx => by
    unfold receiveWitnessed at h
    obtain ⟨⟨history, rest⟩, hrec, h⟩ := Res.bind_eq_ok.mp h
    obtain ⟨⟨e, l⟩, hnext, h⟩ := Res.bind_eq_ok.mp h
    dsimp only at h hnext
    split at h
    · cases h
    rename_i icp hicp
    obtain ⟨c, hc, h⟩ := Res.bind_eq_ok.mp h
    split at h
    swap
    · cases h
    rename_i hb
    have h := Res.ok.inj h
    simp only [Prod.mk.injEq] at h
    obtain ⟨e1, rfl⟩ := h
    obtain ⟨g1, g2, u, g3⟩ := next_left hnext
    obtain ⟨named, toad, n1, n2, ⟨w, n3⟩, n4, n5, n6⟩ := confirmBy_sound hc
    obtain ⟨hd, tl, rfl⟩ : ∃ hd tl, history = hd :: tl := by
      cases history with
      | nil => simp at hicp
      | cons hd tl => exact ⟨hd, tl, rfl⟩
    cases la with
    | nil =>
      simp only [List.nil_append, List.cons.injEq] at e1
      obtain ⟨rfl, rfl⟩ := e1
      obtain rfl : icp = x := by
        rw [List.nil_append, List.getLast?_cons_cons, hicp] at hx
        exact Option.some.inj hx
      obtain ⟨⟨p, hp⟩, _⟩ := received_at (la := []) hrec hicp
      refine ⟨⟨p ++ (e.raw ++ (u ++ w)), by rw [hp, g3, n3]; simp only [List.append_assoc]⟩, ⟨_, g1⟩, .inr g2, named, toad, n1, n2, c.witnesses.toFinset, ?_, ?_⟩
      · rw [List.toFinset_card_of_nodup n4]; exact n5.mp hb
      · intro i hi
        obtain ⟨k, y, u', v', q1, q2, q3, q4⟩ := n6 i (List.mem_toFinset.mp hi)
        refine ⟨k, q1, y, p, u ++ u', v', ?_, ?_, q3, q4⟩
        · rw [hp, g3, q2]; simp only [List.append_assoc]
        · rw [List.append_assoc, ← q2, ← g3]; exact g1
    | cons b la =>
      simp only [List.cons_append, List.cons.injEq] at e1
      obtain ⟨rfl, e1⟩ := e1
      rw [e1] at hrec hicp
      have hx' : (la ++ a :: ca).getLast? = some x := by
        rw [List.cons_append, List.getLast?_cons, hicp] at hx
        rw [hicp]
        simpa using hx
      obtain ⟨⟨p, hp⟩, q0, q1, named', toad', q2, q3, W, q4, q5⟩ := received_at hrec hx'
      exact ⟨⟨p ++ (e.raw ++ (u ++ w)), by rw [hp, g3, n3]; simp only [List.append_assoc]⟩, q0, q1, named', toad', q2, q3, W, q4, q5⟩

/-- C121. Two receivers who wait for the witnesses, each with a stream of his own, and the same inception event. The histories they come to are one the beginning of the other, or there is a first place where they differ, and there
more witnesses than f have signed two different events that name the same prior event: with a threshold for which any two sets of so many witnesses have more than f in common. The two signatures of each of these witnesses
stand in the two streams, behind the two events. -/
theorem C121_agreement {f n m : Nat} {bs cs : List UInt8} {xs ys : List Sadder} {x y : Sadder} {left left' : Str}
    (hx : receiveWitnessed E F H C n bs = .ok (xs ++ [x], left)) (hy : receiveWitnessed E F H C m cs = .ok (ys ++ [y], left')) (h : x.ked = y.ked)
    {named : List Matter} {toad : Nat} (hw : Serder.werfers E x = .ok named) (ht : witnessThreshold E x = .ok toad) (hag : Agreement named.length f toad) :
    (xs ++ [x]).map (·.ked) <:+ (ys ++ [y]).map (·.ked) ∨ (ys ++ [y]).map (·.ked) <:+ (xs ++ [x]).map (·.ked) ∨
    ∃ (la : List Sadder) (a e : Sadder) (ca : List Sadder) (lb : List Sadder) (b e' : Sadder) (cb : List Sadder) (p : Str),
      xs ++ [x] = la ++ a :: e :: ca ∧ ys ++ [y] = lb ++ b :: e' :: cb ∧ (e :: ca).map (·.ked) = (e' :: cb).map (·.ked) ∧ a.ked ≠ b.ked ∧
      e.said E = .ok p ∧ a.ked.index (lit "p") = .ok (.str p) ∧ e'.said E = .ok p ∧ b.ked.index (lit "p") = .ok (.str p) ∧
      ∃ W : Finset Nat, f < W.card ∧ ∀ i ∈ W, ∃ k, named[i]? = some k ∧ Attested E F H C k a bs ∧ Attested E F H C k b cs := by
  classical
  rcases diverge_map (·.ked) (xs ++ [x]) (ys ++ [y]) with h1 | h1 | ⟨la, a, ca, lb, b, cb, e1, e2, hc, hne⟩
  · exact .inl h1
  · exact .inr (.inl h1)
  refine .inr (.inr ?_)
  have lx : (la ++ a :: ca).getLast? = some x := by rw [← e1]; simp
  have ly : (lb ++ b :: cb).getLast? = some y := by rw [← e2]; simp
  cases ca with
  | nil =>
    have : cb = [] := by simpa using hc.symm
    subst this
    simp only [List.getLast?_append, List.getLast?_singleton, Option.some_or, Option.some.injEq] at lx ly
    subst lx ly
    exact absurd h hne
  | cons e ca =>
    cases cb with
    | nil => simp at hc
    | cons e' cb =>
      rw [e1] at hx
      rw [e2] at hy
      obtain ⟨_, _, fa, na, ta, a1, a2, A, a3, a4⟩ := received_at hx lx
      obtain ⟨_, _, fb, nb, tb, b1, b2, B, b3, b4⟩ := received_at hy ly
      have hwx : Serder.werfers E y = Serder.werfers E x := by unfold Serder.werfers; rw [h]
      have htx : witnessThreshold E y = witnessThreshold E x := by unfold witnessThreshold; rw [h]
      rw [hw] at a1 hwx
      rw [ht] at a2 htx
      rw [hwx] at b1
      rw [htx] at b2
      obtain rfl := Res.ok.inj a1
      obtain rfl := Res.ok.inj b1
      obtain rfl := Res.ok.inj a2
      obtain rfl := Res.ok.inj b2
      obtain ⟨p, p1, p2⟩ := follows_prior (fa.resolve_left (by simp))
      obtain ⟨p', p3, p4⟩ := follows_prior (fb.resolve_left (by simp))
      have hee : e.said E = e'.said E := by
        obtain ⟨_, ⟨_, r1⟩, _⟩ := received_at (la := la ++ [a]) (by rw [List.append_assoc]; exact hx) (by rw [List.append_assoc]; exact lx)
        obtain ⟨_, ⟨_, r2⟩, _⟩ := received_at (la := lb ++ [b]) (by rw [List.append_assoc]; exact hy) (by rw [List.append_assoc]; exact ly)
        simp only [List.map_cons, List.cons.injEq] at hc
        unfold Sadder.said
        rw [same_saider r1 r2 hc.1]
      obtain rfl : p = p' := Res.ok.inj (p1.symm.trans (hee.trans p3))
      refine ⟨la, a, e, ca, lb, b, e', cb, p, e1, e2, hc, hne, p1, p2, p3, p4, ?_⟩
      have inj : ∀ {W : Finset Nat} {P : Matter → Prop}, (∀ i ∈ W, ∃ k, named[i]? = some k ∧ P k) → ∃ V : Finset (Fin named.length), V.card = W.card ∧ ∀ i ∈ V, i.val ∈ W := by
        intro W P hW
        have hlt : ∀ i ∈ W, i < named.length := fun i hi => by
          obtain ⟨k, hk, _⟩ := hW i hi
          exact (List.getElem?_eq_some_iff.mp hk).1
        refine ⟨W.attach.map ⟨fun i => (⟨i.val, hlt i.val i.property⟩ : Fin named.length), fun i j hij => Subtype.ext (by simpa using hij)⟩, by simp, ?_⟩
        intro i hi
        obtain ⟨j, _, rfl⟩ := Finset.mem_map.mp hi
        exact j.property
      obtain ⟨VA, va1, va2⟩ := inj a4
      obtain ⟨VB, vb1, vb2⟩ := inj b4
      have hcard := hag VA VB (by omega) (by omega)
      refine ⟨(VA ∩ VB).map Fin.valEmbedding, by rw [Finset.card_map]; exact hcard, fun i hi => ?_⟩
      obtain ⟨j, hj, rfl⟩ := Finset.mem_map.mp hi
      obtain ⟨j1, j2⟩ := Finset.mem_inter.mp hj
      obtain ⟨k, k1, k2⟩ := a4 _ (va2 j j1)
      obtain ⟨k', k3, k4⟩ := b4 _ (vb2 j j2)
      obtain rfl : k = k' := by
        have : named[(j : Nat)]? = some k' := k3
        have k1 : named[(j : Nat)]? = some k := k1
        rw [k1] at this
        exact Option.some.inj this
      exact ⟨k, k1, k2, k4⟩

theorem founded_asked {signers next ws : List Signer} {delegator : Option Str} (h : Founders E C signers next ws delegator) {s : Sadder} (hs : found E F H signers next ws delegator = .ok s) :
    Serder.werfers E s = .ok (ws.map (·.verfer)) ∧ witnessThreshold E s = .ok (witnessesNeeded ws.length) := by
  obtain ⟨keys, ndigs, wits, s', hk, hw, _, _, hf, _, hi⟩ := found_parts h F H
  obtain rfl := Res.ok.inj (hf.symm.trans hs)
  have b3 := h.fewWitnesses
  have lw := aligned_length hw.2
  refine ⟨(keys_of (C := C) hi).2 hw, ?_⟩
  obtain ⟨n, h1, hask⟩ := threshold_read hi (by rintro _ ⟨⟩) (show wits.length < 2 ^ 126 by omega)
  rw [h1]
  congr 1
  unfold witnessesNeeded
  by_cases h0 : ws.length = 0
  · rw [if_pos h0]
    exact hask.2.2 (List.length_eq_zero_iff.mp (lw.symm.trans h0))
  · rw [if_neg h0]
    have := hask.2.1 rfl (fun e => h0 (by rw [lw, show wits = [] from e]; rfl))
    rw [ample_default E (by show 1 ≤ wits.length; omega) (by show wits.length < 2 ^ 126; omega)] at this
    rw [← Res.ok.inj this, lw]
    rfl

theorem needed_agreement {n : Nat} (h : 1 ≤ n) : Agreement n ((n - 1) / 3) (witnessesNeeded n) := by
  unfold witnessesNeeded
  rw [if_neg (by omega)]
  exact agreement_of (by omega) (by omega)

/-- C121. The same for an identifier that was founded (C111) with at least one witness, n in all: if two receivers who know the founding event come to different histories, then more than (n - 1) / 3 of its witnesses have signed two
different events that name the same prior event. -/
theorem C121_consensus {signers next ws : List Signer} {delegator : Option Str} (hf : Founders E C signers next ws delegator) {s : Sadder} (hs : found E F H signers next ws delegator = .ok s)
    (hne : ws ≠ []) {n m : Nat} {bs cs : List UInt8} {xs ys : List Sadder} {x y : Sadder} {left left' : Str} (hx : receiveWitnessed E F H C n bs = .ok (xs ++ [x], left))
    (hy : receiveWitnessed E F H C m cs = .ok (ys ++ [y], left')) (ex : x.ked = s.ked) (ey : y.ked = s.ked) :
    (xs ++ [x]).map (·.ked) <:+ (ys ++ [y]).map (·.ked) ∨ (ys ++ [y]).map (·.ked) <:+ (xs ++ [x]).map (·.ked) ∨
    ∃ a ∈ xs, ∃ b ∈ ys, a.ked ≠ b.ked ∧ (∃ p, a.ked.index (lit "p") = .ok (.str p) ∧ b.ked.index (lit "p") = .ok (.str p)) ∧
      ∃ W : Finset Nat, (ws.length - 1) / 3 < W.card ∧ ∀ i ∈ W, ∃ g, ws[i]? = some g ∧ Attested E F H C g.verfer a bs ∧ Attested E F H C g.verfer b cs := by
  obtain ⟨h1, h2⟩ := founded_asked hf hs
  have hlen : 1 ≤ ws.length := List.length_pos_iff.mpr hne
  have e1 : Serder.werfers E x = .ok (ws.map (·.verfer)) := by rw [← h1]; unfold Serder.werfers; rw [ex]
  have e2 : witnessThreshold E x = .ok (witnessesNeeded ws.length) := by rw [← h2]; unfold witnessThreshold; rw [ex]
  rcases C121_agreement (f := (ws.length - 1) / 3) hx hy (ex.trans ey.symm) e1 e2 (by rw [List.length_map]; exact needed_agreement hlen) with h | h | ⟨la, a, e, ca, lb, b, e', cb, p, q1, q2, _, q4, _, q6, _, q8, W, q9, q10⟩
  · exact .inl h
  · exact .inr (.inl h)
  · have mem : ∀ {zs : List Sadder} {z c d : Sadder} {l r : List Sadder}, zs ++ [z] = l ++ c :: d :: r → c ∈ zs := by
      intro zs z c d l r h
      rw [← List.dropLast_concat (l₁ := zs) (b := z), h, List.dropLast_append_of_ne_nil (by simp)]
      simp
    refine .inr (.inr ⟨a, mem q1, b, mem q2, q4, ⟨p, q6, q8⟩, W, q9, fun i hi => ?_⟩)
    obtain ⟨k, k1, k2⟩ := q10 i hi
    rw [List.getElem?_map, Option.map_eq_some_iff] at k1
    obtain ⟨g, hg, rfl⟩ := k1
    exact ⟨g, hg, k2⟩

/-- C121. So if at most (n - 1) / 3 of the n witnesses are faulty and the others never sign two different events that name the same prior event, all receivers agree, as far as each has come. -/
theorem C121_safe {signers next ws : List Signer} {delegator : Option Str} (hf : Founders E C signers next ws delegator) {s : Sadder} (hs : found E F H signers next ws delegator = .ok s)
    (hne : ws ≠ []) {n m : Nat} {bs cs : List UInt8} {xs ys : List Sadder} {x y : Sadder} {left left' : Str} (hx : receiveWitnessed E F H C n bs = .ok (xs ++ [x], left))
    (hy : receiveWitnessed E F H C m cs = .ok (ys ++ [y], left')) (ex : x.ked = s.ked) (ey : y.ked = s.ked) {faulty : Finset Nat} (hfew : faulty.card ≤ (ws.length - 1) / 3)
    (honest : ∀ i ∉ faulty, ∀ g, ws[i]? = some g → ∀ a b p, Attested E F H C g.verfer a bs → Attested E F H C g.verfer b cs →
      a.ked.index (lit "p") = .ok (.str p) → b.ked.index (lit "p") = .ok (.str p) → a.ked = b.ked) :
    (xs ++ [x]).map (·.ked) <:+ (ys ++ [y]).map (·.ked) ∨ (ys ++ [y]).map (·.ked) <:+ (xs ++ [x]).map (·.ked) := by
  rcases C121_consensus hf hs hne hx hy ex ey with h | h | ⟨a, _, b, _, hab, ⟨p, h1, h2⟩, W, hW, hall⟩
  · exact .inl h
  · exact .inr h
  · exfalso
    have : ∃ i ∈ W, i ∉ faulty := by
      by_contra hno
      have : W ⊆ faulty := fun i hi => by
        by_contra h
        exact hno ⟨i, hi, h⟩
      have := Finset.card_le_card this
      omega
    obtain ⟨i, hi, hni⟩ := this
    obtain ⟨g, hg, ga, gb⟩ := hall i hi
    exact hab (honest i hni g hg a b p ga gb h1 h2)

end Builder
end Cesride
