import Verif.Props.LifeIxn

/-! # Properties C112 and C115: an identifier lives on

Whole lives: an identifier is founded, and then rotated any number of times, each time by the signers that were committed to, with any number of interactions in between. A receiver reads all messages from one stream. -/

namespace Cesride
namespace Builder
open Common Spec Tholder R32

variable {E : Env} {F : Str → Option Str} {H : Hash} {C : Crypto}

/-- A life of an identifier: its events, the latest first, the signers whose keys are in force, the signers that are committed to, and the stream of all messages.
Each event is signed by at least half of its signers: a rotation by those that were committed to, an interaction by those in force. -/
inductive Life (E : Env) (F : Str → Option Str) (H : Hash) (C : Crypto) : List Sadder → List Signer → List Signer → Str → Prop
  | founded {signers next witnesses : List Signer} {delegator : Option Str} {s : Sadder} {rnd : Nat → Nat} {positions : List Nat} {m : Str}
      (hf : Founders E C signers next witnesses delegator) (hs : found E F H signers next witnesses delegator = .ok s)
      (hp : ∀ i ∈ positions, i < signers.length) (hl : positions.length ≤ 4095) (he : signers.length ≤ 2 * positions.toFinset.card)
      (hm : announce E C rnd signers s positions = .ok m) : Life E F H C [s] signers next m
  | rotated {e : Sadder} {earlier : List Sadder} {now signers next : List Signer} {stream : Str} {s : Sadder} {rnd : Nat → Nat} {positions : List Nat} {m : Str}
      (before : Life E F H C (e :: earlier) now signers stream) (hne : signers ≠ []) (hf : Successors E C signers next) (hlong : (e :: earlier).length < 2 ^ 128)
      (hs : rotate E F H (e :: earlier) signers next = .ok s)
      (hp : ∀ i ∈ positions, i < signers.length) (hl : positions.length ≤ 4095) (he : signers.length ≤ 2 * positions.toFinset.card)
      (hm : announceRotation E C rnd signers s positions = .ok m) : Life E F H C (s :: e :: earlier) signers next (stream ++ m)
  | anchored {e : Sadder} {earlier : List Sadder} {signers next : List Signer} {stream : Str} {data : List Value} {s : Sadder} {rnd : Nat → Nat} {positions : List Nat} {m : Str}
      (before : Life E F H C (e :: earlier) signers next stream) (hd : Anchors F data) (hlong : (e :: earlier).length < 2 ^ 128)
      (hs : interact E F H e data = .ok s)
      (hp : ∀ i ∈ positions, i < signers.length) (hl : positions.length ≤ 4095) (he : signers.length ≤ 2 * positions.toFinset.card)
      (hm : announce E C rnd signers s positions = .ok m) : Life E F H C (s :: e :: earlier) signers next (stream ++ m)

/-- A receiver that has a history takes one more message: a rotation is judged as in C93, another event as in C103. The event, and the text that follows. -/
def receiveNext (E : Env) (F : Str → Option Str) (H : Hash) (C : Crypto) (history : List Sadder) (stream : List UInt8) : Res (Sadder × Str) := do
  let e ← Serder.newWithRaw E F H stream
  if ← Serder.est e then do
    let r ← acceptRotation E F H C history stream
    .ok (r.event, r.left)
  else admitFront E F H C history stream

/-- A receiver: an inception message, whose identifier must belong to it and which must be signed by enough of its keys, and then some more messages; the events, the latest first, and the text that follows. -/
def receive (E : Env) (F : Str → Option Str) (H : Hash) (C : Crypto) : Nat → List UInt8 → Res (List Sadder × Str)
  | 0, stream => do
    let a ← acceptInception E F H C stream
    if a.identified && a.signed then .ok ([a.event], a.left) else .err .validation
  | n + 1, stream => do
    let (history, rest) ← receive E F H C n stream
    let (e, left) ← receiveNext E F H C history rest
    .ok (e :: history, left)

/-! ## Proofs -/

/-- The message of a founded identifier, without receipts. -/
theorem announced {signers next ws : List Signer} {delegator : Option Str} (h : Founders E C signers next ws delegator) {s : Sadder} (hfs : found E F H signers next ws delegator = .ok s)
    {rnd : Nat → Nat} {positions : List Nat} (hp : ∀ i ∈ positions, i < signers.length) (hl : positions.length ≤ 4095) :
    ∃ im, announce E C rnd signers s positions = .ok im ∧ utf8Valid im = true ∧ ∀ left, utf8Valid left = true → left.head? ≠ some (ch '-') →
      ∃ a, acceptInception E F H C (im ++ left) = .ok a ∧ a.event = s ∧ a.identified = true ∧ (a.signed = true ↔ signers.length ≤ 2 * positions.toFinset.card) ∧ a.left = left := by
  obtain ⟨keys, ndigs, wits, s', hk, hkw, hn, sn, hf, hsl, hs⟩ := found_parts h F H
  obtain rfl := Res.ok.inj (hf.symm.trans hfs)
  have lk := aligned_length hk.2
  have lw := aligned_length hkw.2
  have b1 := h.fewSigners
  have b3 := h.fewWitnesses
  obtain ⟨sigs, hsigs, hby, hpos⟩ := signs_total hk.1 b1 s'.raw rnd hp
  have ls : sigs.length = positions.length := by rw [← hpos, List.length_map]
  have hu : ∀ t ∈ (some ndigs).getD [] ++ (none : Option (List Str)).getD [] ++ delegator.toList, utf8Valid t = true := by
    intro t ht
    simp only [Option.getD_some, Option.getD_none, List.append_nil, List.mem_append, Option.mem_toList] at ht
    rcases ht with ht | ht
    · exact utf8Valid_ascii (sn t ht).2.2
    · exact (h.named t ht).1
  have uk : ∀ t ∈ keys ++ (some ndigs).getD [] ++ (some wits).getD [] ++ (none : Option (List Str)).getD [] ++ delegator.toList, utf8Valid t = true := by
    intro t htt
    simp only [List.mem_append] at htt hu
    rcases htt with (((htt | htt) | htt) | htt) | htt
    · obtain ⟨_, _, _, _, ha⟩ := keys_read hk t htt; exact utf8Valid_ascii ha
    · exact hu t (.inl (.inl htt))
    · obtain ⟨_, _, _, _, ha⟩ := keys_read hkw t htt; exact utf8Valid_ascii ha
    · exact hu t (.inl (.inr htt))
    · exact hu t (.inr htt)
  have hdata : ∀ v ∈ (none : Option (List Value)).getD [], Ordinary F 125 v := fun v hv => by cases hv
  have us : utf8Valid s'.raw = true := by
    have := C110_reads hs uk hdata (by omega) [] rfl
    rw [List.append_nil] at this
    exact read_utf8 this
  obtain ⟨im, him⟩ := (C109_written (E := E) (s := s') (sigers := some sigs) (sealed := none) (wigers := none) (cigars := none) us
    (by rintro _ ⟨⟩; exact ⟨signed_genuine hk.1 hby, by omega⟩) (by rintro _ ⟨⟩) (by rintro _ ⟨⟩)).1.mpr
    ⟨by simp, by rintro _ ⟨⟩; exact ⟨by omega, by rintro _ ⟨⟩⟩, by rintro _ ⟨⟩⟩
  obtain ⟨_, _, hut⟩ := message_text (sigers := some sigs) (sealed := none) (wigers := none) (by rintro _ ⟨⟩; exact ⟨signed_genuine hk.1 hby, by omega⟩) (by rintro _ ⟨⟩) (by rintro _ ⟨⟩) him
  refine ⟨im, by unfold announce; rw [hsigs, Res.ok_bind]; exact him, hut, fun left hleft hhead => ?_⟩
  obtain ⟨th, n, h1, _, hask, h3⟩ := C110_accepted hs hu hdata (by omega) (by rintro _ ⟨⟩) hk hkw (.inr (.inl ⟨_, by decide +kernel, rfl⟩)) (wigs := none) hby (by intro y hy; cases hy) (by omega) (by simp)
    (show wits.length < 2 ^ 126 by omega) him
  obtain ⟨th', t1, t2, _⟩ := C110_enough hs
  obtain rfl : th' = th := by rw [h1] at t1; cases t1; rfl
  have hnum : th'.num = .ok (some ((keys.length + 1) / 2)) := by
    obtain ⟨t, _, u1, _, _, u3, _⟩ := C108_thresholds hs
    obtain rfl : th' = t := by rw [h1] at u1; cases u1; rfl
    exact u3 rfl
  have hsat := (t2 _ hnum).2.2 (sigs.map (·.indexer.index)).dedup (List.nodup_dedup _)
  refine ⟨_, h3 _ hsat left hleft hhead, rfl, rfl, ?_, rfl⟩
  rw [decide_eq_true_iff, hpos, List.card_toFinset, lk]
  omega

/-- What holds of every life. -/
theorem life_head {history : List Sadder} {now signers : List Signer} {stream : Str} (h : Life E F H C history now signers stream) :
    ∃ e earlier i, history = e :: earlier ∧ Head E F H C e earlier i now signers ∧ (∀ x ∈ history, Serder.pre x = .ok i) := by
  induction h with
  | founded hf hs hp hl he hm =>
    obtain ⟨i, hi, hst⟩ := founded_head hf hs
    exact ⟨_, [], i, rfl, ⟨hi, [], _, [], rfl, by simp, hst⟩, fun x hx => by cases hx with | head => exact hi.pre | tail _ hx => cases hx⟩
  | @rotated e earlier now signers next stream s rnd positions m before hne hf hlong hs hp hl he hm ih =>
    obtain ⟨e', earlier', i, heq, hi, hall⟩ := ih
    injection heq with h1 h2
    subst h1
    subst h2
    obtain ⟨s', hr, hh, _⟩ := rotation_judged hi hf hlong hne
    obtain rfl := Res.ok.inj (hr.symm.trans hs)
    refine ⟨_, _, i, rfl, hh, fun x hx => ?_⟩
    cases hx with
    | head => exact hh.latest.pre
    | tail _ hx => exact hall x hx
  | @anchored e earlier signers next stream data s rnd positions m before hd hlong hs hp hl he hm ih =>
    obtain ⟨e', earlier', i, heq, hi, hall⟩ := ih
    injection heq with h1 h2
    subst h1
    subst h2
    obtain ⟨s', hr, hh, _⟩ := interaction_judged hi hd hlong
    obtain rfl := Res.ok.inj (hr.symm.trans hs)
    refine ⟨_, _, i, rfl, hh, fun x hx => ?_⟩
    cases hx with
    | head => exact hh.latest.pre
    | tail _ hx => exact hall x hx

/-- C112. The signers that are committed to can always rotate. The rotation has the identifier of all events before, the next number, and the SAID of the latest event as its prior.
Whichever of them sign, the message can be written, and it is accepted exactly if they are at least half of them; otherwise it is refused. If it is accepted, the life goes on. -/
theorem C112_rotates {e : Sadder} {earlier : List Sadder} {now signers next : List Signer} {stream : Str} (h : Life E F H C (e :: earlier) now signers stream) (hne : signers ≠ [])
    (hs : Successors E C signers next) (hlong : (e :: earlier).length < 2 ^ 128) :
    ∃ s i p, rotate E F H (e :: earlier) signers next = .ok s ∧ (∀ x ∈ s :: e :: earlier, Serder.pre x = .ok i) ∧ Serder.sn E s = .ok (e :: earlier).length ∧
      e.said E = .ok p ∧ s.ked.index (lit "p") = .ok (.str p) ∧
      ∀ rnd positions, (∀ j ∈ positions, j < signers.length) → positions.length ≤ 4095 → ∃ m, announceRotation E C rnd signers s positions = .ok m ∧
        (∀ left, utf8Valid left = true → acceptRotation E F H C (e :: earlier) (m ++ left) =
          if signers.length ≤ 2 * positions.toFinset.card then .ok { event := s, signers := positions.dedup, opened := positions.dedup, left := left } else .err .validation) ∧
        (signers.length ≤ 2 * positions.toFinset.card → Life E F H C (s :: e :: earlier) signers next (stream ++ m)) := by
  obtain ⟨e', earlier', i, heq, hi, hall⟩ := life_head h
  injection heq with h1 h2
  subst h1
  subst h2
  obtain ⟨s, hr, hh, _, ⟨p, hp, hsp⟩, hj⟩ := rotation_judged hi hs hlong hne
  refine ⟨s, i, p, hr, fun x hx => ?_, hh.latest.sn, hp, hsp, fun rnd positions hpos hl => ?_⟩
  · cases hx with
    | head => exact hh.latest.pre
    | tail _ hx => exact hall x hx
  · obtain ⟨m, hm, _, _, hacc⟩ := hj rnd positions hpos hl
    exact ⟨m, hm, fun left hleft => (hacc left hleft).2, fun hen => .rotated h hne hs hlong hr hpos hl hen hm⟩

/-- C112. Whoever founds an identifier starts a life. -/
theorem C112_starts {signers next ws : List Signer} {delegator : Option Str} (h : Founders E C signers next ws delegator) (F : Str → Option Str) (H : Hash) (rnd : Nat → Nat) {positions : List Nat}
    (hp : ∀ i ∈ positions, i < signers.length) (hl : positions.length ≤ 4095) (he : signers.length ≤ 2 * positions.toFinset.card) :
    ∃ s m, found E F H signers next ws delegator = .ok s ∧ announce E C rnd signers s positions = .ok m ∧ Life E F H C [s] signers next m := by
  obtain ⟨_, _, _, s, _, _, _, _, hf, _⟩ := found_parts h F H
  obtain ⟨im, him, _⟩ := announced h hf (rnd := rnd) hp hl
  exact ⟨s, im, hf, him, .founded h hf hp hl he him⟩

/-- C115. The signers in force can always anchor data. The event has the identifier of all events before, the next number, the SAID of the latest event as its prior and the data as they were given.
Whichever of them sign, the message can be written, and it is accepted exactly if they are at least half of them; otherwise it is refused. If it is accepted, the life goes on, with the same signers
in force and the same ones committed to. -/
theorem C115_anchors {e : Sadder} {earlier : List Sadder} {signers next : List Signer} {stream : Str} (h : Life E F H C (e :: earlier) signers next stream) {data : List Value} (hd : Anchors F data)
    (hlong : (e :: earlier).length < 2 ^ 128) :
    ∃ s i p, interact E F H e data = .ok s ∧ (∀ x ∈ s :: e :: earlier, Serder.pre x = .ok i) ∧ Serder.sn E s = .ok (e :: earlier).length ∧
      e.said E = .ok p ∧ s.ked.index (lit "p") = .ok (.str p) ∧ s.ked.index (lit "a") = .ok (.arr data) ∧ s.ked.index (lit "t") = .ok (.str (lit "ixn")) ∧
      ∀ rnd positions, (∀ j ∈ positions, j < signers.length) → positions.length ≤ 4095 → ∃ m, announce E C rnd signers s positions = .ok m ∧
        (∀ left, utf8Valid left = true → admitFront E F H C (e :: earlier) (m ++ left) =
          if signers.length ≤ 2 * positions.toFinset.card then .ok (s, left) else .err .validation) ∧
        (signers.length ≤ 2 * positions.toFinset.card → Life E F H C (s :: e :: earlier) signers next (stream ++ m)) := by
  obtain ⟨e', earlier', i, heq, hi, hall⟩ := life_head h
  injection heq with h1 h2
  subst h1
  subst h2
  obtain ⟨s, hr, hh, _, ⟨p, hp, hsp⟩, ha, hj⟩ := interaction_judged hi hd hlong
  obtain ⟨s', _, _, _, hr', _, _, _, hked, _⟩ := interact_total (F := F) (H := H) hi.latest hd hlong
  obtain rfl := Res.ok.inj (hr'.symm.trans hr)
  refine ⟨s', i, p, hr, fun x hx => ?_, hh.latest.sn, hp, hsp, ha, by rw [hked]; rfl, fun rnd positions hpos hl => ?_⟩
  · cases hx with
    | head => exact hh.latest.pre
    | tail _ hx => exact hall x hx
  · obtain ⟨m, hm, _, _, hacc⟩ := hj rnd positions hpos hl
    exact ⟨m, hm, fun left hleft => (hacc left hleft).2, fun hen => .anchored h hd hlong hr hpos hl hen hm⟩

theorem life_stream {history : List Sadder} {now signers : List Signer} {stream : Str} (h : Life E F H C history now signers stream) :
    utf8Valid stream = true ∧ ∀ left, utf8Valid left = true → left.head? ≠ some (ch '-') → receive E F H C (history.length - 1) (stream ++ left) = .ok (history, left) := by
  induction h with
  | founded hf hs hp hl he hm =>
    obtain ⟨im, him, hu, hacc⟩ := announced hf hs hp hl
    obtain rfl := Res.ok.inj (him.symm.trans hm)
    refine ⟨hu, fun left hleft hhead => ?_⟩
    obtain ⟨a, ha, h1, h2, h3, h4⟩ := hacc left hleft hhead
    show receive E F H C 0 _ = _
    rw [receive, ha, Res.ok_bind, h2, h3.mpr he, h1, h4]
    rfl
  | @rotated e earlier now signers next stream s rnd positions m before hne hf hlong hs hp hl he hm ih =>
    obtain ⟨e', earlier', i, heq, hi, hall⟩ := life_head before
    injection heq with h1 h2
    subst h1
    subst h2
    obtain ⟨s', hr, hh, hest, _, hj⟩ := rotation_judged hi hf hlong hne
    obtain rfl := Res.ok.inj (hr.symm.trans hs)
    obtain ⟨m', hm', hu, hhd, hacc⟩ := hj rnd positions hp hl
    obtain rfl := Res.ok.inj (hm'.symm.trans hm)
    refine ⟨by rw [utf8Valid_append ih.1]; exact hu, fun left hleft hhead => ?_⟩
    show receive E F H C (earlier.length + 1) _ = _
    have hne' : m' ≠ [] := by rintro rfl; cases hhd
    have := ih.2 (m' ++ left) (by rw [utf8Valid_append hu]; exact hleft) (by
      rw [List.head?_append_of_ne_nil _ hne', hhd]; decide)
    have this : receive E F H C earlier.length (stream ++ (m' ++ left)) = .ok (e :: earlier, m' ++ left) := this
    rw [receive, List.append_assoc, this, Res.ok_bind]
    dsimp only
    rw [receiveNext, (hacc left hleft).1, Res.ok_bind, hest, Res.ok_bind, if_pos rfl, (hacc left hleft).2, if_pos he, Res.ok_bind, Res.ok_bind]
  | @anchored e earlier signers next stream data s rnd positions m before hd hlong hs hp hl he hm ih =>
    obtain ⟨e', earlier', i, heq, hi, hall⟩ := life_head before
    injection heq with h1 h2
    subst h1
    subst h2
    obtain ⟨s', hr, hh, hest, _, _, hj⟩ := interaction_judged hi hd hlong
    obtain rfl := Res.ok.inj (hr.symm.trans hs)
    obtain ⟨m', hm', hu, hhd, hacc⟩ := hj rnd positions hp hl
    obtain rfl := Res.ok.inj (hm'.symm.trans hm)
    refine ⟨by rw [utf8Valid_append ih.1]; exact hu, fun left hleft hhead => ?_⟩
    show receive E F H C (earlier.length + 1) _ = _
    have hne' : m' ≠ [] := by rintro rfl; cases hhd
    have := ih.2 (m' ++ left) (by rw [utf8Valid_append hu]; exact hleft) (by
      rw [List.head?_append_of_ne_nil _ hne', hhd]; decide)
    have this : receive E F H C earlier.length (stream ++ (m' ++ left)) = .ok (e :: earlier, m' ++ left) := this
    rw [receive, List.append_assoc, this, Res.ok_bind]
    dsimp only
    rw [receiveNext, (hacc left hleft).1, Res.ok_bind, hest, Res.ok_bind, if_neg (by simp), (hacc left hleft).2, if_pos he, Res.ok_bind]

/-- C112, C115. A receiver that knows nothing but the stream gets the whole history back, and the text that follows. -/
theorem C112_replay {history : List Sadder} {now signers : List Signer} {stream : Str} (h : Life E F H C history now signers stream) {left : Str} (hleft : utf8Valid left = true)
    (hhead : left.head? ≠ some (ch '-')) : receive E F H C (history.length - 1) (stream ++ left) = .ok (history, left) :=
  (life_stream h).2 left hleft hhead

theorem nextThreshold_of {e : Sadder} {earlier : List Sadder} (h2 : Serder.est e = .ok true) {t : Option Tholder} (ht : Serder.ntholder E F e = .ok t) :
    ∀ {later : List Sadder}, (∀ l ∈ later, Serder.est l = .ok false) → nextThreshold E F (later ++ e :: earlier) = .ok t
  | [], _ => by rw [List.nil_append, nextThreshold, h2, Res.ok_bind, if_pos rfl, ht]
  | l :: later, h1 => by
    rw [List.cons_append, nextThreshold, h1 l (by simp), Res.ok_bind, if_neg (by simp)]
    exact nextThreshold_of h2 ht (fun m hm => h1 m (by simp [hm]))

/-- C112. If nobody is committed to, the identifier is abandoned: no bytes at all are accepted as a rotation. -/
theorem C112_abandoned {history : List Sadder} {now : List Signer} {stream : Str} (h : Life E F H C history now [] stream) (bytes : List UInt8) (r : Rotation) :
    acceptRotation E F H C history bytes ≠ .ok r := by
  obtain ⟨e, earlier, i, rfl, hi, _⟩ := life_head h
  obtain ⟨later, est, before, hsplit, hlater, hstand⟩ := hi.stands
  obtain ⟨t, ht, hn, v, hv⟩ := hstand.nthold
  have hnt := nextThreshold_of (E := E) (F := F) (earlier := before) (stands_est hstand) ht hlater
  rw [← hsplit] at hnt
  intro hr
  unfold acceptRotation at hr
  obtain ⟨x, _, hr⟩ := Res.bind_eq_ok.mp hr
  obtain ⟨g, _, hr⟩ := Res.bind_eq_ok.mp hr
  obtain ⟨l, _, hr⟩ := Res.bind_eq_ok.mp hr
  obtain ⟨⟨sigs, rest⟩, _, hr⟩ := Res.bind_eq_ok.mp hr
  obtain ⟨ks, _, hr⟩ := Res.bind_eq_ok.mp hr
  obtain ⟨cs, _, hr⟩ := Res.bind_eq_ok.mp hr
  obtain ⟨th, _, hr⟩ := Res.bind_eq_ok.mp hr
  obtain ⟨en, _, hr⟩ := Res.bind_eq_ok.mp hr
  obtain ⟨nt, hnt', hr⟩ := Res.bind_eq_ok.mp hr
  obtain ⟨al, hal, hr⟩ := Res.bind_eq_ok.mp hr
  obtain rfl := Res.ok.inj (hnt.symm.trans hnt')
  unfold reaches at hal
  dsimp only at hal
  rw [C34_distinct_indices hv hn E (List.nodup_dedup _)] at hal
  cases hal
  simp at hr

/-! ## Example -/

theorem example_successors : Successors Env.debug toy [signerB] [signerA, signerB] where
  made := by
    intro g hg
    refine example_made g ?_
    simp only [List.mem_append, List.mem_cons, List.not_mem_nil, or_false] at hg ⊢
    rcases hg with rfl | rfl | rfl <;> simp
  fewSigners := by simp
  fewNext := by simp

theorem example_successors' : Successors Env.debug toy [signerA, signerB] [] where
  made := by
    intro g hg
    refine example_made g ?_
    simpa using hg
  fewSigners := by simp
  fewNext := by simp

/-- A life with two rotations, the second of which abandons the identifier. -/
theorem C112_example : ∃ history stream, history.length = 3 ∧ Life Env.debug (fun _ => none) zeroHash toy history [signerA, signerB] [] stream := by
  obtain ⟨s, m, _, _, h0⟩ := C112_starts C111_example (fun _ => none) zeroHash (fun _ => 5) (positions := [0]) (by simp) (by simp) (by simp)
  obtain ⟨s1, _, _, _, _, _, _, _, h1⟩ := C112_rotates h0 (by simp) example_successors (by simp)
  obtain ⟨m1, _, _, h1⟩ := h1 (fun _ => 6) [0] (by simp) (by simp)
  have h1 := h1 (by simp)
  obtain ⟨s2, _, _, _, _, _, _, _, h2⟩ := C112_rotates h1 (by simp) example_successors' (by simp)
  obtain ⟨m2, _, _, h2⟩ := h2 (fun _ => 7) [1] (by simp) (by simp)
  exact ⟨_, _, rfl, h2 (by simp)⟩

theorem example_anchors : Anchors (fun _ => none) [.obj [(lit "i", .str (lit "x")), (lit "s", .int 5)], .null] where
  ordinary := by
    intro v hv
    simp only [List.mem_cons, List.not_mem_nil, or_false] at hv
    rcases hv with rfl | rfl
    · exact ⟨by simp [Plain, PlainFields, lit], floatsRead_of_noFloats _ (by decide +kernel), by simp [Utf8Value, Utf8Fields]; decide +kernel, by decide +kernel⟩
    · exact ⟨by simp [Plain], floatsRead_of_noFloats _ (by decide +kernel), by simp [Utf8Value], by decide +kernel⟩
  small := by decide +kernel

/-- A life with an interaction, a rotation and another interaction, and a rotation that is still possible. -/
theorem C115_example : ∃ history stream, history.length = 4 ∧ Life Env.debug (fun _ => none) zeroHash toy history [signerB] [signerA, signerB] stream := by
  obtain ⟨s, m, _, _, h0⟩ := C112_starts C111_example (fun _ => none) zeroHash (fun _ => 5) (positions := [0]) (by simp) (by simp) (by simp)
  obtain ⟨s1, _, _, _, _, _, _, _, _, _, h1⟩ := C115_anchors h0 example_anchors (by simp)
  obtain ⟨m1, _, _, h1⟩ := h1 (fun _ => 6) [0] (by simp) (by simp)
  have h1 := h1 (by simp)
  obtain ⟨s2, _, _, _, _, _, _, _, h2⟩ := C112_rotates h1 (by simp) example_successors (by simp)
  obtain ⟨m2, _, _, h2⟩ := h2 (fun _ => 7) [0] (by simp) (by simp)
  have h2 := h2 (by simp)
  obtain ⟨s3, _, _, _, _, _, _, _, _, _, h3⟩ := C115_anchors h2 example_anchors (by simp)
  obtain ⟨m3, _, _, h3⟩ := h3 (fun _ => 8) [0] (by simp) (by simp)
  exact ⟨_, _, rfl, h3 (by simp)⟩

end Builder
end Cesride
