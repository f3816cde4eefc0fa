import Verif.Props.Life4

/-! # Property C116: nobody else can rotate or anchor

What any byte stream must contain to be accepted as the next event of a life (C112, C115), whoever has made it. -/

namespace Cesride
namespace Builder
open Common Spec Tholder R32

variable {E : Env} {F : Str → Option Str} {H : Hash} {C : Crypto}

/-- Behind the bytes of an event stands, somewhere in the stream, a signature over these bytes that verifies under the key of a signer. -/
def Voted (E : Env) (C : Crypto) (g : Signer) (event : Sadder) (stream : List UInt8) : Prop :=
  ∃ (y : Siger) (u v : List UInt8), stream = event.raw ++ (u ++ v) ∧ Siger.newWithQb64 E v none = .ok y ∧ Verfer.verify C g.verfer y.indexer.raw event.raw = .ok true

/-- Another text has the same digest as the key of a signer. -/
def KeyCollides (E : Env) (H : Hash) (g : Signer) : Prop :=
  ∃ (code t t' : Str), g.verfer.qb64 E = .ok t ∧ t' ≠ t ∧ H.digest code t' = H.digest code t

theorem follows_prior {e s : Sadder} {earlier : List Sadder} (h : follows E (e :: earlier) s = .ok true) : ∃ p, e.said E = .ok p ∧ s.ked.index (lit "p") = .ok (.str p) := by
  unfold follows at h
  obtain ⟨map, _, h⟩ := Res.bind_eq_ok.mp h
  dsimp only at h
  split at h
  · obtain ⟨said, hs, h⟩ := Res.bind_eq_ok.mp h
    obtain ⟨v, hv, h⟩ := Res.bind_eq_ok.mp h
    obtain ⟨t, ht, h⟩ := Res.bind_eq_ok.mp h
    have h := of_decide_eq_true (Res.ok.inj h)
    subst h
    obtain rfl := Sadder.toStr_ok.mp ht
    exact ⟨t, hs, hv⟩
  · cases h

theorem half_reached {t : Tholder} {v : Value} {k : Nat} (h1 : Tholder.new E F none none (some v) = .ok t) (h2 : t.num = .ok (some ((k + 1) / 2))) {positions : List Nat}
    (hn : positions.Nodup) (h : t.satisfy E positions = .ok true) : 0 < positions.length ∧ k ≤ 2 * positions.length := by
  rw [C34_distinct_indices h1 h2 E hn, List.toFinset_card_of_nodup hn] at h
  have h := Res.ok.inj h
  simp only [decide_eq_true_eq] at h
  omega

/-- A key that is read from an event and shows the same text as that of a signer is the key of the signer. -/
theorem same_key {s : Sadder} {ks : List Matter} (hks : Serder.verfers E s = .ok ks) {k : Matter} (hk : k ∈ ks) {g : Signer} (hg : MadeSigner E C g) {t : Str} (h1 : k.qb64b E = .ok t)
    (h2 : Matter.qb64b E g.verfer = .ok t) : k = g.verfer := by
  obtain ⟨t', h3, _, h4, _⟩ := key_total hg
  obtain rfl : t' = t := Res.ok.inj ((show Matter.qb64b E g.verfer = .ok t' from h3).symm.trans h2)
  have : ∃ t0, Matter.exfil t0 = .ok k := by
    cases hked : s.ked.toMap with
    | ok o =>
      have ho : s.ked = .obj o := by
        cases h : s.ked <;> rw [h] at hked <;> simp [Value.toMap] at hked
        subst hked; rfl
      by_cases ha : ∃ a, o.lookup (lit "k") = some (.arr a)
      · obtain ⟨a, ha⟩ := ha
        obtain ⟨_, _, t0, _, h5, _⟩ := aligned_mem (((C60_verfers ho).1 a ha ks).mp hks) k hk
        exact ⟨t0, h5⟩
      · rw [(C60_verfers ho).2 (fun a h => ha ⟨a, h⟩)] at hks
        cases hks
        cases hk
    | err _ => simp [Serder.verfers, hked] at hks
    | panic => simp [Serder.verfers, hked] at hks
  obtain ⟨t0, h5⟩ := this
  obtain ⟨z, w⟩ := Matter.exfil_wf (E := E) h5 h1
  have h6 := w.exfil (rest := []) rfl
  rw [List.append_nil] at h6
  have h7 : k.infil E = .ok t' := h1
  rw [w.infil E] at h7
  rw [Res.ok.inj h7] at h6
  exact Res.ok.inj (h6.symm.trans h4)

theorem admitFront_votes {history : List Sadder} {stream : List UInt8} {e : Sadder} {left : Str} (h : admitFront E F H C history stream = .ok (e, left)) :
    acceptEvent E F H history stream = .ok e ∧ ∃ keys th voters, authority E F (e :: history) = .ok (keys, some th) ∧ voters.Nodup ∧ th.satisfy E voters = .ok true ∧
      ∀ i ∈ voters, ∃ (k : Matter) (y : Siger) (u v : List UInt8), keys[i]? = some k ∧ stream = e.raw ++ (u ++ v) ∧ Siger.newWithQb64 E v none = .ok y ∧
        Verfer.verify C k y.indexer.raw e.raw = .ok true := by
  unfold admitFront at h
  obtain ⟨e', he, h⟩ := Res.bind_eq_ok.mp h
  obtain ⟨⟨sigs, l⟩, hs, h⟩ := Res.bind_eq_ok.mp h
  obtain ⟨⟨keys, th⟩, hk, h⟩ := Res.bind_eq_ok.mp h
  obtain ⟨enough, hen, h⟩ := Res.bind_eq_ok.mp h
  split at h
  · rename_i hb
    have := Res.ok.inj h
    simp only [Prod.mk.injEq] at this
    obtain ⟨rfl, rfl⟩ := this
    refine ⟨he, ?_⟩
    obtain ⟨_, hall⟩ := attachedSigs_sound (accept_ok.mp he).1 hs
    cases th with
    | none => cases hen; cases hb
    | some th =>
      refine ⟨keys, th, _, hk, List.nodup_dedup _, (show th.satisfy E _ = _ from hen).trans (by rw [hb]), ?_⟩
      intro i hi
      rw [List.mem_dedup, List.mem_map] at hi
      obtain ⟨y, hy, rfl⟩ := hi
      obtain ⟨hy, hv⟩ := List.mem_filter.mp hy
      obtain ⟨u, v, hu, hr⟩ := hall y hy
      unfold verifiesUnder at hv
      split at hv
      · rename_i k' hk'
        exact ⟨k', y, u, v, hk', hu, hr, by simpa using hv⟩
      · cases hv
  · cases h

/-- C116. Whatever bytes a receiver accepts as the next event of a life, their event carries the digest of its content and names the SAID of the latest event as its prior. If it sets keys, then of the
signers that were committed to at least half, and not none, have voted for exactly these bytes, or the digest has a collision with one of their keys; if it does not, then of the signers in force at
least half, and not none, have voted for them. -/
theorem C116_control {history : List Sadder} {now next : List Signer} {stream : Str} (h : Life E F H C history now next stream) {bytes : List UInt8} {s : Sadder} {left : Str}
    (hr : receiveNext E F H C history bytes = .ok (s, left)) :
    Saider.verify E H s.saider s.ked (some true) (some true) none none none = .ok true ∧
    (∃ e p, history.head? = some e ∧ e.said E = .ok p ∧ s.ked.index (lit "p") = .ok (.str p)) ∧
    ((Serder.est s = .ok true ∧ ∃ voters : List Nat, voters.Nodup ∧ 0 < voters.length ∧ next.length ≤ 2 * voters.length ∧
        ∀ j ∈ voters, ∃ g, next[j]? = some g ∧ (Voted E C g s bytes ∨ KeyCollides E H g)) ∨
     (Serder.est s = .ok false ∧ ∃ voters : List Nat, voters.Nodup ∧ 0 < voters.length ∧ now.length ≤ 2 * voters.length ∧
        ∀ j ∈ voters, ∃ g, now[j]? = some g ∧ Voted E C g s bytes)) := by
  obtain ⟨e, earlier, i, rfl, hi, _⟩ := life_head h
  obtain ⟨later, est, before, hsplit, hlater, hstand⟩ := hi.stands
  unfold receiveNext at hr
  obtain ⟨s', hs', hr⟩ := Res.bind_eq_ok.mp hr
  obtain ⟨b, hb, hr⟩ := Res.bind_eq_ok.mp hr
  cases b with
  | true =>
    rw [if_pos rfl] at hr
    obtain ⟨r, hacc, hr⟩ := Res.bind_eq_ok.mp hr
    have hr := Res.ok.inj hr
    simp only [Prod.mk.injEq] at hr
    obtain ⟨rfl, rfl⟩ := hr
    obtain ⟨h1, h2, h3, keys, commits, th, nt, witness, k1, k2, _, k4, _, _, _, k8, k9, _, k11, _⟩ := C93_sound hacc
    obtain rfl := Res.ok.inj (h1.symm.trans hs')
    obtain ⟨p, hp1, hp2⟩ := follows_prior h3
    refine ⟨h2, ⟨e, p, rfl, hp1, hp2⟩, .inl ⟨hb, r.opened, k8, ?_⟩⟩
    obtain ⟨t, ht, hn, v, hv⟩ := hstand.nthold
    obtain ⟨ds, hds, hal⟩ := hstand.commits
    have hnt := nextThreshold_of (E := E) (F := F) (earlier := before) (stands_est hstand) ht hlater
    rw [hsplit] at k2 k4
    obtain rfl : t = nt := by have := Res.ok.inj (hnt.symm.trans k4); injection this
    obtain rfl : ds = commits := Res.ok.inj (((commitments_of (H := H) (stands_est hstand) hlater).trans hds).symm.trans k2)
    obtain ⟨c1, c2⟩ := half_reached hv hn k8 k9
    refine ⟨c1, c2, fun j hj => ?_⟩
    obtain ⟨d, t, y, u, w, o1, o2, o3, o4, o5, o6, _, o8⟩ := k11 j hj
    obtain ⟨g, hg, tg, hq, hd⟩ : ∃ g, next[j]? = some g ∧ ∃ k, Matter.qb64b E g.verfer = .ok k ∧ H.digest d.code k = d.raw := by
      have := aligned_length hal
      have hlt : j < next.length := by have := (List.getElem?_eq_some_iff.mp o1).1; omega
      obtain ⟨d', hd', hk'⟩ := aligned_get hal (List.getElem?_eq_getElem hlt)
      obtain rfl : d' = d := Option.some.inj (hd'.symm.trans o1)
      exact ⟨_, List.getElem?_eq_getElem hlt, hk'⟩
    refine ⟨g, hg, ?_⟩
    by_cases htt : t = tg
    · subst htt
      have := same_key k1 (List.mem_of_getElem? o2) (hstand.madeNext g (List.mem_of_getElem? hg)) o3 hq
      rw [this] at o8
      exact .inl ⟨y, u, w, o5, o6, o8⟩
    · exact .inr ⟨d.code, tg, t, hq, htt, o4.trans hd.symm⟩
  | false =>
    rw [if_neg (by simp)] at hr
    obtain ⟨hacc, keys, th, voters, p3, v1, v2, v3⟩ := admitFront_votes hr
    obtain ⟨a1, a2, a3, _⟩ := accept_ok.mp hacc
    obtain rfl := Res.ok.inj (a1.symm.trans hs')
    obtain ⟨p, hp1, hp2⟩ := follows_prior a3
    refine ⟨a2, ⟨e, p, rfl, hp1, hp2⟩, .inr ⟨hb, voters, v1, ?_⟩⟩
    obtain ⟨t, ht, hn, v, hv⟩ := hstand.thold
    have hauth : authority E F (s :: e :: earlier) = .ok (now.map (·.verfer), some t) := by
      rw [hsplit, show s :: (later ++ est :: before) = (s :: later) ++ est :: before from rfl]
      refine authority_of (stands_est hstand) hstand.keys ht ?_
      intro l hl
      cases hl with
      | head => exact hb
      | tail _ hl => exact hlater l hl
    have hh := Res.ok.inj (hauth.symm.trans p3)
    simp only [Prod.mk.injEq, Option.some.injEq] at hh
    obtain ⟨rfl, rfl⟩ := hh
    obtain ⟨c1, c2⟩ := half_reached hv hn v1 v2
    refine ⟨c1, c2, fun j hj => ?_⟩
    obtain ⟨k, y, u, w, q1, q2, q3, q4⟩ := v3 j hj
    rw [List.getElem?_map, Option.map_eq_some_iff] at q1
    obtain ⟨g, hg, rfl⟩ := q1
    exact ⟨g, hg, y, u, w, q2, q3, q4⟩

/-! ## Example -/

/-- The premises are met in both cases: after the life of `C115_example`, a rotation and an interaction are accepted. -/
theorem C116_example : ∃ history stream, Life Env.debug (fun _ => none) zeroHash toy history [signerB] [signerA, signerB] stream ∧
    (∃ bytes s, receiveNext Env.debug (fun _ => none) zeroHash toy history bytes = .ok (s, []) ∧ Serder.est s = .ok true) ∧
    ∃ bytes s, receiveNext Env.debug (fun _ => none) zeroHash toy history bytes = .ok (s, []) ∧ Serder.est s = .ok false := by
  obtain ⟨history, stream, hlen, h⟩ := C115_example
  refine ⟨history, stream, h, ?_, ?_⟩
  · obtain ⟨e, earlier, i, rfl, hi, _⟩ := life_head h
    have hlen : earlier.length = 3 := by simpa using hlen
    obtain ⟨s, _, _, hest, _, hj⟩ := rotation_judged hi example_successors' (by rw [hlen]; decide) (by simp)
    obtain ⟨m, _, _, _, hacc⟩ := hj (fun _ => 9) [0] (by simp) (by simp)
    obtain ⟨h1, h2⟩ := hacc [] rfl
    refine ⟨m ++ [], s, ?_, hest⟩
    rw [receiveNext, h1, Res.ok_bind, hest, Res.ok_bind, if_pos rfl, h2, if_pos (by simp), Res.ok_bind]
  · obtain ⟨e, earlier, i, rfl, hi, _⟩ := life_head h
    have hlen : earlier.length = 3 := by simpa using hlen
    obtain ⟨s, _, _, hest, _, _, hj⟩ := interaction_judged hi example_anchors (by rw [hlen]; decide)
    obtain ⟨m, _, _, _, hacc⟩ := hj (fun _ => 9) [0] (by simp) (by simp)
    obtain ⟨h1, h2⟩ := hacc [] rfl
    refine ⟨m ++ [], s, ?_, hest⟩
    rw [receiveNext, h1, Res.ok_bind, hest, Res.ok_bind, if_neg (by simp), h2, if_pos (by simp)]

end Builder
end Cesride
