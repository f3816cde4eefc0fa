import Verif.Props.History

/-!
# Property C91: duplicity is evident

The client below replays a log of signed events: each event must be accepted as in C90 and carry enough signatures of the keys in force, which are
its own for an establishment event and otherwise those of the latest establishment event. Its loops are not library code; everything it calls is.
-/

namespace Cesride
open Spec

/-- The keys and the signing threshold in force after a history (latest event first). -/
def authority (E : Env) (F : Str → Option Str) : List Sadder → Res (List Matter × Option Tholder)
  | [] => .ok ([], none)
  | e :: earlier => do
    if ← Serder.est e then do
      let keys ← Serder.verfers E e
      let threshold ← Serder.tholder E F e
      .ok (keys, threshold)
    else authority E F earlier

/-- Accept one more signed event from the front of a stream: the event, a counter and as many indexed signatures. -/
def admitEvent (E : Env) (F : Str → Option Str) (H : Hash) (C : Crypto) (history : List Sadder) (stream : List UInt8) : Res Sadder := do
  let e ← acceptEvent E F H history stream
  let attached ← slice stream e.raw.length stream.length
  let text ← fromUtf8 attached
  let counter ← Counter.new E none none none none (some text) none
  let k ← counter.fullSize
  let text ← sliceStr text k text.length
  let (sigs, _) ← readSigs E counter.count text
  let (keys, threshold) ← authority E F (e :: history)
  let signers := ((sigs.filter (verifiesUnder C keys e.raw)).map (·.indexer.index)).dedup
  let enough ← (match threshold with
    | some t => t.satisfy E signers
    | none => .ok false : Res Bool)
  if enough then .ok e else .err .validation

/-- Accept signed events one after the other. -/
def admitAll (E : Env) (F : Str → Option Str) (H : Hash) (C : Crypto) : List Sadder → List (List UInt8) → Res (List Sadder)
  | history, [] => .ok history
  | history, b :: rest => do
    let e ← admitEvent E F H C history b
    admitAll E F H C (e :: history) rest

/-- Among the bytes are signatures over the event, each under the key at the position it names, of different keys that reach the threshold. -/
def Endorsed (E : Env) (C : Crypto) (keys : List Matter) (threshold : Tholder) (e : Sadder) (stream : List UInt8) : Prop :=
  ∃ signers : List Nat, signers.Nodup ∧ threshold.satisfy E signers = .ok true ∧
    ∀ i ∈ signers, ∃ (k : Matter) (y : Siger) (u v : List UInt8), keys[i]? = some k ∧ stream = e.raw ++ (u ++ v) ∧ Siger.newWithQb64 E v none = .ok y ∧
      y.indexer.index = i ∧ Verfer.verify C k y.indexer.raw e.raw = .ok true

theorem event_prefix {E : Env} {F : Str → Option Str} {H : Hash} {stream att : List UInt8} {e : Sadder} (hev : Serder.newWithRaw E F H stream = .ok e)
    (hatt : slice stream e.raw.length stream.length = .ok att) : stream = e.raw ++ att := by
  obtain ⟨size, o, m, hm, he⟩ := (C82_serder E F H none none stream none none e).mp hev
  have hraw : e.raw = stream.take e.raw.length := by
    rw [he]
    simp
  unfold slice at hatt
  split at hatt
  · have hatt := Res.ok.inj hatt
    rw [List.take_length] at hatt
    conv_lhs => rw [← List.take_append_drop e.raw.length stream, ← hraw, hatt]
  · cases hatt

/-- What admission means. -/
theorem admit_ok {E : Env} {F : Str → Option Str} {H : Hash} {C : Crypto} {history : List Sadder} {stream : List UInt8} {e : Sadder}
    (h : admitEvent E F H C history stream = .ok e) : acceptEvent E F H history stream = .ok e ∧
      ∃ keys th, authority E F (e :: history) = .ok (keys, some th) ∧ Endorsed E C keys th e stream := by
  unfold admitEvent at h
  obtain ⟨e', he, h⟩ := Res.bind_eq_ok.mp h
  obtain ⟨att, hatt, h⟩ := Res.bind_eq_ok.mp h
  obtain ⟨text, htext, h⟩ := Res.bind_eq_ok.mp h
  obtain ⟨counter, _, h⟩ := Res.bind_eq_ok.mp h
  obtain ⟨k, _, h⟩ := Res.bind_eq_ok.mp h
  obtain ⟨text2, ht2, h⟩ := Res.bind_eq_ok.mp h
  obtain ⟨⟨sigs, left⟩, hs, h⟩ := Res.bind_eq_ok.mp h
  obtain ⟨⟨keys, th⟩, hk, h⟩ := Res.bind_eq_ok.mp h
  obtain ⟨enough, hen, h⟩ := Res.bind_eq_ok.mp h
  split at h
  · rename_i hb
    have := Res.ok.inj h
    subst this
    refine ⟨he, ?_⟩
    cases th with
    | none => cases hen; cases hb
    | some th =>
      dsimp only at hen
      refine ⟨keys, th, hk, _, List.nodup_dedup _, hen.trans (by rw [hb]), ?_⟩
      have htext : text = att := by
        unfold fromUtf8 at htext
        split at htext
        · exact (Res.ok.inj htext).symm
        · cases htext
      subst htext
      have hpre := event_prefix (accept_ok.mp he).1 hatt
      obtain ⟨_, _, hall⟩ := readSigs_sound hs
      have h2 := sliceStr_to_end ht2
      intro i hi
      rw [List.mem_dedup, List.mem_map] at hi
      obtain ⟨y, hy, rfl⟩ := hi
      obtain ⟨hy, hv⟩ := List.mem_filter.mp hy
      obtain ⟨u, v, hu, hr⟩ := hall y hy
      unfold verifiesUnder at hv
      split at hv
      · rename_i k' hk'
        exact ⟨k', y, text.take k ++ u, v, hk', by rw [List.append_assoc, ← hu, ← h2, ← hpre], hr, rfl, by simpa using hv⟩
      · cases hv
  · cases h

/-- A history of signed events that some replay has admitted. -/
inductive Admitted (E : Env) (F : Str → Option Str) (H : Hash) (C : Crypto) : List Sadder → Prop
  | nil : Admitted E F H C []
  | cons {history bytes e} : Admitted E F H C history → admitEvent E F H C history bytes = .ok e → Admitted E F H C (e :: history)

theorem admitAll_admitted {E : Env} {F : Str → Option Str} {H : Hash} {C : Crypto} : ∀ {bs : List (List UInt8)} {history result : List Sadder},
    Admitted E F H C history → admitAll E F H C history bs = .ok result → Admitted E F H C result
  | [], _, _, ha, h => by rw [← Res.ok.inj h]; exact ha
  | _ :: _, _, _, ha, h => by
    obtain ⟨e, he, h⟩ := Res.bind_eq_ok.mp h
    exact admitAll_admitted (.cons ha he) h

theorem Admitted.accepted {E : Env} {F : Str → Option Str} {H : Hash} {C : Crypto} {history : List Sadder} (h : Admitted E F H C history) : Accepted E F H history := by
  induction h with
  | nil => exact .nil
  | cons _ he ih => exact .cons ih (admit_ok he).1

theorem Admitted.tail {E : Env} {F : Str → Option Str} {H : Hash} {C : Crypto} : ∀ {later : List Sadder} {earlier : List Sadder},
    Admitted E F H C (later ++ earlier) → Admitted E F H C earlier
  | [], _, h => h
  | _ :: _, _, .cons h _ => Admitted.tail h

/-- Two lists go the same way for a while: then one ends, or they differ. -/
theorem diverge {α : Type} [DecidableEq α] : ∀ (a b : List α), a <+: b ∨ b <+: a ∨ ∃ c x y r s, a = c ++ x :: r ∧ b = c ++ y :: s ∧ x ≠ y
  | [], _ => .inl (List.nil_prefix)
  | _, [] => .inr (.inl (List.nil_prefix))
  | x :: a, y :: b => by
    by_cases h : x = y
    · subst h
      rcases diverge a b with h | h | ⟨c, p, q, r, s, h1, h2, h3⟩
      · exact .inl (by simpa using h)
      · exact .inr (.inl (by simpa using h))
      · exact .inr (.inr ⟨x :: c, p, q, r, s, by rw [h1]; rfl, by rw [h2]; rfl, h3⟩)
    · exact .inr (.inr ⟨[], x, y, a, b, rfl, rfl, h⟩)

/-- Latest first: one list is the end of the other, or they have a common end and differ just before it. -/
theorem diverge_map {α β : Type} [DecidableEq β] (f : α → β) (a b : List α) :
    a.map f <:+ b.map f ∨ b.map f <:+ a.map f ∨
      ∃ (ra : List α) (x : α) (ca : List α) (rb : List α) (y : α) (cb : List α), a = ra ++ x :: ca ∧ b = rb ++ y :: cb ∧ ca.map f = cb.map f ∧ f x ≠ f y := by
  rcases diverge (a.map f).reverse (b.map f).reverse with h | h | ⟨c, x, y, r, s, h1, h2, h3⟩
  · exact .inl (List.reverse_prefix.mp h)
  · exact .inr (.inl (List.reverse_prefix.mp h))
  · have e1 : a.map f = r.reverse ++ x :: c.reverse := by
      have := congrArg List.reverse h1
      simpa using this
    have e2 : b.map f = s.reverse ++ y :: c.reverse := by
      have := congrArg List.reverse h2
      simpa using this
    obtain ⟨ra, ta, rfl, _, e1'⟩ := List.map_eq_append_iff.mp e1
    obtain ⟨rb, tb, rfl, _, e2'⟩ := List.map_eq_append_iff.mp e2
    obtain ⟨x', ca, rfl, hx, hca⟩ := List.map_eq_cons_iff.mp e1'
    obtain ⟨y', cb, rfl, hy, hcb⟩ := List.map_eq_cons_iff.mp e2'
    exact .inr (.inr ⟨ra, x', ca, rb, y', cb, rfl, rfl, by rw [hca, hcb], by rw [hx, hy]; exact h3⟩)

theorem authority_congr {E : Env} {F : Str → Option Str} : ∀ {xs ys : List Sadder}, xs.map (·.ked) = ys.map (·.ked) → authority E F xs = authority E F ys
  | [], [], _ => rfl
  | [], _ :: _, h => by simp at h
  | _ :: _, [], h => by simp at h
  | x :: xs, y :: ys, h => by
    simp only [List.map_cons, List.cons.injEq] at h
    rw [authority, authority, authority_congr h.2]
    have h1 : Serder.est x = Serder.est y := by unfold Serder.est; rw [h.1]
    have h2 : Serder.verfers E x = Serder.verfers E y := by unfold Serder.verfers; rw [h.1]
    have h3 : Serder.tholder E F x = Serder.tholder E F y := by unfold Serder.tholder Serder.tholderAt; rw [h.1]
    rw [h1, h2, h3]

/-- C91. Two histories of signed events of any lengths, admitted by replay, whose first events have the same SAID: one continues the other (as maps), or
they have a common part, not empty, after which two different events follow, and both of these carry verifying signatures of different keys that reach
the threshold in force: if neither sets keys, under the very same keys and threshold; if both set keys, under the same keys, unless two key texts have
the same digest. Otherwise the contents of the two first events have the same digest. -/
theorem C91_duplicity {E : Env} {F : Str → Option Str} {H : Hash} {C : Crypto} {bs cs : List (List UInt8)} {xs ys : List Sadder} {x y : Sadder}
    (hx : admitAll E F H C [] bs = .ok (xs ++ [x])) (hy : admitAll E F H C [] cs = .ok (ys ++ [y])) (px : ∀ e ∈ xs ++ [x], Plain e.ked)
    (py : ∀ e ∈ ys ++ [y], Plain e.ked) (h : Sadder.said E x = Sadder.said E y) :
    (xs ++ [x]).map (·.ked) <:+ (ys ++ [y]).map (·.ked) ∨ (ys ++ [y]).map (·.ked) <:+ (xs ++ [x]).map (·.ked) ∨ ContentsCollide H x y ∨
    ∃ (la : List Sadder) (a : Sadder) (ca : List Sadder) (lb : List Sadder) (b : Sadder) (cb : List Sadder) (sa sb : List UInt8) (ka kb : List Matter) (ta tb : Tholder),
      xs ++ [x] = la ++ a :: ca ∧ ys ++ [y] = lb ++ b :: cb ∧ ca ≠ [] ∧ ca.map (·.ked) = cb.map (·.ked) ∧ a.ked ≠ b.ked ∧
      acceptEvent E F H ca sa = .ok a ∧ acceptEvent E F H cb sb = .ok b ∧
      authority E F (a :: ca) = .ok (ka, some ta) ∧ authority E F (b :: cb) = .ok (kb, some tb) ∧ Endorsed E C ka ta a sa ∧ Endorsed E C kb tb b sb ∧
      (Serder.est a = .ok false → Serder.est b = .ok false → ka = kb ∧ ta = tb) ∧
      (Serder.est a = .ok true → Serder.est b = .ok true → ka = kb ∨ ∃ ds, commitments E H ca = .ok ds ∧
        ∃ d ∈ ds, ∃ k ∈ ka, ∃ l ∈ kb, ∃ t u, k.qb64b E = .ok t ∧ l.qb64b E = .ok u ∧ t ≠ u ∧ H.digest d.code t = H.digest d.code u) := by
  classical
  have ax := admitAll_admitted .nil hx
  have ay := admitAll_admitted .nil hy
  have first : x.ked = y.ked ∨ ContentsCollide H x y := by
    obtain _ | ⟨_, h1⟩ := ax.tail
    obtain _ | ⟨_, h2⟩ := ay.tail
    obtain ⟨nx, vx, _⟩ := accept_ok.mp (admit_ok h1).1
    obtain ⟨ny, vy, _⟩ := accept_ok.mp (admit_ok h2).1
    exact same_said (event_isSaid nx) (event_isSaid ny) (px x (by simp)) (py y (by simp)) vx vy h
  rcases first with hf | hc
  swap
  · exact .inr (.inr (.inl hc))
  rcases diverge_map (·.ked) (xs ++ [x]) (ys ++ [y]) with h1 | h1 | ⟨la, a, ca, lb, b, cb, e1, e2, hc, hne⟩
  · exact .inl h1
  · exact .inr (.inl h1)
  refine .inr (.inr (.inr ?_))
  have hca : ca ≠ [] := by
    rintro rfl
    have : cb = [] := by simpa using hc.symm
    subst this
    have e1' := (List.append_inj' e1 rfl).2
    have e2' := (List.append_inj' e2 rfl).2
    simp only [List.cons.injEq, and_true] at e1' e2'
    rw [← e1', ← e2'] at hne
    exact hne hf
  have hcb : cb ≠ [] := by
    rintro rfl
    exact hca (by simpa using hc)
  rw [e1] at ax
  rw [e2] at ay
  obtain _ | ⟨_, h1⟩ := ax.tail
  obtain _ | ⟨_, h2⟩ := ay.tail
  rename_i sa _ sb _
  obtain ⟨ha, ka, ta, hka, ena⟩ := admit_ok h1
  obtain ⟨hb, kb, tb, hkb, enb⟩ := admit_ok h2
  refine ⟨la, a, ca, lb, b, cb, sa, sb, ka, kb, ta, tb, e1, e2, hca, hc, hne, ha, hb, hka, hkb, ena, enb, ?_, ?_⟩
  · intro ea eb
    rw [authority, ea, Res.ok_bind, if_neg (by simp)] at hka
    rw [authority, eb, Res.ok_bind, if_neg (by simp), ← authority_congr hc, hka] at hkb
    have := Res.ok.inj hkb
    simp only [Prod.mk.injEq, Option.some.injEq] at this
    exact this
  · intro ea eb
    obtain ⟨_, _, _, ra⟩ := accept_ok.mp ha
    obtain ⟨_, _, _, rb⟩ := accept_ok.mp hb
    obtain ⟨ds, ks, hds, hks, me⟩ := (rotates_ok hca ea).mp ra
    obtain ⟨ds', ls, hds', hls, mf⟩ := (rotates_ok hcb eb).mp rb
    rw [← commitments_congr hc, hds] at hds'
    have := Res.ok.inj hds'
    subst this
    have eka : ka = ks := by
      rw [authority, ea, Res.ok_bind, if_pos rfl, hks, Res.ok_bind] at hka
      obtain ⟨_, _, hka⟩ := Res.bind_eq_ok.mp hka
      have := Res.ok.inj hka
      simp only [Prod.mk.injEq] at this
      exact this.1.symm
    have ekb : kb = ls := by
      rw [authority, eb, Res.ok_bind, if_pos rfl, hls, Res.ok_bind] at hkb
      obtain ⟨_, _, hkb⟩ := Res.bind_eq_ok.mp hkb
      have := Res.ok.inj hkb
      simp only [Prod.mk.injEq] at this
      exact this.1.symm
    subst eka ekb
    rcases keys_agree (commitments_isDiger hds) (verfers_read hks) (verfers_read hls) (keysMatch_ok.mp me) (keysMatch_ok.mp mf) with h | h
    · exact .inl h
    · exact .inr ⟨ds, hds, h⟩

/-- C91, nothing honest is refused. An accepted event, followed by a counter and signatures over its bytes made by signers whose public keys are the keys
in force, at their positions, that reach the threshold in force, is admitted. -/
theorem C91_admits {E : Env} {F : Str → Option Str} {H : Hash} {C : Crypto} {history : List Sadder} {s : Sadder} {signers : List Signer} {th : Tholder}
    (hmade : ∀ g ∈ signers, MadeSigner E C g) {sigs : List Siger} {ct : Str} {sts : List Str} {left : Str}
    (hacc : acceptEvent E F H history (s.raw ++ (ct ++ (sts.flatten ++ left))) = .ok s)
    (hauth : authority E F (s :: history) = .ok (signers.map (·.verfer), some th))
    (hsigs : ∀ y ∈ sigs, ∃ g only ondex r, signers[y.indexer.index]? = some g ∧ Signer.signIndexed E C g s.raw only y.indexer.index ondex r = .ok y)
    {c : Counter} (hc : Counter.new E (some sigs.length) none (some (lit "-A")) none none none = .ok c) (hct : c.qb64 E = .ok ct)
    (hst : Aligned (fun y t => y.indexer.qb64 E = .ok t) sigs sts) (he : th.satisfy E (sigs.map (·.indexer.index)).dedup = .ok true)
    (hleft : utf8Valid left = true) :
    admitEvent E F H C history (s.raw ++ (ct ++ (sts.flatten ++ left))) = .ok s := by
  have hobt : ∀ y ∈ sigs, Siger.validateCode y.indexer.code = .ok () ∧ ∃ c ∈ Spec.idxCodes, IdxObtained E c y.indexer := by
    intro y hy
    obtain ⟨g, only, ondex, r, hi, hs⟩ := hsigs y hy
    obtain ⟨_, _, _, _, _, _, _, hg⟩ := hmade g (List.mem_of_getElem? hi)
    exact (signIndexed_obtained hg hs).2
  obtain ⟨hread, hasc⟩ := readSigs_of hobt hst hleft
  have hu1 : utf8Valid (sts.flatten ++ left) = true := by rw [utf8Valid_ascii_append hasc]; exact hleft
  obtain ⟨ct', hct', hcf, _, _, hcb, hcp, _⟩ := Item.Obtainable.facts (i := .count c) (E := E) (CounterObtained.built hc)
  have hct' : c.qb64 E = .ok ct' := hct'
  obtain rfl := Res.ok.inj (hct'.symm.trans hct)
  have hcf : c.fullSize = .ok ct'.length := hcf
  have hu2 : utf8Valid (ct' ++ (sts.flatten ++ left)) = true := by rw [utf8Valid_ascii_append (isB64Text_ascii hcb)]; exact hu1
  have hcq : (do let x ← Counter.ofText E (ct' ++ (sts.flatten ++ left)); Res.ok (Item.count x)) = .ok (Item.count c) := hcp _ hu1
  obtain ⟨c', hc', e⟩ := Res.bind_eq_ok.mp hcq
  have e : c' = c := by simpa using e
  subst e
  have hcn : c'.count = sigs.length := by
    have hc : Counter.newWithCodeAndCount (lit "-A") sigs.length = .ok c' := hc
    unfold Counter.newWithCodeAndCount at hc
    rw [if_neg (by decide)] at hc
    obtain ⟨z, _, hc⟩ := Res.bind_eq_ok.mp hc
    dsimp only at hc
    split at hc
    · cases hc
    · split at hc
      · cases hc
      · rw [← Res.ok.inj hc]
  have hsl : slice (s.raw ++ (ct' ++ (sts.flatten ++ left))) s.raw.length (s.raw ++ (ct' ++ (sts.flatten ++ left))).length = .ok (ct' ++ (sts.flatten ++ left)) := by
    unfold slice
    rw [if_pos ⟨by simp, Nat.le_refl _⟩, List.take_length, List.drop_left]
  have hsl2 : sliceStr (ct' ++ (sts.flatten ++ left)) ct'.length (ct' ++ (sts.flatten ++ left)).length = .ok (sts.flatten ++ left) := by
    unfold sliceStr
    rw [if_pos ⟨by simp, Nat.le_refl _, isBoundary_prefix (isB64Text_ascii hcb) hu1 (Nat.le_refl _), by simp [isBoundary]⟩]
    rw [List.take_length, List.drop_left]
  have hfil : ((sigs.map (fun x => ({ indexer := x.indexer, verfer := Verfer.default } : Siger))).filter
      (verifiesUnder C (signers.map (·.verfer)) s.raw)).map (·.indexer.index) = sigs.map (·.indexer.index) := by
    rw [List.filter_eq_self.mpr, List.map_map]
    · rfl
    · intro y hy
      obtain ⟨z, hz, rfl⟩ := List.mem_map.mp hy
      obtain ⟨g, only, ondex, r, hi, hs⟩ := hsigs z hz
      obtain ⟨_, _, _, _, _, _, _, hg⟩ := hmade g (List.mem_of_getElem? hi)
      have hv := (C53_indexed_verifies E C hg s.raw r hs).2.1
      unfold verifiesUnder
      rw [List.getElem?_map, hi]
      simpa using hv
  unfold admitEvent
  rw [hacc, Res.ok_bind, hsl, Res.ok_bind, fromUtf8, if_pos hu2, Res.ok_bind]
  have hc' : Counter.new E none none none none (some (ct' ++ (sts.flatten ++ left))) none = .ok c' := hc'
  rw [hc', Res.ok_bind, hcf, Res.ok_bind, hsl2, Res.ok_bind, hcn, hread, Res.ok_bind]
  dsimp only
  rw [hauth, Res.ok_bind]
  dsimp only
  simp only [hfil]
  rw [he, Res.ok_bind]
  rfl

/-! ## A concrete fork -/

def forkIcp : List (Str × Value) :=
  [(lit "v", .str (lit "KERI10JSON00009b_")), (lit "t", .str (lit "icp")), (lit "d", .str (lit "ECKJ" ++ zeros41)), (lit "kt", .str (lit "1")),
    (lit "k", .arr [.str (lit "DAEBAQEBAQEBAQEBAQEBAQEBAQEBAQEBAQEBAQEBAQEB")]), (lit "n", .arr [])]

def forkIxn (d a : String) : List (Str × Value) :=
  [(lit "v", .str (lit "KERI10JSON000091_")), (lit "t", .str (lit "ixn")), (lit "d", .str (lit d ++ zeros41)), (lit "p", .str (lit "ECKJ" ++ zeros41)), (lit "a", .str (lit a))]

/-- A counter and the signature of the first key. -/
def forkSignature : Str := lit "-AAB" ++ ([lit "AAADAwMDAwMDAwMDAwMDAwMDAwMDAwMDAwMDAwMDAwMDAwMDAwMDAwMDAwMDAwMDAwMDAwMDAwMDAwMDAwMDAwMD"].flatten ++ [])

/-- The premises of `C91_duplicity` are met by two histories neither of which continues the other. -/
theorem sample_fork :
    admitAll Env.debug (fun _ => none) addingHash toy [] [(Value.obj forkIcp).toJson ++ forkSignature, (Value.obj (forkIxn "EB7w" "x")).toJson ++ forkSignature] =
      .ok ([historyEvent (forkIxn "EB7w" "x") 30 240] ++ [historyEvent forkIcp 34 137]) ∧
    admitAll Env.debug (fun _ => none) addingHash toy [] [(Value.obj forkIcp).toJson ++ forkSignature, (Value.obj (forkIxn "EB7x" "y")).toJson ++ forkSignature] =
      .ok ([historyEvent (forkIxn "EB7x" "y") 30 241] ++ [historyEvent forkIcp 34 137]) ∧
    (∀ e ∈ [historyEvent (forkIxn "EB7w" "x") 30 240, historyEvent (forkIxn "EB7x" "y") 30 241, historyEvent forkIcp 34 137], Plain e.ked) ∧
    ¬ ([historyEvent (forkIxn "EB7w" "x") 30 240] ++ [historyEvent forkIcp 34 137]).map (·.ked) <:+
      ([historyEvent (forkIxn "EB7x" "y") 30 241] ++ [historyEvent forkIcp 34 137]).map (·.ked) := by
  refine ⟨by kernel_rfl, by kernel_rfl, ?_, ?_⟩
  · intro e he
    simp only [List.mem_cons, List.not_mem_nil, or_false] at he
    rcases he with rfl | rfl | rfl <;> simp [historyEvent, forkIcp, forkIxn, Plain, PlainFields, PlainElems, lit]
  · intro h
    have := h.eq_of_length rfl
    simp [historyEvent, forkIxn, lit] at this

/-- The premises of `C91_admits` are met; without the signature the same event is refused. -/
theorem sample_admits :
    admitEvent Env.debug (fun _ => none) addingHash toy [historyEvent forkIcp 34 137] ((historyEvent (forkIxn "EB7w" "x") 30 240).raw ++ forkSignature) =
      .ok (historyEvent (forkIxn "EB7w" "x") 30 240) ∧
    admitEvent Env.debug (fun _ => none) addingHash toy [historyEvent forkIcp 34 137] ((historyEvent (forkIxn "EB7w" "x") 30 240).raw ++ lit "-AAA") = .err .validation := by
  refine ⟨C91_admits (signers := [signerA]) (th := ⟨.int 1, false, 1, some ⟨lit "M", 0, [0, 1]⟩, none⟩) (sigs := [sigA]) (c := ⟨lit "-A", 1⟩) ?_ (by kernel_rfl)
    (by kernel_rfl) ?_ (by kernel_rfl) (by kernel_rfl) (.cons (by kernel_rfl) .nil) (by kernel_rfl) rfl, by kernel_rfl⟩
  · intro g hg
    simp only [List.mem_cons, List.not_mem_nil, or_false] at hg
    subst hg
    exact ⟨1, none, _, none, none, none, none, C65_generated Env.debug toy 1 none .ed25519⟩
  · intro y hy
    simp only [List.mem_cons, List.not_mem_nil, or_false] at hy
    subst hy
    exact ⟨signerA, false, none, 3, rfl, by decide +kernel⟩

end Cesride
