import Verif.Props.Duplicity

/-!
# Property C93: partial rotations

A rotation need not use all the keys that were committed to, nor only such keys: each signature names the position of its key in the new list and the
position of the commitment it opens in the old one. The client below takes such a rotation; its loops are not library code, everything it calls is.
-/

namespace Cesride
open Spec

/-- The signatures attached to an event: a counter and as many indexed signatures. -/
def attachedSigs (E : Env) (n : Nat) (stream : List UInt8) : Res (List Siger × Str) := do
  let attached ← slice stream n stream.length
  let text ← fromUtf8 attached
  let counter ← Counter.new E none none none none (some text) none
  let k ← counter.fullSize
  let text ← sliceStr text k text.length
  readSigs E counter.count text

/-- The threshold for the next rotation: that of the latest establishment event. -/
def nextThreshold (E : Env) (F : Str → Option Str) : List Sadder → Res (Option Tholder)
  | [] => .ok none
  | e :: earlier => do
    if ← Serder.est e then Serder.ntholder E F e else nextThreshold E F earlier

/-- The commitment that a verifying signature opens, if it opens one. -/
def opens (E : Env) (H : Hash) (C : Crypto) (keys commits : List Matter) (ser : List UInt8) (y : Siger) : Option Nat :=
  match keys[y.indexer.index]?, commits[y.indexer.ondex]? with
  | some k, some d =>
    match k.qb64b E with
    | .ok t => if Verfer.verify C k y.indexer.raw ser = .ok true ∧ Diger.verify H d t = .ok true then some y.indexer.ondex else none
    | _ => none
  | _, _ => none

/-- An accepted rotation: the event, the positions of the keys that have signed it, and the positions of the commitments they have opened. -/
structure Rotation where
  event : Sadder
  signers : List Nat
  opened : List Nat
  left : Str

/-- Whether a threshold is there and is reached. -/
def reaches (E : Env) (t : Option Tholder) (positions : List Nat) : Res Bool :=
  match t with
  | some t => t.satisfy E positions
  | none => .ok false

/-- Accept a rotation from the front of a stream. -/
def acceptRotation (E : Env) (F : Str → Option Str) (H : Hash) (C : Crypto) (history : List Sadder) (stream : List UInt8) : Res Rotation := do
  let e ← Serder.newWithRaw E F H stream
  let genuine ← Saider.verify E H e.saider e.ked (some true) (some true) none none none
  let linked ← follows E history e
  let (sigs, left) ← attachedSigs E e.raw.length stream
  let keys ← Serder.verfers E e
  let commits ← commitments E H history
  let signers := ((sigs.filter (verifiesUnder C keys e.raw)).map (·.indexer.index)).dedup
  let opened := (sigs.filterMap (opens E H C keys commits e.raw)).dedup
  let threshold ← Serder.tholder E F e
  let enough ← reaches E threshold signers
  let next ← nextThreshold E F history
  let allowed ← reaches E next opened
  if genuine && linked && enough && allowed then .ok { event := e, signers := signers, opened := opened, left := left } else .err .validation

theorem attachedSigs_sound {E : Env} {F : Str → Option Str} {H : Hash} {stream : List UInt8} {e : Sadder} (hev : Serder.newWithRaw E F H stream = .ok e)
    {sigs : List Siger} {left : Str} (h : attachedSigs E e.raw.length stream = .ok (sigs, left)) :
    (∃ u, stream = e.raw ++ (u ++ left)) ∧ ∀ y ∈ sigs, ∃ u v, stream = e.raw ++ (u ++ v) ∧ Siger.newWithQb64 E v none = .ok y := by
  unfold attachedSigs at h
  obtain ⟨att, hatt, h⟩ := Res.bind_eq_ok.mp h
  obtain ⟨text, htext, h⟩ := Res.bind_eq_ok.mp h
  obtain ⟨counter, _, h⟩ := Res.bind_eq_ok.mp h
  obtain ⟨k, _, h⟩ := Res.bind_eq_ok.mp h
  obtain ⟨text2, ht2, hs⟩ := Res.bind_eq_ok.mp h
  have htext : text = att := by
    unfold fromUtf8 at htext
    split at htext
    · exact (Res.ok.inj htext).symm
    · cases htext
  subst htext
  have hpre := event_prefix hev hatt
  obtain ⟨_, ⟨u, hu⟩, hall⟩ := readSigs_sound hs
  have h2 := sliceStr_to_end ht2
  refine ⟨⟨text.take k ++ u, ?_⟩, ?_⟩
  · rw [List.append_assoc, ← hu, ← h2, ← hpre]
  · intro y hy
    obtain ⟨u', v, e', hv⟩ := hall y hy
    exact ⟨text.take k ++ u', v, by rw [List.append_assoc, ← e', ← h2, ← hpre], hv⟩

theorem attachedSigs_of {E : Env} {sigs : List Siger} {ct : Str} {sts : List Str} {left : Str} (raw : List UInt8)
    (hobt : ∀ x ∈ sigs, Siger.validateCode x.indexer.code = .ok () ∧ ∃ c ∈ Spec.idxCodes, IdxObtained E c x.indexer)
    {c : Counter} (hc : Counter.new E (some sigs.length) none (some (lit "-A")) none none none = .ok c) (hct : c.qb64 E = .ok ct)
    (hst : Aligned (fun y t => y.indexer.qb64 E = .ok t) sigs sts) (hleft : utf8Valid left = true) :
    attachedSigs E raw.length (raw ++ (ct ++ (sts.flatten ++ left))) = .ok (sigs.map (fun x => { indexer := x.indexer, verfer := Verfer.default }), left) ∧
      utf8Valid (ct ++ (sts.flatten ++ left)) = true := by
  obtain ⟨hread, hasc⟩ := readSigs_of hobt hst hleft
  have hu1 : utf8Valid (sts.flatten ++ left) = true := by rw [utf8Valid_ascii_append hasc]; exact hleft
  obtain ⟨ct', hct', hcf, _, _, hcb, hcp, _⟩ := Item.Obtainable.facts (i := .count c) (E := E) (CounterObtained.built hc)
  have hct' : c.qb64 E = .ok ct' := hct'
  obtain rfl := Res.ok.inj (hct'.symm.trans hct)
  have hcf : c.fullSize = .ok ct'.length := hcf
  have hu2 : utf8Valid (ct' ++ (sts.flatten ++ left)) = true := by rw [utf8Valid_ascii_append (isB64Text_ascii hcb)]; exact hu1
  have hcq : (do let x ← Counter.ofText E (ct' ++ (sts.flatten ++ left)); Res.ok (Item.count x)) = .ok (Item.count c) := hcp _ hu1
  obtain ⟨c', hc', e⟩ := Res.bind_eq_ok.mp hcq
  have e : c' = c := by simpa using e
  subst e
  have hcn : c'.count = sigs.length := by
    have hc : Counter.newWithCodeAndCount (lit "-A") sigs.length = .ok c' := hc
    unfold Counter.newWithCodeAndCount at hc
    rw [if_neg (by decide)] at hc
    obtain ⟨z, _, hc⟩ := Res.bind_eq_ok.mp hc
    dsimp only at hc
    split at hc
    · cases hc
    · split at hc
      · cases hc
      · rw [← Res.ok.inj hc]
  have hsl : slice (raw ++ (ct' ++ (sts.flatten ++ left))) raw.length (raw ++ (ct' ++ (sts.flatten ++ left))).length = .ok (ct' ++ (sts.flatten ++ left)) := by
    unfold slice
    rw [if_pos ⟨by simp, Nat.le_refl _⟩, List.take_length, List.drop_left]
  have hsl2 : sliceStr (ct' ++ (sts.flatten ++ left)) ct'.length (ct' ++ (sts.flatten ++ left)).length = .ok (sts.flatten ++ left) := by
    unfold sliceStr
    rw [if_pos ⟨by simp, Nat.le_refl _, isBoundary_prefix (isB64Text_ascii hcb) hu1 (Nat.le_refl _), by simp [isBoundary]⟩]
    rw [List.take_length, List.drop_left]
  refine ⟨?_, hu2⟩
  unfold attachedSigs
  rw [hsl, Res.ok_bind, fromUtf8, if_pos hu2, Res.ok_bind]
  have hc' : Counter.new E none none none none (some (ct' ++ (sts.flatten ++ left))) none = .ok c' := hc'
  rw [hc', Res.ok_bind, hcf, Res.ok_bind, hsl2, Res.ok_bind, hcn, hread]

theorem opens_some {E : Env} {H : Hash} {C : Crypto} {keys commits : List Matter} {ser : List UInt8} {y : Siger} {j : Nat} :
    opens E H C keys commits ser y = some j ↔ y.indexer.ondex = j ∧ ∃ k d t, keys[y.indexer.index]? = some k ∧ commits[j]? = some d ∧ k.qb64b E = .ok t ∧
      Verfer.verify C k y.indexer.raw ser = .ok true ∧ Diger.verify H d t = .ok true := by
  unfold opens
  constructor
  · intro h
    split at h
    · rename_i k d hk hd
      split at h
      · rename_i t ht
        split at h
        · rename_i hv
          simp only [Option.some.injEq] at h
          subst h
          exact ⟨rfl, k, d, t, hk, hd, ht, hv.1, hv.2⟩
        · cases h
      · cases h
    · cases h
  · rintro ⟨rfl, k, d, t, hk, hd, ht, h1, h2⟩
    rw [hk, hd]
    dsimp only
    rw [ht]
    dsimp only
    rw [if_pos ⟨h1, h2⟩]

/-- A key of the event that the commitment at position `j` is to has signed the event, and the signature, found in the stream, names both positions. -/
def Opened (E : Env) (H : Hash) (C : Crypto) (keys commits : List Matter) (e : Sadder) (stream : List UInt8) (j : Nat) (k : Matter) : Prop :=
  ∃ (d : Matter) (t : Str) (y : Siger) (u v : List UInt8), commits[j]? = some d ∧ keys[y.indexer.index]? = some k ∧ k.qb64b E = .ok t ∧
    H.digest d.code t = d.raw ∧ stream = e.raw ++ (u ++ v) ∧ Siger.newWithQb64 E v none = .ok y ∧ y.indexer.ondex = j ∧
    Verfer.verify C k y.indexer.raw e.raw = .ok true

theorem reaches_num {E : Env} {F : Str → Option Str} {s : Sadder} {label : Str} {th : Tholder} (h : Serder.tholderAt label E F s = .ok (some th)) {is : List Nat}
    (he : th.satisfy E is = .ok true) : ∀ n, th.num = .ok (some n) → 0 < n ∧ n ≤ is.length := by
  intro n hn
  obtain ⟨map, hmap, hth⟩ := Res.bind_eq_ok.mp h
  split at hth
  · obtain ⟨v, hv, hth⟩ := Res.bind_eq_ok.mp hth
    obtain ⟨t, ht, hth⟩ := Res.bind_eq_ok.mp hth
    have e : t = th := by simpa using hth
    subst e
    have := C34_unweighted_decision ht hn E is
    rw [he] at this
    simpa using this.symm
  · cases hth

theorem nextThreshold_at {E : Env} {F : Str → Option Str} : ∀ {history : List Sadder} {th : Tholder}, nextThreshold E F history = .ok (some th) →
    ∃ s ∈ history, Serder.ntholder E F s = .ok (some th)
  | [], _, h => by cases h
  | e :: earlier, th, h => by
    rw [nextThreshold] at h
    obtain ⟨b, _, h⟩ := Res.bind_eq_ok.mp h
    cases b with
    | true => exact ⟨e, by simp, h⟩
    | false =>
      obtain ⟨s, hs, h⟩ := nextThreshold_at h
      exact ⟨s, by simp [hs], h⟩

/-- C93. An accepted rotation is genuine and linked to the history; its signing threshold is reached by keys that have signed it, and the next threshold of
the latest establishment event is reached by positions of commitments of that event, no position twice, each opened by a key that has signed the rotation
(`witness`). If these commitments are digests of one kind that all differ, different positions have been opened by different keys, so that a numeric
threshold `n` is only reached by `n` different keys that were committed to. -/
theorem C93_sound {E : Env} {F : Str → Option Str} {H : Hash} {C : Crypto} {history : List Sadder} {stream : List UInt8} {r : Rotation}
    (h : acceptRotation E F H C history stream = .ok r) :
    Serder.newWithRaw E F H stream = .ok r.event ∧ Saider.verify E H r.event.saider r.event.ked (some true) (some true) none none none = .ok true ∧
    follows E history r.event = .ok true ∧
    ∃ (keys commits : List Matter) (th next : Tholder) (witness : Nat → Matter), Serder.verfers E r.event = .ok keys ∧ commitments E H history = .ok commits ∧
      Serder.tholder E F r.event = .ok (some th) ∧ nextThreshold E F history = .ok (some next) ∧
      r.signers.Nodup ∧ th.satisfy E r.signers = .ok true ∧
      (∀ i ∈ r.signers, ∃ (k : Matter) (y : Siger) (u v : List UInt8), keys[i]? = some k ∧ stream = r.event.raw ++ (u ++ v) ∧ Siger.newWithQb64 E v none = .ok y ∧
        y.indexer.index = i ∧ Verfer.verify C k y.indexer.raw r.event.raw = .ok true) ∧
      r.opened.Nodup ∧ next.satisfy E r.opened = .ok true ∧ (∀ n, next.num = .ok (some n) → 0 < n ∧ n ≤ r.opened.length) ∧
      (∀ j ∈ r.opened, Opened E H C keys commits r.event stream j (witness j)) ∧
      ∀ code, (∀ d ∈ commits, d.code = code) → (commits.map (·.raw)).Nodup → ∀ i ∈ r.opened, ∀ j ∈ r.opened, witness i = witness j → i = j := by
  classical
  unfold acceptRotation at h
  obtain ⟨e, hev, h⟩ := Res.bind_eq_ok.mp h
  obtain ⟨genuine, hg, h⟩ := Res.bind_eq_ok.mp h
  obtain ⟨linked, hl, h⟩ := Res.bind_eq_ok.mp h
  obtain ⟨⟨sigs, left⟩, hs, h⟩ := Res.bind_eq_ok.mp h
  obtain ⟨keys, hkeys, h⟩ := Res.bind_eq_ok.mp h
  obtain ⟨commits, hcom, h⟩ := Res.bind_eq_ok.mp h
  obtain ⟨th, hth, h⟩ := Res.bind_eq_ok.mp h
  obtain ⟨enough, hen, h⟩ := Res.bind_eq_ok.mp h
  obtain ⟨next, hnx, h⟩ := Res.bind_eq_ok.mp h
  obtain ⟨allowed, hal, h⟩ := Res.bind_eq_ok.mp h
  split at h
  swap
  · cases h
  rename_i hb
  simp only [Bool.and_eq_true] at hb
  have h := Res.ok.inj h
  subst h
  obtain ⟨⟨⟨rfl, rfl⟩, rfl⟩, rfl⟩ := hb
  dsimp only
  obtain ⟨_, hall⟩ := attachedSigs_sound hev hs
  have ho : ∀ j ∈ (sigs.filterMap (opens E H C keys commits e.raw)).dedup, ∃ k, Opened E H C keys commits e stream j k := by
    intro j hj
    rw [List.mem_dedup, List.mem_filterMap] at hj
    obtain ⟨y, hy, hj⟩ := hj
    obtain ⟨rfl, k, d, t, hk, hd, ht, h1, h2⟩ := opens_some.mp hj
    obtain ⟨u, v, hu, hv⟩ := hall y hy
    rw [C55_verify (commitments_isDiger hcom d (List.mem_of_getElem? hd))] at h2
    exact ⟨k, d, t, y, u, v, hd, hk, ht, by simpa using h2, hu, hv, rfl, h1⟩
  cases th with
  | none => cases hen
  | some th =>
  cases next with
  | none => cases hal
  | some next =>
  refine ⟨hev, hg, hl, keys, commits, th, next, fun j => if hj : _ then (ho j hj).choose else ⟨[], 0, []⟩, hkeys, hcom, hth, hnx, List.nodup_dedup _, hen, ?_,
    List.nodup_dedup _, hal, ?_, ?_, ?_⟩
  · intro i hi
    rw [List.mem_dedup, List.mem_map] at hi
    obtain ⟨y, hy, rfl⟩ := hi
    obtain ⟨hy, hv⟩ := List.mem_filter.mp hy
    obtain ⟨u, v, hu, hr⟩ := hall y hy
    unfold verifiesUnder at hv
    split at hv
    · rename_i k' hk'
      exact ⟨k', y, u, v, hk', hu, hr, rfl, by simpa using hv⟩
    · cases hv
  · obtain ⟨s, _, hs⟩ := nextThreshold_at hnx
    exact reaches_num hs hal
  · intro j hj
    beta_reduce
    rw [dif_pos hj]
    exact (ho j hj).choose_spec
  · intro code hcode hnd i hi j hj hw
    beta_reduce at hw
    rw [dif_pos hi, dif_pos hj] at hw
    obtain ⟨d, t, _, _, _, hd, _, ht, hh, _⟩ := (ho i hi).choose_spec
    obtain ⟨d', t', _, _, _, hd', _, ht', hh', _⟩ := (ho j hj).choose_spec
    rw [hw, ht'] at ht
    obtain rfl := Res.ok.inj ht
    rw [hcode d (List.mem_of_getElem? hd)] at hh
    rw [hcode d' (List.mem_of_getElem? hd')] at hh'
    have e : d.raw = d'.raw := hh.symm.trans hh'
    have h1 : (commits.map (·.raw))[i]? = some d.raw := by rw [List.getElem?_map, hd]; rfl
    have h2 : (commits.map (·.raw))[j]? = some d.raw := by rw [List.getElem?_map, hd', e]; rfl
    obtain ⟨b1, h1⟩ := List.getElem?_eq_some_iff.mp h1
    obtain ⟨b2, h2⟩ := List.getElem?_eq_some_iff.mp h2
    exact (List.Nodup.getElem_inj_iff hnd).mp (h1.trans h2.symm)

/-- The position of the commitment that a signature names. -/
theorem signIndexed_ondex {E : Env} {C : Crypto} {g : Signer} (hg : MadeSigner E C g) {ser : List UInt8} {r : Nat} {only : Bool} {index : Nat} {ondex : Option Nat}
    {y : Siger} (h : Signer.signIndexed E C g ser only index ondex r = .ok y) :
    y.indexer.index = index ∧ y.indexer.ondex = if only then 0 else ondex.getD index := by
  obtain ⟨_, _, _, _, _, _, _, hg⟩ := hg
  obtain ⟨c, ok, _⟩ := Signer.new_ok hg
  rw [ok.indexed_eq] at h
  generalize hbig : bigChoice only index (ondex.getD index) = big at h
  obtain ⟨h1, h2, h3, h4⟩ := idxOf_rows c only big
  obtain ⟨o, hoe⟩ : ∃ o : Option Nat, o = if only then none else some (ondex.getD index) := ⟨_, rfl⟩
  rw [← hoe, Siger.new_built E h1 h3 _ _ _ (by rw [C.sign_length c g.matter.raw ser r ok.valid, h4])] at h
  split at h
  · cases h
  · rename_i hno
    rw [← Res.ok.inj h]
    refine ⟨rfl, ?_⟩
    dsimp only
    unfold Spec.otherIndex
    subst hoe
    cases only
    · simp only [Bool.false_eq_true, if_false]
      cases big
      · unfold bigChoice at hbig
        simp only [Bool.false_eq_true, if_false, Bool.not_eq_false', decide_eq_true_eq] at hbig
        simp [idxOf, hbig.1]
      · simp [idxOf]
    · cases big <;> simp [idxOf]

theorem nextThreshold_of {E : Env} {F : Str → Option Str} {e : Sadder} {earlier : List Sadder} (h2 : Serder.est e = .ok true) : ∀ {later : List Sadder},
    (∀ l ∈ later, Serder.est l = .ok false) → nextThreshold E F (later ++ e :: earlier) = Serder.ntholder E F e
  | [], _ => by rw [List.nil_append, nextThreshold, h2, Res.ok_bind, if_pos rfl]
  | l :: later, h1 => by
    rw [List.cons_append, nextThreshold, h1 l (by simp), Res.ok_bind, if_neg (by simp)]
    exact nextThreshold_of h2 (fun m hm => h1 m (by simp [hm]))

theorem commitments_of {E : Env} {H : Hash} {e : Sadder} {earlier : List Sadder} (h2 : Serder.est e = .ok true) : ∀ {later : List Sadder},
    (∀ l ∈ later, Serder.est l = .ok false) → commitments E H (later ++ e :: earlier) = Serder.digers E H e
  | [], _ => by rw [List.nil_append, commitments, h2, Res.ok_bind, if_pos rfl]
  | l :: later, h1 => by
    rw [List.cons_append, commitments, h1 l (by simp), Res.ok_bind, if_neg (by simp)]
    exact commitments_of h2 (fun m hm => h1 m (by simp [hm]))

/-- A signature on a rotation: by a key that was committed to at a position `j`, naming that position too, or by a new key, naming only its own position;
the first commitment is not to a new key. -/
def Signs (E : Env) (H : Hash) (C : Crypto) (signers : List Signer) (commits : List Matter) (ser : List UInt8) (y : Siger) : Option Nat → Prop
  | some j => ∃ g r d t, signers[y.indexer.index]? = some g ∧ Signer.signIndexed E C g ser false y.indexer.index (some j) r = .ok y ∧
      commits[j]? = some d ∧ g.verfer.qb64b E = .ok t ∧ H.digest d.code t = d.raw
  | none => ∃ g r, signers[y.indexer.index]? = some g ∧ Signer.signIndexed E C g ser true y.indexer.index none r = .ok y ∧
      ∀ d t, commits[0]? = some d → g.verfer.qb64b E = .ok t → H.digest d.code t ≠ d.raw

/-- C93, the verdict on what is honestly made. A rotation built from a map that carries the digest of its content, names the SAID of the latest event, lists the public
keys of some signers in `k`, and is signed by them, old ones naming the commitments they open, is accepted exactly if the positions of all who signed reach its threshold and
the opened positions reach the next threshold of the latest establishment event; otherwise it is refused. -/
theorem C93_judged {E : Env} {F : Str → Option Str} {H : Hash} {C : Crypto} {kind : Option Str} {rest : List (Str × Value)} {x : Value} {s : Sadder}
    (h : Serder.new E F H none none kind (some (.obj ((lit "v", x) :: rest))) none = .ok s)
    (hp : Plain (.obj ((lit "v", x) :: rest))) (hF : FloatsRead F (.obj ((lit "v", x) :: rest))) (hu : Utf8Value (.obj ((lit "v", x) :: rest))) (hd : depth (.obj ((lit "v", x) :: rest)) < 128)
    (hl : s.raw.length < 2 ^ 32) {o : List (Str × Value)} (ho : s.ked = .obj o)
    (hg : Saider.verify E H s.saider s.ked (some true) (some true) none none none = .ok true)
    {latest : Sadder} {history : List Sadder} {said : Str} (hsaid : Sadder.said E latest = .ok said) (hpr : o.lookup (lit "p") = some (.str said))
    {later earlier : List Sadder} {e : Sadder} (hh : latest :: history = later ++ e :: earlier) (hlater : ∀ l ∈ later, Serder.est l = .ok false)
    (hest : Serder.est e = .ok true) {commits : List Matter} (hcom : Serder.digers E H e = .ok commits) {next : Tholder}
    (hnext : Serder.ntholder E F e = .ok (some next))
    {signers : List Signer} {ks : List Str} (hmade : ∀ g ∈ signers, MadeSigner E C g)
    (hk : o.lookup (lit "k") = some (.arr (ks.map .str))) (hks : Aligned (fun g t => g.verfer.qb64 E = .ok t) signers ks)
    {th : Tholder} (hth : Serder.tholder E F s = .ok (some th))
    {sigs : List (Siger × Option Nat)} (hsigs : ∀ y ∈ sigs, Signs E H C signers commits s.raw y.1 y.2)
    {c : Counter} (hc : Counter.new E (some sigs.length) none (some (lit "-A")) none none none = .ok c)
    {ct : Str} {sts : List Str} (hct : c.qb64 E = .ok ct) (hst : Aligned (fun y t => y.1.indexer.qb64 E = .ok t) sigs sts)
    {en al : Bool} (hen : th.satisfy E (sigs.map (·.1.indexer.index)).dedup = .ok en) (hal : next.satisfy E (sigs.filterMap (·.2)).dedup = .ok al)
    {left : Str} (hleft : utf8Valid left = true) :
    acceptRotation E F H C (latest :: history) (s.raw ++ (ct ++ (sts.flatten ++ left))) =
      if en = true ∧ al = true then .ok { event := s, signers := (sigs.map (·.1.indexer.index)).dedup, opened := (sigs.filterMap (·.2)).dedup, left := left } else .err .validation := by
  have made : ∀ y ∈ sigs, ∃ g only ondex r, signers[y.1.indexer.index]? = some g ∧ MadeSigner E C g ∧
      Signer.signIndexed E C g s.raw only y.1.indexer.index ondex r = .ok y.1 := by
    intro y hy
    have := hsigs y hy
    obtain ⟨y1, _ | j⟩ := y
    · obtain ⟨g, r, h1, h2, _⟩ := this
      exact ⟨g, _, _, r, h1, hmade g (List.mem_of_getElem? h1), h2⟩
    · obtain ⟨g, r, _, _, h1, h2, _⟩ := this
      exact ⟨g, _, _, r, h1, hmade g (List.mem_of_getElem? h1), h2⟩
  have hst' : Aligned (fun y t => y.indexer.qb64 E = .ok t) (sigs.map (·.1)) sts := by
    clear hsigs hc hen hal made
    induction hst with
    | nil => exact .nil
    | cons h _ ih => exact .cons h ih
  obtain ⟨hread, hu2⟩ := attachedSigs_of (sigs := sigs.map (·.1)) s.raw (c := c) (ct := ct) (sts := sts) (left := left) (E := E) (by
    intro y hy
    obtain ⟨z, hz, rfl⟩ := List.mem_map.mp hy
    obtain ⟨g, only, ondex, r, _, ⟨_, _, _, _, _, _, _, hg⟩, hs⟩ := made z hz
    exact (signIndexed_obtained hg hs).2) (by rw [List.length_map]; exact hc) hct hst' hleft
  have hev : Serder.newWithRaw E F H (s.raw ++ (ct ++ (sts.flatten ++ left))) = .ok s := by
    have := C59_serder h hp hF hu hd hl (ct ++ (sts.flatten ++ left))
    rw [if_pos hu2] at this
    exact this
  have hkeys : Serder.verfers E s = .ok (signers.map (·.verfer)) := ((C60_verfers ho).1 _ hk _).mpr (verfers_of_signers hmade hks)
  have hfil : (((sigs.map (·.1)).map (fun x => ({ indexer := x.indexer, verfer := Verfer.default } : Siger))).filter
      (verifiesUnder C (signers.map (·.verfer)) s.raw)).map (·.indexer.index) = sigs.map (·.1.indexer.index) := by
    rw [List.filter_eq_self.mpr, List.map_map, List.map_map]
    · rfl
    · intro y hy
      obtain ⟨_, hz', rfl⟩ := List.mem_map.mp hy
      obtain ⟨z, hz, rfl⟩ := List.mem_map.mp hz'
      obtain ⟨g, only, ondex, r, hi, ⟨_, _, _, _, _, _, _, hg⟩, hs⟩ := made z hz
      have hv := (C53_indexed_verifies E C hg s.raw r hs).2.1
      unfold verifiesUnder
      rw [List.getElem?_map, hi]
      simpa using hv
  have hop : ∀ y ∈ sigs, opens E H C (signers.map (·.verfer)) commits s.raw { indexer := y.1.indexer, verfer := Verfer.default } = y.2 := by
    intro y hy
    have hsy := hsigs y hy
    obtain ⟨y1, _ | j⟩ := y
    · obtain ⟨g, r, h1, h2, h3⟩ := hsy
      have hm := hmade g (List.mem_of_getElem? h1)
      cases ho : opens E H C (signers.map (·.verfer)) commits s.raw { indexer := y1.indexer, verfer := Verfer.default } with
      | none => rfl
      | some j =>
        exfalso
        obtain ⟨hj, k, d, t, g1, g2, g3, _, g5⟩ := opens_some.mp ho
        dsimp only at hj g1
        rw [List.getElem?_map, h1] at g1
        simp only [Option.map_some, Option.some.injEq] at g1
        subst g1
        rw [(signIndexed_ondex hm h2).2, if_pos rfl] at hj
        subst hj
        rw [C55_verify (digers_isDiger hcom d (List.mem_of_getElem? g2))] at g5
        exact h3 d t g2 g3 (by simpa using g5)
    · obtain ⟨g, r, d, t, h1, h2, h3, h4, h5⟩ := hsy
      have hm := hmade g (List.mem_of_getElem? h1)
      refine opens_some.mpr ⟨(signIndexed_ondex hm h2).2, g.verfer, d, t, ?_, h3, h4, ?_, ?_⟩
      · dsimp only
        rw [List.getElem?_map, h1]
        rfl
      · obtain ⟨_, _, _, _, _, _, _, hg⟩ := hm
        exact (C53_indexed_verifies E C hg s.raw r h2).2.1
      · rw [C55_verify (digers_isDiger hcom d (List.mem_of_getElem? h3)), h5]
        simp
  have hfo : ((sigs.map (·.1)).map (fun x => ({ indexer := x.indexer, verfer := Verfer.default } : Siger))).filterMap
      (opens E H C (signers.map (·.verfer)) commits s.raw) = sigs.filterMap (·.2) := by
    rw [List.map_map, List.filterMap_map]
    exact List.filterMap_congr hop
  have hfl : follows E (latest :: history) s = .ok true := (follows_ok ho).mpr ⟨said, hsaid, hpr⟩
  unfold acceptRotation
  rw [hev, Res.ok_bind, hg, Res.ok_bind, hfl, Res.ok_bind, hread, Res.ok_bind]
  dsimp only
  rw [hkeys, Res.ok_bind, hh, commitments_of hest hlater, hcom, Res.ok_bind]
  simp only [hfil, hfo]
  rw [hth, Res.ok_bind, reaches, hen, Res.ok_bind, nextThreshold_of hest hlater, hnext, Res.ok_bind, reaches, hal, Res.ok_bind]
  cases en <;> cases al <;> rfl

/-- C93, nothing honest is refused. A rotation built from a map that carries the digest of its content, names the SAID of the latest event, lists the public
keys of some signers in `k`, and is signed by them, old ones naming the commitments they open: if the positions of all who signed reach its threshold and
the opened positions reach the next threshold of the latest establishment event, it is accepted, with exactly these positions and the text that follows. -/
theorem C93_rotated {E : Env} {F : Str → Option Str} {H : Hash} {C : Crypto} {kind : Option Str} {rest : List (Str × Value)} {x : Value} {s : Sadder}
    (h : Serder.new E F H none none kind (some (.obj ((lit "v", x) :: rest))) none = .ok s)
    (hp : Plain (.obj ((lit "v", x) :: rest))) (hF : FloatsRead F (.obj ((lit "v", x) :: rest))) (hu : Utf8Value (.obj ((lit "v", x) :: rest))) (hd : depth (.obj ((lit "v", x) :: rest)) < 128)
    (hl : s.raw.length < 2 ^ 32) {o : List (Str × Value)} (ho : s.ked = .obj o)
    (hg : Saider.verify E H s.saider s.ked (some true) (some true) none none none = .ok true)
    {latest : Sadder} {history : List Sadder} {said : Str} (hsaid : Sadder.said E latest = .ok said) (hpr : o.lookup (lit "p") = some (.str said))
    {later earlier : List Sadder} {e : Sadder} (hh : latest :: history = later ++ e :: earlier) (hlater : ∀ l ∈ later, Serder.est l = .ok false)
    (hest : Serder.est e = .ok true) {commits : List Matter} (hcom : Serder.digers E H e = .ok commits) {next : Tholder}
    (hnext : Serder.ntholder E F e = .ok (some next))
    {signers : List Signer} {ks : List Str} (hmade : ∀ g ∈ signers, MadeSigner E C g)
    (hk : o.lookup (lit "k") = some (.arr (ks.map .str))) (hks : Aligned (fun g t => g.verfer.qb64 E = .ok t) signers ks)
    {th : Tholder} (hth : Serder.tholder E F s = .ok (some th))
    {sigs : List (Siger × Option Nat)} (hsigs : ∀ y ∈ sigs, Signs E H C signers commits s.raw y.1 y.2)
    {c : Counter} (hc : Counter.new E (some sigs.length) none (some (lit "-A")) none none none = .ok c)
    {ct : Str} {sts : List Str} (hct : c.qb64 E = .ok ct) (hst : Aligned (fun y t => y.1.indexer.qb64 E = .ok t) sigs sts)
    (hen : th.satisfy E (sigs.map (·.1.indexer.index)).dedup = .ok true) (hal : next.satisfy E (sigs.filterMap (·.2)).dedup = .ok true)
    {left : Str} (hleft : utf8Valid left = true) :
    acceptRotation E F H C (latest :: history) (s.raw ++ (ct ++ (sts.flatten ++ left))) =
      .ok { event := s, signers := (sigs.map (·.1.indexer.index)).dedup, opened := (sigs.filterMap (·.2)).dedup, left := left } := by
  rw [C93_judged h hp hF hu hd hl ho hg hsaid hpr hh hlater hest hcom hnext hmade hk hks hth hsigs hc hct hst hen hal hleft]
  rfl

def partIcp : List (Str × Value) :=
  [(lit "v", .str (lit "KERI10JSON000101_")), (lit "t", .str (lit "icp")), (lit "d", .str (lit "EDuP" ++ zeros41)), (lit "kt", .str (lit "1")),
    (lit "k", .arr [.str (lit "DAEBAQEBAQEBAQEBAQEBAQEBAQEBAQEBAQEBAQEBAQEB")]), (lit "nt", .str (lit "1")),
    (lit "n", .arr [.str (lit "EAAA" ++ zeros41), .str (lit "EA4x" ++ zeros41)])]

def partRot : List (Str × Value) :=
  [(lit "v", .str (lit "KERI10JSON00010a_")), (lit "t", .str (lit "rot")), (lit "d", .str (lit "EEAP" ++ zeros41)), (lit "p", .str (lit "EDuP" ++ zeros41)),
    (lit "kt", .str (lit "2")), (lit "k", .arr (keyTexts.reverse.map .str)), (lit "nt", .str (lit "0")), (lit "n", .arr [])]

/-- The signature of the key committed to at position 1, at position 0 of the new list, and that of a new key at position 1. -/
def partSigs : List (Siger × Option Nat) :=
  [(⟨⟨lit "2C", List.replicate 64 4, 0, 1⟩, signerB.verfer⟩, some 1), (⟨⟨lit "B", List.replicate 64 3, 1, 0⟩, signerA.verfer⟩, none)]

def partTexts : List Str :=
  [lit "2CAAABAEBAQEBAQEBAQEBAQEBAQEBAQEBAQEBAQEBAQEBAQEBAQEBAQEBAQEBAQEBAQEBAQEBAQEBAQEBAQEBAQEBAQE",
    lit "BBADAwMDAwMDAwMDAwMDAwMDAwMDAwMDAwMDAwMDAwMDAwMDAwMDAwMDAwMDAwMDAwMDAwMDAwMDAwMDAwMDAwMD"]

/-- The premises of `C93_rotated` are met: one of two commitments is opened, and a key is added. -/
theorem sample_rotated :
    acceptRotation Env.debug (fun _ => none) addingHash toy [historyEvent partIcp 59 143] ((historyEvent partRot 64 15).raw ++ (lit "-AAC" ++ (partTexts.flatten ++ lit "{"))) =
      .ok { event := historyEvent partRot 64 15, signers := [0, 1], opened := [1], left := lit "{" } := by
  refine C93_rotated (kind := none) (x := .str (lit "KERI10JSON000000_")) (rest := partRot.tail) (signers := [signerB, signerA]) (ks := keyTexts.reverse)
    (later := []) (earlier := []) (e := historyEvent partIcp 59 143) (commits := [⟨lit "E", 0, List.replicate 32 0⟩, ⟨lit "E", 0, 14 :: 49 :: List.replicate 30 0⟩])
    (next := ⟨.int 1, false, 1, some ⟨lit "M", 0, [0, 1]⟩, none⟩) (th := ⟨.int 2, false, 2, some ⟨lit "M", 0, [0, 2]⟩, none⟩) (sigs := partSigs) (c := ⟨lit "-A", 2⟩)
    (by kernel_rfl) (by simp [Plain, PlainFields, PlainElems, lit, partRot, keyTexts]) (floatsRead_of_noFloats _ (by decide +kernel)) (by simp [Utf8Value, Utf8Fields, Utf8Elems, partRot, keyTexts]; decide +kernel)
    (by decide +kernel) (by decide +kernel) (o := partRot) rfl (by kernel_rfl) (by kernel_rfl) rfl rfl (by simp) (by kernel_rfl) (by kernel_rfl) (by kernel_rfl) ?_ rfl
    (.cons (by decide +kernel) (.cons (by decide +kernel) .nil)) (by kernel_rfl) ?_ (by kernel_rfl) (by kernel_rfl)
    (.cons (by kernel_rfl) (.cons (by kernel_rfl) .nil)) (by kernel_rfl) (by kernel_rfl) (by decide +kernel)
  · intro g hg
    simp only [List.mem_cons, List.not_mem_nil, or_false] at hg
    rcases hg with rfl | rfl
    · exact ⟨2, none, _, none, none, none, none, C65_generated Env.debug toy 2 none .k1⟩
    · exact ⟨1, none, _, none, none, none, none, C65_generated Env.debug toy 1 none .ed25519⟩
  · intro y hy
    simp only [partSigs, List.mem_cons, List.not_mem_nil, or_false] at hy
    rcases hy with rfl | rfl
    · exact ⟨signerB, 4, _, lit "1AABAgICAgICAgICAgICAgICAgICAgICAgICAgICAgICAgIC", rfl, by kernel_rfl, rfl, by kernel_rfl, by kernel_rfl⟩
    · refine ⟨signerA, 3, rfl, by kernel_rfl, ?_⟩
      intro d t hd ht
      have hd : (⟨lit "E", 0, List.replicate 32 0⟩ : Matter) = d := by simpa using hd
      subst hd
      have ht' : signerA.verfer.qb64b Env.debug = .ok (lit "DAEBAQEBAQEBAQEBAQEBAQEBAQEBAQEBAQEBAQEBAQEB") := by kernel_rfl
      obtain rfl := Res.ok.inj (ht'.symm.trans ht)
      decide +kernel

/-- Without the signature that opens a commitment, and with one that names the wrong commitment, the rotation is refused. -/
theorem sample_not_rotated :
    acceptRotation Env.debug (fun _ => none) addingHash toy [historyEvent partIcp 59 143]
      ((historyEvent partRot 64 15).raw ++ (lit "-AAC" ++ (lit "CAAEBAQEBAQEBAQEBAQEBAQEBAQEBAQEBAQEBAQEBAQEBAQEBAQEBAQEBAQEBAQEBAQEBAQEBAQEBAQEBAQEBAQE" ++ partTexts[1]))) = .err .validation ∧
    acceptRotation Env.debug (fun _ => none) addingHash toy [historyEvent partIcp 59 143] ((historyEvent partRot 64 15).raw ++ (lit "-AAB" ++ partTexts[0])) = .err .validation := by
  refine ⟨by kernel_rfl, by kernel_rfl⟩

end Cesride
