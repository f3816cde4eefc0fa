import Verif.Props.Founding3
import Verif.Props.PartialRotation

/-! # Property C112: an identifier lives on

The next signers rotate: they show the keys that were committed to, commit themselves to the next ones and sign. -/

namespace Cesride
namespace Builder
open Common Spec Tholder R32

variable {E : Env} {F : Str → Option Str} {H : Hash} {C : Crypto}

/-- The fields of a rotation event, without changes of witnesses. -/
def rotationEntries (vs ilk d i sn p : Str) (kt : Value) (keys : List Str) (nt : Value) (ndigs : List Str) : List (Str × Value) :=
  [(lit "v", .str vs), (lit "t", .str ilk), (lit "d", .str d), (lit "i", .str i), (lit "s", .str sn), (lit "p", .str p), (lit "kt", kt), (lit "k", .arr (keys.map .str)),
    (lit "nt", nt), (lit "n", .arr (ndigs.map .str)), (lit "bt", .str (lit "0")), (lit "br", .arr []), (lit "ba", .arr []), (lit "a", .arr [])]

/-- The threshold of half of the keys, as it is written into events. -/
def halfText (E : Env) (F : Str → Option Str) (n : Nat) : Res Value := do
  let t ← Tholder.new E F none none (some (.int ((n + 1) / 2 : Nat)))
  t.sith

/-- The latest event of a history that sets keys. -/
def standing : List Sadder → Res Sadder
  | [] => .err .value
  | e :: earlier => do
    if ← Serder.est e then .ok e else standing earlier

/-- The rotation after a history (the latest event first): the identifier of the latest event, its number plus one, its SAID, the keys of the signers, digests of the keys of the next ones;
delegated if the latest event that sets keys is. -/
def rotate (E : Env) (F : Str → Option Str) (H : Hash) (history : List Sadder) (signers next : List Signer) : Res Sadder :=
  match history with
  | [] => .err .value
  | event :: _ => do
    let i ← Serder.pre event
    let n ← Serder.sn E event
    let p ← event.said E
    let est ← standing history
    let t ← est.ked.index (lit "t")
    let t ← t.toStr
    let sner ← Number.new E (some (n + 1)) none none none none none none
    let sn ← Number.numh sner
    let keys ← each (keyText E) signers
    let ndigs ← each (commitment E H) next
    let kt ← halfText E F keys.length
    let nt ← halfText E F ndigs.length
    let vs ← versify none none none none
    let (_, ked) ← Saider.saidify E H (.obj (rotationEntries vs (if t = lit "dip" ∨ t = lit "drt" then lit "drt" else lit "rot") [] i sn p kt keys nt ndigs)) none none none none
    Serder.new E F H none none none (some ked) none

/-- The fields of an interaction event. -/
def interactionEntries (vs d i sn p : Str) (data : List Value) : List (Str × Value) :=
  [(lit "v", .str vs), (lit "t", .str (lit "ixn")), (lit "d", .str d), (lit "i", .str i), (lit "s", .str sn), (lit "p", .str p), (lit "a", .arr data)]

/-- The interaction event after an event, with some data. -/
def interact (E : Env) (F : Str → Option Str) (H : Hash) (event : Sadder) (data : List Value) : Res Sadder := do
  let i ← Serder.pre event
  let n ← Serder.sn E event
  let p ← event.said E
  let sner ← Number.new E (some (n + 1)) none none none none none none
  let sn ← Number.numh sner
  let vs ← versify none none none none
  let (_, ked) ← Saider.saidify E H (.obj (interactionEntries vs [] i sn p data)) none none none none
  Serder.new E F H none none none (some ked) none

/-- The signature of the signer at a position, which opens the commitment at the same position. -/
def openAt (E : Env) (C : Crypto) (rnd : Nat → Nat) (signers : List Signer) (ser : List UInt8) (i : Nat) : Res Siger :=
  match signers[i]? with
  | some g => Signer.signIndexed E C g ser false i (some i) (rnd i)
  | none => .err .value

/-- The rotation with the signatures of the signers at some positions. -/
def announceRotation (E : Env) (C : Crypto) (rnd : Nat → Nat) (signers : List Signer) (event : Sadder) (positions : List Nat) : Res Str := do
  let sigs ← each (openAt E C rnd signers event.raw) positions
  messagize E event (some sigs) none none none

/-! ## Proofs -/

/-- What is known of an event that sets keys: those of some signers, and commitments to the next ones. -/
structure Standing (E : Env) (F : Str → Option Str) (H : Hash) (C : Crypto) (e : Sadder) (signers next : List Signer) : Prop where
  ilk : ∃ t, e.ked.index (lit "t") = .ok (.str t) ∧ t ∈ [lit "icp", lit "rot", lit "dip", lit "drt"]
  made : ∀ g ∈ signers, MadeSigner E C g
  madeNext : ∀ g ∈ next, MadeSigner E C g
  nonempty : signers ≠ []
  few : signers.length ≤ 4096
  keys : Serder.verfers E e = .ok (signers.map (·.verfer))
  thold : ∃ t, Serder.tholder E F e = .ok (some t) ∧ t.num = .ok (some ((signers.length + 1) / 2)) ∧ ∃ v, Tholder.new E F none none (some v) = .ok t
  commits : ∃ ds, Serder.digers E H e = .ok ds ∧ Aligned (fun d g => ∃ k, Matter.qb64b E g.verfer = .ok k ∧ H.digest d.code k = d.raw) ds next
  nthold : ∃ t, Serder.ntholder E F e = .ok (some t) ∧ t.num = .ok (some ((next.length + 1) / 2)) ∧ ∃ v, Tholder.new E F none none (some v) = .ok t

/-- What the next event needs to know of the latest one. -/
structure Latest (E : Env) (e : Sadder) (n : Nat) (i : Str) : Prop where
  pre : Serder.pre e = .ok i
  short : Short i
  sn : Serder.sn E e = .ok n
  said : ∃ p, e.said E = .ok p ∧ Short p

/-- What is known of a history. -/
structure Head (E : Env) (F : Str → Option Str) (H : Hash) (C : Crypto) (e : Sadder) (earlier : List Sadder) (i : Str) (signers next : List Signer) : Prop where
  latest : Latest E e earlier.length i
  stands : ∃ later est before, e :: earlier = later ++ est :: before ∧ (∀ l ∈ later, Serder.est l = .ok false) ∧ Standing E F H C est signers next

theorem half_total (E : Env) (F : Str → Option Str) {n : Nat} (hn : n ≤ 4096) :
    ∃ t, halfText E F n = .ok (.str (hexStr ((n + 1) / 2))) ∧ Tholder.new E F none none (some (.str (hexStr ((n + 1) / 2)))) = .ok t ∧ t.num = .ok (some ((n + 1) / 2)) := by
  obtain ⟨t, h1, h2, h3, h4⟩ := number_thold E F (n := (n + 1) / 2) (by omega)
  obtain ⟨x, hx, hy⟩ := C37_sith h1 (sith_nonempty h1)
  obtain rfl := Res.ok.inj (h4.symm.trans hx)
  exact ⟨t, by unfold halfText; rw [h1, Res.ok_bind, h4], hy, h2⟩

theorem satisfied {t : Tholder} {v : Value} {n : Nat} (h : Tholder.new E F none none (some v) = .ok t) (hn : t.num = .ok (some n)) (h0 : 0 < n) {L : List Nat} (hL : L.Nodup) (hc : n ≤ L.length) :
    t.satisfy E L = .ok true := by
  rw [C34_distinct_indices h hn E hL, List.toFinset_card_of_nodup hL]
  simp [h0, hc]

theorem rotation_d {vs ilk d i sn p : Str} {kt : Value} {keys : List Str} {nt : Value} {ndigs : List Str} (x : Str) :
    Value.insert (rotationEntries vs ilk d i sn p kt keys nt ndigs) (lit "d") (.str x) = rotationEntries vs ilk x i sn p kt keys nt ndigs := rfl

theorem rotation_le {vs ilk d i sn p : Str} {a b : Nat} {keys ndigs : List Str} (h1 : vs.length ≤ 100) (h2 : d.length ≤ 100) (h3 : i.length ≤ 100) (h4 : sn.length ≤ 100) (h5 : p.length ≤ 100)
    (h6 : ilk.length ≤ 3) (ha : (hexStr a).length ≤ 4) (hb : (hexStr b).length ≤ 4) (hk : ∀ t ∈ keys, t.length ≤ 48) (hn : ∀ t ∈ ndigs, t.length ≤ 48) (lk : keys.length ≤ 4096) (ln : ndigs.length ≤ 4096) :
    (Value.obj (rotationEntries vs ilk d i sn p (.str (hexStr a)) keys (.str (hexStr b)) ndigs)).toJson.length < 2 ^ 24 := by
  have s1 := jsonStr_le vs
  have s2 := jsonStr_le d
  have s3 := jsonStr_le i
  have s4 := jsonStr_le (hexStr a)
  have s5 := jsonStr_le (hexStr b)
  have s6 := jsonStr_le sn
  have s7 := jsonStr_le p
  have s8 := jsonStr_le ilk
  have l1 := arr_le hk lk
  have l2 := arr_le hn ln
  have e : ∀ k : Str, k.length ≤ 2 → (jsonStr k).length ≤ 14 := fun k hk => by have := jsonStr_le k; omega
  have k1 := e (lit "v") (by decide)
  have k2 := e (lit "t") (by decide)
  have k3 := e (lit "d") (by decide)
  have k4 := e (lit "i") (by decide)
  have k5 := e (lit "s") (by decide)
  have k6 := e (lit "kt") (by decide)
  have k7 := e (lit "k") (by decide)
  have k8 := e (lit "nt") (by decide)
  have k9 := e (lit "n") (by decide)
  have k10 := e (lit "bt") (by decide)
  have k11 := e (lit "br") (by decide)
  have k12 := e (lit "ba") (by decide)
  have k13 := e (lit "a") (by decide)
  have k14 := e (lit "p") (by decide)
  have t2 : (jsonStr (lit "0")).length = 3 := by decide
  have t3 : (Value.arr ([] : List Value)).toJson.length = 2 := by decide
  have str : ∀ t, (Value.str t).toJson = jsonStr t := fun _ => by simp [Value.toJson]
  unfold rotationEntries
  rw [show ∀ o : List (Str × Value), (Value.obj o).toJson = ch '{' :: (fieldsJson o ++ [ch '}']) from fun _ => by simp [Value.toJson]]
  simp only [List.cons_append, List.nil_append, fieldsJson, List.length_cons, List.length_append, List.length_nil, str]
  simp only [t2, t3]
  omega

/-- What `saidify` makes of the fields of a rotation. -/
theorem rotation_saidified {vs ilk d i sn p : Str} {kt : Value} {keys : List Str} {nt : Value} {ndigs : List Str} {m : Matter} {sad' : Value}
    (h : Saider.saidify E H (.obj (rotationEntries vs ilk d i sn p kt keys nt ndigs)) none none none none = .ok (m, sad')) :
    ∃ vs' t n j, VersionText vs' j 1 0 (lit "JSON") n ∧ m.qb64 E = .ok t ∧ m.code = lit "E" ∧ sad' = .obj (rotationEntries vs' ilk t i sn p kt keys nt ndigs) ∧ ∃ z, Matter.Wf m z := by
  obtain ⟨n, z, o, o', t, hcd, hz, ho, hin, hprep, hm, hmq, rfl⟩ := Saider.saidify_ok h
  injection ho with ho
  subst ho
  simp only [Option.getD_none] at hcd hin hprep hm
  have hdum : ∀ k, Saider.dummy k = .str (List.replicate k (ch '#')) := fun _ => rfl
  rw [hdum, rotation_d] at hprep
  obtain ⟨r, hr, hrk, _⟩ := Saider.prep_versioned hprep rfl
  obtain ⟨w, j, sz, e, t1, t2, -, t4, t5⟩ := sizeify_first.mp hr
  rw [t5] at hrk
  injection hrk with hrk
  subst hrk
  obtain ⟨z', _, _, wf, _⟩ := digest_matter E H hcd (Value.obj (Saider.removeKeys ((none : Option (List Str)).getD []) ((lit "v", Value.str (mkVs j _)) :: _))).toJson
  exact ⟨_, t, _, j, mkVs_text t2 t4, hmq, by rw [hm], rfl, z', by rw [hm]; exact wf⟩

end Builder
end Cesride
