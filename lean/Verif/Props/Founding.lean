import Verif.Props.Vault5

/-! # Property C111: any signers can found an identifier

A controller who uses nothing but the library: public keys of signers, digests of the keys of the next signers, witnesses. Everything succeeds, and the receiver of C110 accepts it. -/

namespace Cesride
namespace Builder
open Common Spec Tholder R32

variable {E : Env} {F : Str → Option Str} {H : Hash} {C : Crypto}

/-- Do the same with every element of a list; the first failure ends it. -/
def each {α β : Type} (f : α → Res β) : List α → Res (List β)
  | [] => .ok []
  | a :: l => do
    let b ← f a
    let bs ← each f l
    .ok (b :: bs)

/-- The text of the public key of a signer. -/
def keyText (E : Env) (g : Signer) : Res Str := g.verfer.qb64 E

/-- The text of the digest of the public key of a signer, by which an event commits itself to that key. -/
def commitment (E : Env) (H : Hash) (g : Signer) : Res Str := do
  let k ← g.verfer.qb64b E
  let d ← Diger.newWithSer E H k none
  d.qb64 E

/-- An inception event for signers, next signers and witnesses, with default thresholds and a self-addressing identifier. -/
def found (E : Env) (F : Str → Option Str) (H : Hash) (signers next witnesses : List Signer) (delegator : Option Str) : Res Sadder := do
  let keys ← each (keyText E) signers
  let ndigs ← each (commitment E H) next
  let wits ← each (keyText E) witnesses
  incept E F H keys none (some ndigs) none none (some wits) none none none none (some (lit "E")) none delegator

/-- The signature of the signer at a position. -/
def signAt (E : Env) (C : Crypto) (rnd : Nat → Nat) (signers : List Signer) (ser : List UInt8) (i : Nat) : Res Siger :=
  match signers[i]? with
  | some g => Signer.signIndexed E C g ser false i none (rnd i)
  | none => .err .value

/-- The event with the signatures of the signers at some positions. -/
def announce (E : Env) (C : Crypto) (rnd : Nat → Nat) (signers : List Signer) (event : Sadder) (positions : List Nat) : Res Str := do
  let sigs ← each (signAt E C rnd signers event.raw) positions
  messagize E event (some sigs) none none none

/-- A receipt for an event with the signatures of the witnesses at some positions over the event. -/
def witnessed (E : Env) (F : Str → Option Str) (H : Hash) (C : Crypto) (rnd : Nat → Nat) (witnesses : List Signer) (event : Sadder) (positions : List Nat) : Res Str := do
  let i ← Serder.pre event
  let sn ← Serder.sn E event
  let d ← event.said E
  let r ← receipt E F H i sn d none none
  let sigs ← each (signAt E C rnd witnesses event.raw) positions
  messagize E r none none (some sigs) none

/-! ## Proofs -/

theorem each_ok {α β : Type} {f : α → Res β} : ∀ {l : List α} {bs : List β}, each f l = .ok bs ↔ Aligned (fun a b => f a = .ok b) l bs
  | [], bs => ⟨fun h => by cases h; exact .nil, fun h => by cases h; rfl⟩
  | a :: l, bs => by
    unfold each
    constructor
    · intro h
      obtain ⟨b, hb, h⟩ := Res.bind_eq_ok.mp h
      obtain ⟨bs', hbs, h⟩ := Res.bind_eq_ok.mp h
      cases h
      exact .cons hb (each_ok.mp hbs)
    · intro h
      cases h with
      | cons hb hr => rw [hb, Res.ok_bind, each_ok.mpr hr, Res.ok_bind]

theorem each_total {α β : Type} {f : α → Res β} : ∀ {l : List α}, (∀ a ∈ l, ∃ b, f a = .ok b) → ∃ bs, Aligned (fun a b => f a = .ok b) l bs
  | [], _ => ⟨[], .nil⟩
  | a :: l, h => by
    obtain ⟨b, hb⟩ := h a (by simp)
    obtain ⟨bs, hbs⟩ := each_total (l := l) fun x hx => h x (by simp [hx])
    exact ⟨b :: bs, .cons hb hbs⟩

theorem aligned_length {α β : Type} {R : α → β → Prop} : ∀ {l : List α} {bs : List β}, Aligned R l bs → l.length = bs.length
  | _, _, .nil => rfl
  | _, _, .cons _ h => by simp [aligned_length h]

theorem aligned_imp {α β : Type} {R S : α → β → Prop} : ∀ {l : List α} {bs : List β}, Aligned R l bs → (∀ a ∈ l, ∀ b, R a b → S a b) → Aligned S l bs
  | _, _, .nil, _ => .nil
  | _, _, .cons h t, f => .cons (f _ (by simp) _ h) (aligned_imp t fun a ha b => f a (by simp [ha]) b)

theorem aligned_mem {α β : Type} {R : α → β → Prop} : ∀ {l : List α} {bs : List β}, Aligned R l bs → ∀ b ∈ bs, ∃ a ∈ l, R a b
  | _, _, .nil, _, h => by cases h
  | _, _, .cons h t, b, hb => by
    rcases List.mem_cons.mp hb with rfl | hb
    · exact ⟨_, by simp, h⟩
    · obtain ⟨a, ha, hr⟩ := aligned_mem t b hb
      exact ⟨a, by simp [ha], hr⟩

/-- What is known of the texts in the event. -/
def Short (t : Str) : Prop := t.length ≤ 48 ∧ (∀ c ∈ t, escapeByte c = [c]) ∧ Ascii t

theorem short_of_wf {p : Matter} {z : Sizage} (w : Matter.Wf p z) {t : Str} (ht : p.qb64 E = .ok t) (hc : p.code ∈ verferCodes ++ [lit "E"]) : Short t ∧ Matter.exfil t = .ok p := by
  obtain ⟨htx, hex, hpl⟩ := text_of_wf w ht
  refine ⟨⟨?_, hpl, ?_⟩, hex⟩
  · have hz : ∀ c ∈ verferCodes ++ [lit "E"], ∃ z : Sizage, Matter.sizage c = .ok z ∧ z.fs ≠ u32Max ∧ z.fs ≤ 48 := by
      have : ∀ c ∈ verferCodes ++ [lit "E"], Matter.sizage c = .ok ⟨1, 0, 0, 44⟩ ∨ Matter.sizage c = .ok ⟨4, 0, 0, 48⟩ := by decide +kernel
      intro c hc
      rcases this c hc with h | h <;> exact ⟨_, h, by decide, by decide⟩
    obtain ⟨z', h1, h2, h3⟩ := hz _ hc
    obtain rfl := Res.ok.inj (w.szg.symm.trans h1)
    rw [htx, w.text_length]
    unfold Matter.total
    rw [if_neg h2]
    exact h3
  · rw [htx]
    exact fun c hc => isB64_lt128 c (w.text_b64 c hc)

theorem key_total {g : Signer} (hg : MadeSigner E C g) : ∃ t, keyText E g = .ok t ∧ Short t ∧ Matter.exfil t = .ok g.verfer ∧ g.verfer.code ∈ verferCodes := by
  obtain ⟨_, _, _, _, _, _, _, hg⟩ := hg
  obtain ⟨x, b, h1, _, h3, _⟩ := C53_key_transport E C hg
  obtain ⟨m, hm1, hm2⟩ := Res.bind_eq_ok.mp h3
  obtain ⟨_, hm3, hm4⟩ := Res.bind_eq_ok.mp hm2
  obtain rfl := Res.ok.inj hm4
  have hm1 : Matter.exfil x = .ok g.verfer := hm1
  have hc : g.verfer.code ∈ verferCodes := by
    unfold Verfer.validateCode at hm3
    split at hm3
    · rename_i hc; simpa [verferCodes] using hc
    · cases hm3
  obtain ⟨z, w⟩ := Matter.exfil_wf (E := E) hm1 h1
  exact ⟨x, h1, (short_of_wf w h1 (List.mem_append_left _ hc)).1, hm1, hc⟩

theorem commitment_total {g : Signer} (hg : MadeSigner E C g) (H : Hash) : ∃ t, commitment E H g = .ok t ∧ Short t ∧ ∃ d k, Matter.exfil t = .ok d ∧ (∃ n, (d.code, n) ∈ digestSizes) ∧
    g.verfer.qb64b E = .ok k ∧ Diger.verify H d k = .ok true ∧ H.digest d.code k = d.raw := by
  obtain ⟨k, hk, _⟩ := key_total hg
  have hk : g.verfer.qb64b E = .ok k := hk
  obtain ⟨d, t, h1, h2, h3, h4, h5⟩ := C55_hash E H k (code := none) (n := 32) (by decide +kernel)
  have h1' : Diger.newWithSer E H k none = .ok d := h1
  obtain ⟨z, t', hm, w, ht⟩ := digest_matter E H (code := lit "E") (n := 32) (by decide +kernel) k
  have hd : d = { code := lit "E", size := 0, raw := H.digest (lit "E") k } := by
    have hz : Diger.new E H (some k) none none none none none = .ok { code := lit "E", size := 0, raw := H.digest (lit "E") k } := by
      unfold Diger.new
      rw [show Matter.new E none none none none none = .err .validation from rfl]
      dsimp only
      rw [show (none : Option Str).getD (lit "E") = lit "E" from rfl, (validateDigestCode_ok.mpr ⟨32, by decide +kernel⟩ : validateDigestCode (lit "E") = .ok ()), Res.ok_bind, hashDigest_eq (n := 32) (by decide +kernel), Res.ok_bind]
      exact hm
    exact Res.ok.inj (h1.symm.trans hz)
  subst hd
  obtain ⟨sh, hx⟩ := short_of_wf w h4 (List.mem_append_right _ (by simp))
  have hrow : (lit "E", 32) ∈ digestSizes := by decide +kernel
  refine ⟨t, ?_, sh, _, k, hx, ⟨32, hrow⟩, hk, h5, rfl⟩
  unfold commitment
  rw [hk, Res.ok_bind, h1', Res.ok_bind]
  exact h4

theorem sign_total {g : Signer} (hg : MadeSigner E C g) (ser : List UInt8) {i : Nat} {j : Option Nat} (hi : i < 4096) (hj : j.getD i < 4096) (r : Nat) :
    ∃ y, Signer.signIndexed E C g ser false i j r = .ok y ∧ y.indexer.index = i := by
  obtain ⟨_, _, _, _, _, _, _, hg⟩ := hg
  obtain ⟨c, ok, _⟩ := Signer.new_ok hg
  have hS : schemeOf c ∈ Spec.schemes ∧ ∃ k ∈ Spec.idxCodes, k.code ∈ (schemeOf c).indexed ∧ k.current = false ∧ k.digits = 2 ∧ k.separate = true := by
    cases c
    · exact ⟨by simp [schemeOf, schemes], ⟨lit "2A", false, 2, true, 64⟩, by simp [idxCodes], by simp [schemeOf], rfl, rfl, rfl⟩
    · exact ⟨by simp [schemeOf, schemes], ⟨lit "2C", false, 2, true, 64⟩, by simp [idxCodes], by simp [schemeOf], rfl, rfl, rfl⟩
    · exact ⟨by simp [schemeOf, schemes], ⟨lit "2E", false, 2, true, 64⟩, by simp [idxCodes], by simp [schemeOf], rfl, rfl, rfl⟩
  obtain ⟨h1, k, k1, k2, k3, k4, k5⟩ := hS
  obtain ⟨_, x, _, _, _, _, h2, _, h3, _⟩ := (C52_signing_code E C hg h1 ok.code ser false i j r).1
    ⟨k, k1, k2, k3, by rw [k4]; omega, fun _ => by rw [if_pos k5, k4]; simpa using hj⟩
  exact ⟨x, h2, h3⟩

theorem signs_total {signers : List Signer} (hm : ∀ g ∈ signers, MadeSigner E C g) (hl : signers.length ≤ 4096) (ser : List UInt8) (rnd : Nat → Nat) {positions : List Nat}
    (hp : ∀ i ∈ positions, i < signers.length) :
    ∃ sigs, each (signAt E C rnd signers ser) positions = .ok sigs ∧ SignedBy E C signers ser sigs ∧ sigs.map (·.indexer.index) = positions := by
  have one : ∀ i ∈ positions, ∃ y, signAt E C rnd signers ser i = .ok y := by
    intro i hi
    have := hp i hi
    obtain ⟨y, hy, _⟩ := sign_total (hm signers[i] (List.getElem_mem this)) ser (i := i) (j := none) (by omega) (by show i < 4096; omega) (rnd i)
    exact ⟨y, by unfold signAt; rw [List.getElem?_eq_getElem this]; exact hy⟩
  obtain ⟨sigs, hs⟩ := each_total one
  have hs' := aligned_imp (S := fun i y => y.indexer.index = i ∧ ∃ g r, signers[i]? = some g ∧ Signer.signIndexed E C g ser false i none r = .ok y) hs (by
    intro i hi y hy
    have hlt := hp i hi
    unfold signAt at hy
    rw [List.getElem?_eq_getElem hlt] at hy
    obtain ⟨y', hy', hidx⟩ := sign_total (hm signers[i] (List.getElem_mem hlt)) ser (i := i) (j := none) (by omega) (by show i < 4096; omega) (rnd i)
    obtain rfl := Res.ok.inj (hy'.symm.trans hy)
    exact ⟨hidx, _, _, List.getElem?_eq_getElem hlt, hy'⟩)
  refine ⟨sigs, each_ok.mpr hs, ?_, ?_⟩
  · intro y hy
    obtain ⟨i, _, rfl, g, r, h1, h2⟩ := aligned_mem hs' y hy
    exact ⟨g, false, none, r, h1, h2⟩
  · clear hs one hp
    induction hs' with
    | nil => rfl
    | cons h _ ih => rw [List.map_cons, h.1, ih]

end Builder
end Cesride
