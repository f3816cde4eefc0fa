import Verif.Props.Vault
import Verif.Props.Receipts

/-! # Property C110: from inception to acceptance

The clients below are what a user writes who receives inception messages, as the builders of C108 and C109 make them, and receipts for them. Their loops and
comparisons are not library code; everything they call is. -/

namespace Cesride
namespace Builder
open Common Spec Tholder

/-- The positions of the keys under which some of the signatures verify, each once. -/
def judge (C : Crypto) (keys : List Matter) (ser : List UInt8) (sigs : List Siger) : List Nat :=
  ((sigs.filter (verifiesUnder C keys ser)).map (·.indexer.index)).dedup

/-- The signatures of the controller. -/
def controllerSigs (gs : List Group) : List Siger := gs.flatMap fun g => match g with
  | .controller sigs => sigs
  | _ => []

/-- The signatures of witnesses. -/
def witnessSigs (gs : List Group) : List Siger := gs.flatMap fun g => match g with
  | .witness sigs => sigs
  | _ => []

/-- What a receiver learns from an inception message: the event, whether the identifier belongs to it (it verifies, and stands in the field `d` if it is a digest), which keys have signed and whether they are enough, which witnesses have
signed and whether they are enough, and the text after the message. -/
structure Accepted where
  event : Sadder
  identified : Bool
  signers : List Nat
  signed : Bool
  witnesses : List Nat
  witnessed : Bool
  left : Str

/-- Receive an inception message from the front of a byte stream. -/
def acceptInception (E : Env) (F : Str → Option Str) (H : Hash) (C : Crypto) (stream : List UInt8) : Res Accepted := do
  let msg ← readMessage E F H stream
  let pre ← Serder.pre msg.event
  let prefixer ← Prefixer.newWithQb64 E H pre
  let verified ← Prefixer.verify E H prefixer msg.event.ked (some true)
  let d ← msg.event.ked.index (lit "d")
  let d ← d.toStr
  let identified := verified && (!prefixer.digestive || decide (d = pre))
  let keys ← Serder.verfers E msg.event
  let named ← Serder.werfers E msg.event
  let signers := judge C keys msg.event.raw (controllerSigs msg.groups)
  let witnesses := judge C named msg.event.raw (witnessSigs msg.groups)
  let threshold ← Serder.tholder E F msg.event
  let signed ← (match threshold with
    | some t => t.satisfy E signers
    | none => .ok false : Res Bool)
  let toad ← witnessThreshold E msg.event
  .ok { event := msg.event, identified := identified, signers := signers, signed := signed, witnesses := witnesses, witnessed := decide (toad ≤ witnesses.length), left := msg.left }

/-- What a receiver learns from a receipt message for an event it has: which witnesses of the event have signed it, whether they are enough, and the text after the message. -/
structure Confirmed where
  receipt : Sadder
  witnesses : List Nat
  witnessed : Bool
  left : Str

/-- Receive a receipt message for an event from the front of a byte stream. -/
def confirm (E : Env) (F : Str → Option Str) (H : Hash) (C : Crypto) (event : Sadder) (stream : List UInt8) : Res Confirmed := do
  let msg ← readMessage E F H stream
  let t ← msg.event.ked.index (lit "t")
  let t ← t.toStr
  let i ← Serder.pre msg.event
  let i' ← Serder.pre event
  let sn ← Serder.sn E msg.event
  let sn' ← Serder.sn E event
  let d ← msg.event.said E
  let d' ← event.said E
  if t = lit "rct" ∧ i = i' ∧ sn = sn' ∧ d = d' then do
    let named ← Serder.werfers E event
    let witnesses := judge C named event.raw (witnessSigs msg.groups)
    let toad ← witnessThreshold E event
    .ok { receipt := msg.event, witnesses := witnesses, witnessed := decide (toad ≤ witnesses.length), left := msg.left }
  else .err .value

/-- Signatures over `ser`, each made by the signer at the position it carries. -/
def SignedBy (E : Env) (C : Crypto) (signers : List Signer) (ser : List UInt8) (sigs : List Siger) : Prop :=
  ∀ y ∈ sigs, ∃ g only ondex r, signers[y.indexer.index]? = some g ∧ Signer.signIndexed E C g ser only y.indexer.index ondex r = .ok y

/-- The signers, as they were made by the library, and the texts of their keys. -/
def KeysOf (E : Env) (C : Crypto) (signers : List Signer) (keys : List Str) : Prop :=
  (∀ g ∈ signers, MadeSigner E C g) ∧ Aligned (fun g t => g.verfer.qb64 E = .ok t) signers keys

variable {E : Env} {F : Str → Option Str} {H : Hash} {C : Crypto}

theorem judge_all {signers : List Signer} {ser : List UInt8} {sigs : List Siger} (hm : ∀ g ∈ signers, MadeSigner E C g) (h : SignedBy E C signers ser sigs) :
    judge C (signers.map (·.verfer)) ser (sigs.map bare) = (sigs.map (·.indexer.index)).dedup := by
  unfold judge
  rw [List.filter_eq_self.mpr, List.map_map]
  · rfl
  · intro y hy
    obtain ⟨z, hz, rfl⟩ := List.mem_map.mp hy
    obtain ⟨g, only, ondex, r, hi, hs⟩ := h z hz
    obtain ⟨_, _, _, _, _, _, _, hg⟩ := hm g (List.mem_of_getElem? hi)
    have hv := (C53_indexed_verifies E C hg ser r hs).2.1
    unfold verifiesUnder bare
    rw [List.getElem?_map, hi]
    simpa using hv

theorem signed_genuine {signers : List Signer} {ser : List UInt8} {sigs : List Siger} (hm : ∀ g ∈ signers, MadeSigner E C g) (h : SignedBy E C signers ser sigs) :
    ∀ x ∈ sigs, Genuine E x := by
  intro y hy
  obtain ⟨g, only, ondex, r, hi, hs⟩ := h y hy
  obtain ⟨_, _, _, _, _, _, _, hg⟩ := hm g (List.mem_of_getElem? hi)
  exact (signIndexed_obtained hg hs).2

theorem keys_read : ∀ {signers : List Signer} {ks : List Str}, KeysOf E C signers ks → ∀ t ∈ ks, ∃ g ∈ signers, g.verfer.qb64 E = .ok t ∧ Matter.exfil t = .ok g.verfer ∧ Ascii t
  | _, _, ⟨_, .nil⟩, t, ht => by cases ht
  | g :: signers, k :: ks, ⟨hm, .cons hk hr⟩, t, ht => by
    rcases List.mem_cons.mp ht with rfl | ht
    · obtain ⟨_, _, _, _, _, _, _, hg⟩ := hm g (by simp)
      obtain ⟨x, b, h1, _, h3, _⟩ := C53_key_transport E C hg
      obtain rfl := Res.ok.inj (h1.symm.trans hk)
      obtain ⟨m, hm1, hm2⟩ := Res.bind_eq_ok.mp h3
      obtain ⟨_, hm3, hm4⟩ := Res.bind_eq_ok.mp hm2
      obtain rfl := Res.ok.inj hm4
      have hm1 : Matter.exfil x = .ok g.verfer := hm1
      obtain ⟨z, w⟩ := Matter.exfil_wf (E := E) hm1 h1
      refine ⟨g, by simp, h1, hm1, ?_⟩
      rw [(text_of_wf w h1).1]
      exact fun c hc => isB64_lt128 c (w.text_b64 c hc)
    · obtain ⟨g', hg', h⟩ := keys_read ⟨fun g hg => hm g (by simp [hg]), hr⟩ t ht
      exact ⟨g', by simp [hg'], h⟩

variable {keys : List Str} {sith : Option Value} {ndigs : Option (List Str)} {nsith : Option Value}
    {toad : Option Nat} {wits cnfg : Option (List Str)} {data : Option (List Value)} {version : Option Version} {kind code : Option Str}
    {intive : Option Bool} {delpre : Option Str} {s : Sadder}

/-- The identifier verifies against the event: always for self-addressing identifiers, otherwise if the key is transferable or there are no next keys. -/
theorem identified (h : incept E F H keys sith ndigs nsith toad wits cnfg data version kind code intive delpre = .ok s) {signers : List Signer} (hk : KeysOf E C signers keys)
    (hid : delpre ≠ none ∨ (∃ c ∈ digestPrefixes, code = some c) ∨ ndigs.getD [] = [] ∨ ∀ g ∈ signers, g.verfer.code ∈ transferableKeys) :
    ∃ i p, Serder.pre s = .ok i ∧ utf8Valid i = true ∧ Prefixer.newWithQb64 E H i = .ok p ∧ Prefixer.verify E H p s.ked (some true) = .ok true ∧
      ∃ d, s.ked.index (lit "d") = .ok (.str d) ∧ (p.digestive = true → d = i) := by
  obtain ⟨_, d, _, _, _, _, hked, _, _, _, _, hsaid, _⟩ := C108_event h
  have hd0 : s.ked.index (lit "d") = .ok (.str d) := by rw [hked]; cases delpre <;> rfl
  have hu : ∀ {i p}, Prefixer.new E H none none none none none (some i) none = .ok p → p.qb64 E = .ok i → utf8Valid i = true := by
    intro i p h1 h2
    have h1 : Matter.exfil i = .ok p := ((C54_parsed_unchecked (E := E) (H := H) p).1 i).2.1.mp h1
    obtain ⟨z, w⟩ := Matter.exfil_wf (E := E) h1 h2
    rw [(text_of_wf w h2).1]
    exact utf8Valid_ascii fun c hc => isB64_lt128 c (w.text_b64 c hc)
  by_cases hd : delpre ≠ none ∨ ∃ c ∈ digestPrefixes, code = some c
  · obtain ⟨i, h1, h2, _, h4, h5⟩ := C108_self_addressing h hd
    exact ⟨i, _, h1, hu h4 h2, h4, h5, d, hd0, fun _ => Res.ok.inj (hsaid.symm.trans h2)⟩
  · have hdp : delpre = none := Decidable.not_not.mp fun hn => hd (.inl hn)
    obtain ⟨i, rest, p, rfl, h1, h2, h3, h4, _, _, h5, h6⟩ := C108_basic h hdp (fun c hc hm => hd (.inr ⟨c, hm, hc⟩))
    obtain ⟨g, hg, g1, g2, _⟩ := keys_read hk (i ++ rest) (by simp)
    have hp : Matter.exfil i = .ok p := ((C54_parsed_unchecked (E := E) (H := H) p).1 i).2.1.mp h2
    obtain ⟨z, w⟩ := Matter.exfil_wf (E := E) g2 g1
    have htx := (text_of_wf w g1).1
    have hrest : rest = [] := by
      cases rest with
      | nil => rfl
      | cons b rest =>
        have hlen := w.text_length
        rw [← htx] at hlen
        have := w.exfil_truncated (k := i.length) (by rw [← hlen]; simp)
        rw [← htx, List.take_left, hp] at this
        cases this
    subst hrest
    rw [List.append_nil] at g1 g2
    obtain rfl := Res.ok.inj (hp.symm.trans g2)
    refine ⟨i, _, h1, hu h2 h3, h2, ?_, ?_⟩
    rotate_left
    · exact ⟨d, hd0, fun hdig => absurd (digestive_iff.mp hdig) h4⟩
    have hcase : g.verfer.code ∈ transferableKeys ∨ g.verfer.code ∈ nontransferableKeys := by
      obtain ⟨_, _, _, _, _, _, _, hg'⟩ := hk.1 g hg
      obtain ⟨x, b, e1, _, e3, _⟩ := C53_key_transport E C hg'
      obtain ⟨m, _, hm2⟩ := Res.bind_eq_ok.mp e3
      obtain ⟨_, hm3, hm4⟩ := Res.bind_eq_ok.mp hm2
      obtain rfl := Res.ok.inj hm4
      unfold Verfer.validateCode at hm3
      split at hm3
      · rename_i hc
        revert hc
        generalize g.verfer.code = c
        intro hc
        have : ∀ c ∈ verferCodes, c ∈ transferableKeys ∨ c ∈ nontransferableKeys := by decide +kernel
        exact this c (by simpa [verferCodes] using hc)
      · cases hm3
    rcases hcase with hc | hc
    · rw [h5 hc]; simp
    · rw [h6 hc]
      rcases hid with hid | hid | hid | hid
      · exact absurd hdp hid
      · exact absurd (.inr hid) hd
      · simp [hid]
      · exact absurd hc (by
          have : ∀ c ∈ transferableKeys, c ∉ nontransferableKeys := by decide +kernel
          exact this _ (hid g hg))

/-- The witness threshold that was asked for: the one that was given, by default that of C107, and 0 without witnesses. -/
def Asked (E : Env) (toad : Option Nat) (wits : List Str) (n : Nat) : Prop :=
  (∀ m, toad = some m → n = m) ∧ (toad = none → wits ≠ [] → ample E wits.length none none = .ok n) ∧ (wits = [] → n = 0)

theorem threshold_read {toad : Option Nat} (h : incept E F H keys sith ndigs nsith toad wits cnfg data version kind code intive delpre = .ok s) (ht : ∀ m, toad = some m → m < 2 ^ 128)
    (hw : (wits.getD []).length < 2 ^ 126) :
    ∃ n, witnessThreshold E s = .ok n ∧ Asked E toad (wits.getD []) n := by
  obtain ⟨n, bt, h1, h2, h3, h4, h5, h6, h7, _⟩ := C108_witnesses h ht hw
  refine ⟨n, ?_, h4, h5, h6⟩
  by_cases hi : intive = some true ∧ n < 2 ^ 32 - 1
  · unfold witnessThreshold
    rw [h1, h2 hi, Res.ok_bind]
    dsimp only [Value.toI64]
    rw [if_pos (by omega), Int.toNat_natCast]
  obtain ⟨x, rfl, hx⟩ := h3 hi
  have hsmall : n < 2 ^ 128 := by
    by_cases he : wits.getD [] = []
    · rw [h6 he]; exact Nat.two_pow_pos _
    · exact Nat.lt_of_le_of_lt (h7 he).2 (Nat.lt_of_lt_of_le hw (Nat.pow_le_pow_right (by omega) (by omega)))
  unfold witnessThreshold
  rw [h1, Res.ok_bind]
  dsimp only [Value.toI64]
  rw [Sadder.toStr_ok.mpr rfl, Res.ok_bind]
  have hz : ∃ s' : Sadder, s'.ked = .obj [(lit "s", .str x)] := ⟨{ s with ked := .obj [(lit "s", .str x)] }, rfl⟩
  obtain ⟨s', hs'⟩ := hz
  have := ((C60_sn (E := E) hs').1 n).mpr ⟨x, rfl, .inr ⟨hexNumeral_of_canonical hx, hsmall⟩⟩
  unfold Serder.sn Serder.sner at this
  rw [hs', Sadder.index_ok.mpr ⟨_, rfl, rfl⟩, Res.ok_bind, Sadder.toStr_ok.mpr rfl, Res.ok_bind] at this
  exact this

/-- The keys and the witnesses of the event are those of the signers. -/
theorem keys_of (h : incept E F H keys sith ndigs nsith toad wits cnfg data version kind code intive delpre = .ok s) :
    (∀ {signers}, KeysOf E C signers keys → Serder.verfers E s = .ok (signers.map (·.verfer))) ∧
    (∀ {ws}, KeysOf E C ws (wits.getD []) → Serder.werfers E s = .ok (ws.map (·.verfer))) := by
  obtain ⟨vs, d, i, kt, nt, bt, hk, -⟩ := C108_event h
  constructor
  · intro signers hs
    exact ((C60_verfers hk).1 _ (by cases delpre <;> rfl) _).mpr (verfers_of_signers hs.1 hs.2)
  · intro signers hs
    exact ((C60_werfers hk).1 _ (by cases delpre <;> rfl) _).mpr (verfers_of_signers hs.1 hs.2)

/-- C110. An inception event, signed by some of its keys (and witnesses, if their signatures are attached) and sent as a message: the receiver gets the event back, finds that the identifier belongs to it,
and learns exactly who has signed, whether the keys reach the threshold, whether the witnesses reach theirs, and the text after the message. -/
theorem C110_accepted (h : incept E F H keys sith ndigs nsith toad wits cnfg data version kind code intive delpre = .ok s)
    (hu : ∀ t ∈ ndigs.getD [] ++ cnfg.getD [] ++ delpre.toList, utf8Valid t = true) (hdata : ∀ v ∈ data.getD [], Ordinary F 125 v) (hl : s.raw.length < 2 ^ 32)
    (ht : ∀ m, toad = some m → m < 2 ^ 128) {signers ws : List Signer} (hk : KeysOf E C signers keys) (hw : KeysOf E C ws (wits.getD []))
    (hid : delpre ≠ none ∨ (∃ c ∈ digestPrefixes, code = some c) ∨ ndigs.getD [] = [] ∨ ∀ g ∈ signers, g.verfer.code ∈ transferableKeys)
    {sigs : List Siger} {wigs : Option (List Siger)} (hs : SignedBy E C signers s.raw sigs) (hws : SignedBy E C ws s.raw (wigs.getD []))
    (hn : sigs.length < 2 ^ 32) (hwn : (wigs.getD []).length < 2 ^ 32) (hwl : (wits.getD []).length < 2 ^ 126) {cigars : Option (List Cigar)} {m : Str}
    (hm : messagize E s (some sigs) none wigs cigars = .ok m) :
    ∃ th n, Serder.tholder E F s = .ok (some th) ∧ witnessThreshold E s = .ok n ∧ Asked E toad (wits.getD []) n ∧
      ∀ signed, th.satisfy E (sigs.map (·.indexer.index)).dedup = .ok signed → ∀ left, utf8Valid left = true → left.head? ≠ some (ch '-') →
        acceptInception E F H C (m ++ left) = .ok { event := s, identified := true, signers := (sigs.map (·.indexer.index)).dedup, signed := signed, witnesses := ((wigs.getD []).map (·.indexer.index)).dedup, witnessed := decide (n ≤ ((wigs.getD []).map (·.indexer.index)).dedup.length), left := left } := by
  have uk : ∀ t ∈ keys ++ ndigs.getD [] ++ wits.getD [] ++ cnfg.getD [] ++ delpre.toList, utf8Valid t = true := by
    intro t htt
    simp only [List.mem_append] at htt hu
    rcases htt with (((htt | htt) | htt) | htt) | htt
    · obtain ⟨_, _, _, _, ha⟩ := keys_read hk t htt; exact utf8Valid_ascii ha
    · exact hu t (.inl (.inl htt))
    · obtain ⟨_, _, _, _, ha⟩ := keys_read hw t htt; exact utf8Valid_ascii ha
    · exact hu t (.inl (.inr htt))
    · exact hu t (.inr htt)
  obtain ⟨th, nt, hth, _⟩ := C108_thresholds h
  obtain ⟨n, hwt, hask⟩ := threshold_read h ht hwl
  obtain ⟨i, p, hpre, _, hp, hver, d, hd, hdi⟩ := identified h hk hid
  obtain ⟨hkeys, hwits⟩ := keys_of (C := C) h
  refine ⟨th, n, hth, hwt, hask, fun signed hsat left hleft hhead => ?_⟩
  obtain ⟨gs, hg, hread⟩ := C109_read (H := H) (F := F) (sigers := some sigs) (sealed := none) (wigers := wigs)
    (by rintro _ ⟨⟩; exact ⟨signed_genuine hk.1 hs, hn⟩)
    (by rintro x rfl; exact ⟨signed_genuine hw.1 hws, hwn⟩) (by rintro _ ⟨⟩) hm (C110_reads h uk hdata hl)
  cases hg
  unfold acceptInception
  rw [hread left hleft hhead, Res.ok_bind]
  dsimp only
  rw [hpre, Res.ok_bind, hp, Res.ok_bind, hver, Res.ok_bind, hd, Res.ok_bind, Sadder.toStr_ok.mpr rfl, Res.ok_bind, hkeys hk, Res.ok_bind, hwits hw, Res.ok_bind]
  have e1 : controllerSigs ([Group.controller (sigs.map bare)] ++ witnessGroup wigs) = sigs.map bare := by
    cases wigs <;> simp [controllerSigs, witnessGroup]
  have e2 : witnessSigs ([Group.controller (sigs.map bare)] ++ witnessGroup wigs) = (wigs.getD []).map bare := by
    cases wigs <;> simp [witnessSigs, witnessGroup]
  rw [e1, e2, judge_all hk.1 hs, judge_all hw.1 hws, hth, Res.ok_bind]
  dsimp only
  rw [hsat, Res.ok_bind, hwt, Res.ok_bind]
  cases hp' : p.digestive with
  | true => simp [hdi hp']
  | false => simp

theorem said_text (h : incept E F H keys sith ndigs nsith toad wits cnfg data version kind code intive delpre = .ok s) {d : Str} (hd : s.said E = .ok d) :
    Matter.exfil d = .ok s.saider ∧ Ascii d := by
  obtain ⟨vs, t, nt, kt, ntv, n, bt, dr, hf⟩ := incept_ok.mp h
  have hag := finish_again hf
  obtain ⟨p, pre, vs', d', hp, hq, hk, hr, hv, hlt, hs, hc, _, _⟩ := finish_ok hf
  obtain rfl := Res.ok.inj (hs.symm.trans hd)
  rw [hk] at hag
  obtain ⟨a, _, v2, n2, _, _, _, _, _, hx, _⟩ := ked_new hag
  obtain ⟨z, w⟩ := Matter.exfil_wf (E := E) hx hs
  refine ⟨hx, ?_⟩
  have hs' : s.saider.qb64 E = .ok d' := hs
  rw [(text_of_wf w hs').1]
  exact fun c hc => isB64_lt128 c (w.text_b64 c hc)

/-- C110. A receipt made for the identifier, number and SAID of an inception event, with signatures of witnesses over the event: the receiver who has the event learns which of its witnesses have signed
and whether they reach the threshold. -/
theorem C110_receipted (h : incept E F H keys sith ndigs nsith toad wits cnfg data version kind code intive delpre = .ok s)
    (ht : ∀ m, toad = some m → m < 2 ^ 128) {signers ws : List Signer} (hk : KeysOf E C signers keys) (hw : KeysOf E C ws (wits.getD []))
    (hid : delpre ≠ none ∨ (∃ c ∈ digestPrefixes, code = some c) ∨ ndigs.getD [] = [] ∨ ∀ g ∈ signers, g.verfer.code ∈ transferableKeys)
    (hwl : (wits.getD []).length < 2 ^ 126) {i d : Str} (hpre : Serder.pre s = .ok i) (hd : s.said E = .ok d) {version' : Option Version} {kind' : Option Str} {r : Sadder}
    (hr : receipt E F H i 0 d version' kind' = .ok r) (hl : r.raw.length < 2 ^ 32) {wigs : List Siger} (hws : SignedBy E C ws s.raw wigs) (hn : wigs.length < 2 ^ 32)
    {cigars : Option (List Cigar)} {m : Str} (hm : messagize E r none none (some wigs) cigars = .ok m) :
    ∃ n, witnessThreshold E s = .ok n ∧ Asked E toad (wits.getD []) n ∧ ∀ left, utf8Valid left = true → left.head? ≠ some (ch '-') →
      confirm E F H C s (m ++ left) = .ok { receipt := r, witnesses := (wigs.map (·.indexer.index)).dedup, witnessed := decide (n ≤ (wigs.map (·.indexer.index)).dedup.length), left := left } := by
  obtain ⟨n, hwt, hask⟩ := threshold_read h ht hwl
  obtain ⟨_, hwits⟩ := keys_of (C := C) h
  obtain ⟨i', p, hpre', ui, _⟩ := identified h hk hid
  obtain rfl := Res.ok.inj (hpre'.symm.trans hpre)
  obtain ⟨_, _, _, _, _, _, _, _, _, _, _, _, _, hsn, _⟩ := C108_event h
  obtain ⟨⟨vs, sn, hked, _, _⟩, _, r1, r2, _, r3, _, r4⟩ := C109_receipt (by exact Nat.two_pow_pos _) hr
  have hrd : Matter.exfil d = .ok r.saider := r3
  have ud : utf8Valid d = true := by
    obtain ⟨_, hd'⟩ := said_text h hd
    exact utf8Valid_ascii hd'
  have hrs : r.said E = .ok d := by
    obtain ⟨hx, _⟩ := said_text h hd
    rw [hx] at hrd
    have e := Res.ok.inj hrd
    show r.saider.qb64 E = .ok d
    rw [← e]
    exact hd
  refine ⟨n, hwt, hask, fun left hleft hhead => ?_⟩
  obtain ⟨gs, hg, hread⟩ := C109_read (H := H) (F := F) (sigers := none) (sealed := none) (wigers := some wigs) (by rintro _ ⟨⟩)
    (by rintro _ ⟨⟩; exact ⟨signed_genuine hw.1 hws, hn⟩) (by rintro _ ⟨⟩) hm (r4 ui ud hl)
  cases hg
  unfold confirm
  rw [hread left hleft hhead, Res.ok_bind]
  dsimp only
  have ht' : r.ked.index (lit "t") = .ok (.str (lit "rct")) := by rw [hked]; rfl
  rw [ht', Res.ok_bind, Sadder.toStr_ok.mpr rfl, Res.ok_bind, r1, Res.ok_bind, hpre, Res.ok_bind, r2, Res.ok_bind, hsn, Res.ok_bind, hrs, Res.ok_bind, hd, Res.ok_bind, if_pos ⟨rfl, rfl, rfl, rfl⟩,
    hwits hw, Res.ok_bind]
  have e2 : witnessSigs ([] ++ witnessGroup (some wigs)) = wigs.map bare := by simp [witnessSigs, witnessGroup]
  rw [e2, judge_all hw.1 hws, hwt, Res.ok_bind]

end Builder
end Cesride
