import Verif.Props.Agreement

/-! # Property C121, continued: with enough witnesses the receiver follows the whole life -/

namespace Cesride
namespace Builder
open Common Spec Tholder R32

variable {E : Env} {F : Str → Option Str} {H : Hash} {C : Crypto}

/-- A receipt for an event with the signatures of as many of the witnesses as are needed. -/
def Receipted (E : Env) (F : Str → Option Str) (H : Hash) (C : Crypto) (witnesses : List Signer) (event : Sadder) (receipt : Str) : Prop :=
  ∃ rnd positions, (∀ i ∈ positions, i < witnesses.length) ∧ positions.length ≤ 4095 ∧ witnessesNeeded witnesses.length ≤ positions.toFinset.card ∧
    witnessed E F H C rnd witnesses event positions = .ok receipt

/-- A life as in C112 and C115, in which each message is followed by a receipt of enough of the witnesses of the founding. -/
inductive WitnessedLife (E : Env) (F : Str → Option Str) (H : Hash) (C : Crypto) (witnesses : List Signer) : List Sadder → List Signer → List Signer → Str → Prop
  | founded {signers next : List Signer} {delegator : Option Str} {s : Sadder} {rnd : Nat → Nat} {positions : List Nat} {m r : Str}
      (hf : Founders E C signers next witnesses delegator) (hs : found E F H signers next witnesses delegator = .ok s)
      (hp : ∀ i ∈ positions, i < signers.length) (hl : positions.length ≤ 4095) (he : signers.length ≤ 2 * positions.toFinset.card)
      (hm : announce E C rnd signers s positions = .ok m) (hr : Receipted E F H C witnesses s r) : WitnessedLife E F H C witnesses [s] signers next (m ++ r)
  | rotated {e : Sadder} {earlier : List Sadder} {now signers next : List Signer} {stream : Str} {s : Sadder} {rnd : Nat → Nat} {positions : List Nat} {m r : Str}
      (before : WitnessedLife E F H C witnesses (e :: earlier) now signers stream) (hne : signers ≠ []) (hf : Successors E C signers next) (hlong : (e :: earlier).length < 2 ^ 128)
      (hs : rotate E F H (e :: earlier) signers next = .ok s)
      (hp : ∀ i ∈ positions, i < signers.length) (hl : positions.length ≤ 4095) (he : signers.length ≤ 2 * positions.toFinset.card)
      (hm : announceRotation E C rnd signers s positions = .ok m) (hr : Receipted E F H C witnesses s r) : WitnessedLife E F H C witnesses (s :: e :: earlier) signers next (stream ++ (m ++ r))
  | anchored {e : Sadder} {earlier : List Sadder} {signers next : List Signer} {stream : Str} {data : List Value} {s : Sadder} {rnd : Nat → Nat} {positions : List Nat} {m r : Str}
      (before : WitnessedLife E F H C witnesses (e :: earlier) signers next stream) (hd : Anchors F data) (hlong : (e :: earlier).length < 2 ^ 128)
      (hs : interact E F H e data = .ok s)
      (hp : ∀ i ∈ positions, i < signers.length) (hl : positions.length ≤ 4095) (he : signers.length ≤ 2 * positions.toFinset.card)
      (hm : announce E C rnd signers s positions = .ok m) (hr : Receipted E F H C witnesses s r) : WitnessedLife E F H C witnesses (s :: e :: earlier) signers next (stream ++ (m ++ r))

/-! ## Proofs -/

/-- The SAID of an event that is read can be read again, and is of the default kind. -/
theorem read_said {bytes : List UInt8} {s : Sadder} (h : Serder.newWithRaw E F H bytes = .ok s) {p : Str} (hp : s.said E = .ok p) : Matter.ofText E p = .ok s.saider ∧ s.saider.code = lit "E" := by
  obtain ⟨_, o, m, hm, rfl⟩ := (C82_serder E F H none none _ none none s).mp h
  obtain ⟨_, _, _, _, t, _, h1, h2⟩ := hm
  have h1' : Saider.new E H none none none none none none none (some t) none = .ok m := h1
  obtain ⟨⟨_, _, _, _, _, hma⟩, _⟩ := Saider.new_matter h1'
  obtain ⟨z, w⟩ := Matter.new_text_wf hma hp
  exact ⟨(text_of_wf w hp).2.1, h2⟩

/-- Whichever witnesses sign an event, the receipt can be written, and a receiver learns from it which they are and whether they are enough. -/
theorem receipt_judged {e : Sadder} {n : Nat} {i : Str} (he : Latest E e n i) (hn : n < 2 ^ 128) {bytes : List UInt8} (hread : Serder.newWithRaw E F H bytes = .ok e)
    {ws : List Signer} (hmade : ∀ g ∈ ws, MadeSigner E C g) (hl : ws.length ≤ 4096) (rnd : Nat → Nat) {positions : List Nat} (hp : ∀ j ∈ positions, j < ws.length) (hpl : positions.length ≤ 4095) :
    ∃ rm, witnessed E F H C rnd ws e positions = .ok rm ∧ utf8Valid rm = true ∧ rm.head? = some (ch '{') ∧
      ∀ icp k, Serder.werfers E icp = .ok (ws.map (·.verfer)) → witnessThreshold E icp = .ok k → ∀ left, utf8Valid left = true → left.head? ≠ some (ch '-') →
        ∃ r, confirmBy E F H C icp e (rm ++ left) = .ok { receipt := r, witnesses := positions.dedup, witnessed := decide (k ≤ positions.dedup.length), left := left } := by
  obtain ⟨wigs, hwigs, hwby, hwpos⟩ := signs_total hmade hl e.raw rnd hp
  have lws : wigs.length = positions.length := by rw [← hwpos, List.length_map]
  have hgen : ∀ x ∈ wigs, Genuine E x := by
    intro y hy
    obtain ⟨g, only, ondex, r, hi, hs⟩ := hwby y hy
    obtain ⟨_, _, _, _, _, _, _, hg⟩ := hmade g (List.mem_of_getElem? hi)
    exact (signIndexed_obtained hg hs).2
  obtain ⟨p, hsaid, hsp⟩ := he.said
  obtain ⟨hx, hcode⟩ := read_said hread hsaid
  have hrsize : ∀ vs : Str, vs.length ≤ 20 → (Value.obj (receiptEntries vs p i (hexStr n))).toJson.length < 2 ^ 24 := by
    intro vs hvs
    have a0 := jsonStr_le p
    have a1 := jsonStr_le i
    have a2 := jsonStr_le vs
    have a3 := jsonStr_le (hexStr n)
    have a3' : (hexStr n).length ≤ 32 := (hexStr_length_le _ 32 (by decide)).mpr (Nat.lt_of_lt_of_eq hn (by decide))
    have a4 : (jsonStr (lit "v")).length = 3 := by decide
    have a5 : (jsonStr (lit "t")).length = 3 := by decide
    have a6 : (jsonStr (lit "d")).length = 3 := by decide
    have a7 : (jsonStr (lit "i")).length = 3 := by decide
    have a8 : (jsonStr (lit "s")).length = 3 := by decide
    have a9 : (jsonStr (lit "rct")).length = 5 := by decide
    have a10 := he.short.1
    have a11 := hsp.1
    have str : ∀ t, (Value.str t).toJson = jsonStr t := fun _ => by simp [Value.toJson]
    unfold receiptEntries
    rw [show ∀ o : List (Str × Value), (Value.obj o).toJson = ch '{' :: (fieldsJson o ++ [ch '}']) from fun _ => by simp [Value.toJson]]
    simp only [fieldsJson, List.length_cons, List.length_append, List.length_nil, str]
    simp only [a4, a5, a6, a7, a8, a9]
    omega
  obtain ⟨r, hr⟩ := C109_receipt_accepts (E := E) F H (pre := i) (said := p) (sn := n) (version := none) (kind := none) hn rfl rfl hx hcode (hrsize _ (by decide))
  obtain ⟨⟨vs, sn', hked, hvt, hsn'⟩, hrr, r1, r2, _, r3, _, hrread⟩ := C109_receipt hn hr
  have hrl : r.raw.length < 2 ^ 32 := by
    rw [hrr, hked, canonicalHex_unique hsn' (hexStr_canonical n)]
    exact Nat.lt_trans (hrsize vs (by have := versionText_length hvt; omega)) (by decide)
  have ui := utf8Valid_ascii he.short.2.2
  have ud := utf8Valid_ascii hsp.2.2
  have ur : utf8Valid r.raw = true := by
    have := hrread ui ud hrl [] rfl
    rw [List.append_nil] at this
    exact read_utf8 this
  obtain ⟨rm, hrm⟩ := (C109_written (E := E) (s := r) (sigers := none) (sealed := none) (wigers := some wigs) (cigars := none) ur
    (by rintro _ ⟨⟩) (by rintro _ ⟨⟩; exact ⟨hgen, by omega⟩) (by rintro _ ⟨⟩)).1.mpr
    ⟨by simp, by rintro _ ⟨⟩, by rintro _ ⟨⟩; omega⟩
  obtain ⟨t, htxt, hut⟩ := message_text (E := E) (sigers := none) (wigers := some wigs) (by rintro _ ⟨⟩) (by rintro _ ⟨⟩; exact ⟨hgen, by omega⟩) (by rintro _ ⟨⟩) hrm
  have hrs : r.said E = .ok p := by
    have hsd := Res.ok.inj (hx.symm.trans r3)
    show r.saider.qb64 E = .ok p
    rw [← hsd]
    exact hsaid
  refine ⟨rm, ?_, hut, ?_, fun icp k hic hk left hleft hhead => ⟨r, ?_⟩⟩
  · unfold witnessed
    rw [he.pre, Res.ok_bind, he.sn, Res.ok_bind, hsaid, Res.ok_bind, hr, Res.ok_bind, hwigs, Res.ok_bind]
    exact hrm
  · rw [htxt, hrr, hked]
    simp only [receiptEntries, Value.toJson, List.append_assoc, List.cons_append, List.head?_cons]
  · obtain ⟨gs, hg, hread'⟩ := C109_read (H := H) (F := F) (sigers := none) (sealed := none) (wigers := some wigs) (by rintro _ ⟨⟩)
      (by rintro _ ⟨⟩; exact ⟨hgen, by omega⟩) (by rintro _ ⟨⟩) hrm (hrread ui ud hrl)
    cases hg
    unfold confirmBy
    rw [hread' left hleft hhead, Res.ok_bind]
    dsimp only
    have ht' : r.ked.index (lit "t") = .ok (.str (lit "rct")) := by rw [hked]; rfl
    rw [ht', Res.ok_bind, Sadder.toStr_ok.mpr rfl, Res.ok_bind, r1, Res.ok_bind, he.pre, Res.ok_bind, r2, Res.ok_bind, he.sn, Res.ok_bind, hrs, Res.ok_bind, hsaid, Res.ok_bind, if_pos ⟨rfl, rfl, rfl, rfl⟩,
      hic, Res.ok_bind]
    have e2 : witnessSigs ([] ++ witnessGroup (some wigs)) = wigs.map bare := by simp [witnessSigs, witnessGroup]
    rw [e2, judge_all hmade hwby, hk, Res.ok_bind, hwpos]

/-- What holds of every witnessed life: without the receipts it is a life, and its first event names the witnesses and asks for as many as are needed. -/
theorem witnessed_life {ws : List Signer} {history : List Sadder} {now next : List Signer} {stream : Str} (h : WitnessedLife E F H C ws history now next stream) :
    (∃ st, Life E F H C history now next st) ∧ (∀ g ∈ ws, MadeSigner E C g) ∧ ws.length ≤ 4096 ∧
      ∃ icp, history.getLast? = some icp ∧ Serder.werfers E icp = .ok (ws.map (·.verfer)) ∧ witnessThreshold E icp = .ok (witnessesNeeded ws.length) := by
  induction h with
  | founded hf hs hp hl he hm hr =>
    obtain ⟨h1, h2⟩ := founded_asked hf hs
    exact ⟨⟨_, .founded hf hs hp hl he hm⟩, fun g hg => hf.made g (by simp [hg]), hf.fewWitnesses, _, rfl, h1, h2⟩
  | rotated before hne hf hlong hs hp hl he hm hr ih =>
    obtain ⟨⟨_, hlife⟩, h1, h2, icp, h3, h4⟩ := ih
    exact ⟨⟨_, .rotated hlife hne hf hlong hs hp hl he hm⟩, h1, h2, icp, by rw [List.getLast?_cons_cons]; exact h3, h4⟩
  | anchored before hd hlong hs hp hl he hm hr ih =>
    obtain ⟨⟨_, hlife⟩, h1, h2, icp, h3, h4⟩ := ih
    exact ⟨⟨_, .anchored hlife hd hlong hs hp hl he hm⟩, h1, h2, icp, by rw [List.getLast?_cons_cons]; exact h3, h4⟩

/-- One more message with a receipt, to a receiver who is up to date. -/
theorem step_received {ws : List Signer} {e : Sadder} {earlier : List Sadder} {icp s : Sadder} {i : Str} {n : Nat} {stream m : Str} {k : Nat}
    (hm : utf8Valid m = true) (hhd : m.head? = some (ch '{'))
    (hbefore : ∀ left, utf8Valid left = true → left.head? ≠ some (ch '-') → receiveWitnessed E F H C n (stream ++ left) = .ok (e :: earlier, left))
    (hnext : ∀ left, utf8Valid left = true → left.head? ≠ some (ch '-') → receiveNext E F H C (e :: earlier) (m ++ left) = .ok (s, left))
    (hicp : (e :: earlier).getLast? = some icp) (hw : Serder.werfers E icp = .ok (ws.map (·.verfer))) (hk : witnessThreshold E icp = .ok k)
    (hlat : Latest E s (e :: earlier).length i) (hlong : (e :: earlier).length < 2 ^ 128) (hread : Serder.newWithRaw E F H m = .ok s)
    (hmade : ∀ g ∈ ws, MadeSigner E C g) (hlen : ws.length ≤ 4096) (rnd : Nat → Nat) {positions : List Nat} (hp : ∀ j ∈ positions, j < ws.length) (hpl : positions.length ≤ 4095) :
    ∃ rm, witnessed E F H C rnd ws s positions = .ok rm ∧ utf8Valid rm = true ∧ ∀ left, utf8Valid left = true → left.head? ≠ some (ch '-') →
      receiveWitnessed E F H C (n + 1) (stream ++ (m ++ (rm ++ left))) = if k ≤ positions.toFinset.card then .ok (s :: e :: earlier, left) else .err .validation := by
  obtain ⟨rm, h1, h2, h3, h4⟩ := receipt_judged hlat hlong hread hmade hlen rnd hp hpl
  refine ⟨rm, h1, h2, fun left hleft hhead => ?_⟩
  obtain ⟨r, hr⟩ := h4 icp k hw hk left hleft hhead
  have u1 : utf8Valid (rm ++ left) = true := by rw [utf8Valid_append h2]; exact hleft
  have hne : rm ≠ [] := by rintro rfl; cases h3
  have hmne : m ≠ [] := by rintro rfl; cases hhd
  rw [receiveWitnessed, hbefore (m ++ (rm ++ left)) (by rw [utf8Valid_append hm]; exact u1) (by rw [List.head?_append_of_ne_nil _ hmne, hhd]; decide), Res.ok_bind]
  dsimp only
  rw [hnext (rm ++ left) u1 (by rw [List.head?_append_of_ne_nil _ hne, h3]; decide), Res.ok_bind]
  dsimp only
  rw [hicp]
  dsimp only
  rw [hr, Res.ok_bind, List.card_toFinset]
  by_cases hc : k ≤ positions.dedup.length
  · rw [if_pos hc, if_pos (by simpa using hc)]
  · rw [if_neg hc, if_neg (by simpa using hc)]

/-- The next rotation of a life, as its receiver gets it. -/
theorem rotation_next {e : Sadder} {earlier : List Sadder} {i : Str} {now signers next : List Signer} (hi : Head E F H C e earlier i now signers) (hne : signers ≠ []) (hf : Successors E C signers next)
    (hlong : (e :: earlier).length < 2 ^ 128) {s : Sadder} (hs : rotate E F H (e :: earlier) signers next = .ok s) {rnd : Nat → Nat} {positions : List Nat} (hp : ∀ i ∈ positions, i < signers.length)
    (hl : positions.length ≤ 4095) (he : signers.length ≤ 2 * positions.toFinset.card) {m : Str} (hm : announceRotation E C rnd signers s positions = .ok m) :
    utf8Valid m = true ∧ m.head? = some (ch '{') ∧ Serder.newWithRaw E F H m = .ok s ∧ Latest E s (e :: earlier).length i ∧
      ∀ left, utf8Valid left = true → left.head? ≠ some (ch '-') → receiveNext E F H C (e :: earlier) (m ++ left) = .ok (s, left) := by
  obtain ⟨s', hr, hh, hest, _, hj⟩ := rotation_judged hi hf hlong hne
  obtain rfl := Res.ok.inj (hr.symm.trans hs)
  obtain ⟨m', hm', hu, hhd, hacc⟩ := hj rnd positions hp hl
  obtain rfl := Res.ok.inj (hm'.symm.trans hm)
  refine ⟨hu, hhd, by have := (hacc [] rfl).1; rwa [List.append_nil] at this, hh.latest, fun left hleft _ => ?_⟩
  rw [receiveNext, (hacc left hleft).1, Res.ok_bind, hest, Res.ok_bind, if_pos rfl, (hacc left hleft).2, if_pos he, Res.ok_bind]

/-- The next interaction of a life, as its receiver gets it. -/
theorem interaction_next {e : Sadder} {earlier : List Sadder} {i : Str} {signers next : List Signer} (hi : Head E F H C e earlier i signers next) {data : List Value} (hd : Anchors F data)
    (hlong : (e :: earlier).length < 2 ^ 128) {s : Sadder} (hs : interact E F H e data = .ok s) {rnd : Nat → Nat} {positions : List Nat} (hp : ∀ i ∈ positions, i < signers.length)
    (hl : positions.length ≤ 4095) (he : signers.length ≤ 2 * positions.toFinset.card) {m : Str} (hm : announce E C rnd signers s positions = .ok m) :
    utf8Valid m = true ∧ m.head? = some (ch '{') ∧ Serder.newWithRaw E F H m = .ok s ∧ Latest E s (e :: earlier).length i ∧
      ∀ left, utf8Valid left = true → left.head? ≠ some (ch '-') → receiveNext E F H C (e :: earlier) (m ++ left) = .ok (s, left) := by
  obtain ⟨s', hr, hh, hest, _, _, hj⟩ := interaction_judged hi hd hlong
  obtain rfl := Res.ok.inj (hr.symm.trans hs)
  obtain ⟨m', hm', hu, hhd, hacc⟩ := hj rnd positions hp hl
  obtain rfl := Res.ok.inj (hm'.symm.trans hm)
  refine ⟨hu, hhd, by have := (hacc [] rfl).1; rwa [List.append_nil] at this, hh.latest, fun left hleft _ => ?_⟩
  rw [receiveNext, (hacc left hleft).1, Res.ok_bind, hest, Res.ok_bind, if_neg (by simp), (hacc left hleft).2, if_pos he]

/-- C121. The start: whichever witnesses sign the founding event, the receipt can be written, and the receiver takes the event exactly if they are as many as needed. -/
theorem C121_starts {signers next ws : List Signer} {delegator : Option Str} (h : Founders E C signers next ws delegator) (F : Str → Option Str) (H : Hash) (rnd rnd' : Nat → Nat) {positions wpositions : List Nat}
    (hp : ∀ i ∈ positions, i < signers.length) (hl : positions.length ≤ 4095) (he : signers.length ≤ 2 * positions.toFinset.card) (hw : ∀ i ∈ wpositions, i < ws.length) (hwl : wpositions.length ≤ 4095) :
    ∃ s m rm, found E F H signers next ws delegator = .ok s ∧ announce E C rnd signers s positions = .ok m ∧ witnessed E F H C rnd' ws s wpositions = .ok rm ∧
      (witnessesNeeded ws.length ≤ wpositions.toFinset.card → WitnessedLife E F H C ws [s] signers next (m ++ rm)) ∧
      ∀ left, utf8Valid left = true → left.head? ≠ some (ch '-') → receiveWitnessed E F H C 0 (m ++ (rm ++ left)) =
        if witnessesNeeded ws.length ≤ wpositions.toFinset.card then .ok ([s], left) else .err .validation := by
  obtain ⟨s, m, rm, h1, h2, h3, h4⟩ := C111_accepted (C := C) h F H rnd rnd' hp hw hl hwl
  refine ⟨s, m, rm, h1, h2, h3, fun hen => .founded h h1 hp hl he h2 ⟨rnd', wpositions, hw, hwl, hen, h3⟩, fun left hleft hhead => ?_⟩
  obtain ⟨a, c, e1, e2, e3, _, e5, e6, _, e8, e9⟩ := h4 left hleft hhead
  rw [receiveWitnessed, e1, Res.ok_bind, confirm_by, e6, Res.ok_bind, e3, e5.mpr he, e2, e9]
  by_cases hc : witnessesNeeded ws.length ≤ wpositions.toFinset.card
  · rw [if_pos hc, e8.mpr hc]; rfl
  · rw [if_neg hc, if_neg (by simpa [e8] using hc)]

/-- C121. With enough witnesses the receiver follows the whole life: it gets the history, and the text that follows. -/
theorem C121_follows {ws : List Signer} {history : List Sadder} {now next : List Signer} {stream : Str} (h : WitnessedLife E F H C ws history now next stream) :
    ∀ left, utf8Valid left = true → left.head? ≠ some (ch '-') → receiveWitnessed E F H C (history.length - 1) (stream ++ left) = .ok (history, left) := by
  induction h with
  | founded hf hs hp hl he hm hr =>
    obtain ⟨rnd', wpositions, hw, hwl, hen, hrm⟩ := hr
    obtain ⟨s', m', rm', h1, h2, h3, _, h5⟩ := C121_starts hf F H _ rnd' hp hl he hw hwl
    obtain rfl := Res.ok.inj (h1.symm.trans hs)
    obtain rfl := Res.ok.inj (h2.symm.trans hm)
    obtain rfl := Res.ok.inj (h3.symm.trans hrm)
    intro left hleft hhead
    rw [List.append_assoc]
    exact (h5 left hleft hhead).trans (if_pos hen)
  | @rotated e earlier now signers next stream s rnd positions m r before hne hf hlong hs hp hl he hm hr ih =>
    obtain ⟨⟨_, hlife⟩, hmade, hlen, icp, hicp, hnamed, hask⟩ := witnessed_life before
    obtain ⟨e', earlier', i, heq, hi, _⟩ := life_head hlife
    injection heq with h1 h2
    subst h1 h2
    obtain ⟨hu, hhd, hread, hlat, hnext⟩ := rotation_next hi hne hf hlong hs hp hl he hm
    obtain ⟨rnd', wpositions, hw, hwl, hen, hrm⟩ := hr
    obtain ⟨rm', h3, _, h5⟩ := step_received (n := earlier.length) hu hhd ih hnext hicp hnamed hask hlat hlong hread hmade hlen rnd' hw hwl
    obtain rfl := Res.ok.inj (h3.symm.trans hrm)
    intro left hleft hhead
    rw [List.append_assoc, List.append_assoc]
    exact (h5 left hleft hhead).trans (if_pos hen)
  | @anchored e earlier signers next stream data s rnd positions m r before hd hlong hs hp hl he hm hr ih =>
    obtain ⟨⟨_, hlife⟩, hmade, hlen, icp, hicp, hnamed, hask⟩ := witnessed_life before
    obtain ⟨e', earlier', i, heq, hi, _⟩ := life_head hlife
    injection heq with h1 h2
    subst h1 h2
    obtain ⟨hu, hhd, hread, hlat, hnext⟩ := interaction_next hi hd hlong hs hp hl he hm
    obtain ⟨rnd', wpositions, hw, hwl, hen, hrm⟩ := hr
    obtain ⟨rm', h3, _, h5⟩ := step_received (n := earlier.length) hu hhd ih hnext hicp hnamed hask hlat hlong hread hmade hlen rnd' hw hwl
    obtain rfl := Res.ok.inj (h3.symm.trans hrm)
    intro left hleft hhead
    rw [List.append_assoc, List.append_assoc]
    exact (h5 left hleft hhead).trans (if_pos hen)

/-- C121. The next rotation: whichever witnesses sign it, the receipt can be written, and the receiver takes the rotation exactly if they are as many as needed for the founding. -/
theorem C121_rotates {ws : List Signer} {e : Sadder} {earlier : List Sadder} {now signers next : List Signer} {stream : Str} (h : WitnessedLife E F H C ws (e :: earlier) now signers stream) (hne : signers ≠ [])
    (hf : Successors E C signers next) (hlong : (e :: earlier).length < 2 ^ 128) (rnd rnd' : Nat → Nat) {positions wpositions : List Nat} (hp : ∀ i ∈ positions, i < signers.length)
    (hl : positions.length ≤ 4095) (he : signers.length ≤ 2 * positions.toFinset.card) (hw : ∀ i ∈ wpositions, i < ws.length) (hwl : wpositions.length ≤ 4095) :
    ∃ s m rm, rotate E F H (e :: earlier) signers next = .ok s ∧ announceRotation E C rnd signers s positions = .ok m ∧ witnessed E F H C rnd' ws s wpositions = .ok rm ∧
      (witnessesNeeded ws.length ≤ wpositions.toFinset.card → WitnessedLife E F H C ws (s :: e :: earlier) signers next (stream ++ (m ++ rm))) ∧
      ∀ left, utf8Valid left = true → left.head? ≠ some (ch '-') → receiveWitnessed E F H C (e :: earlier).length (stream ++ (m ++ (rm ++ left))) =
        if witnessesNeeded ws.length ≤ wpositions.toFinset.card then .ok (s :: e :: earlier, left) else .err .validation := by
  obtain ⟨⟨_, hlife⟩, hmade, hlen, icp, hicp, hnamed, hask⟩ := witnessed_life h
  obtain ⟨e', earlier', i, heq, hi, _⟩ := life_head hlife
  injection heq with h1 h2
  subst h1 h2
  obtain ⟨s, hs, _, _, _, hj⟩ := rotation_judged hi hf hlong hne
  obtain ⟨m, hm, _⟩ := hj rnd positions hp hl
  obtain ⟨hu, hhd, hread, hlat, hnext⟩ := rotation_next hi hne hf hlong hs hp hl he hm
  obtain ⟨rm, h3, _, h5⟩ := step_received (n := earlier.length) hu hhd (C121_follows h) hnext hicp hnamed hask hlat hlong hread hmade hlen rnd' hw hwl
  exact ⟨s, m, rm, hs, hm, h3, fun hen => .rotated h hne hf hlong hs hp hl he hm ⟨rnd', wpositions, hw, hwl, hen, h3⟩, h5⟩

/-- C121. The same for the next interaction. -/
theorem C121_anchors {ws : List Signer} {e : Sadder} {earlier : List Sadder} {signers next : List Signer} {stream : Str} (h : WitnessedLife E F H C ws (e :: earlier) signers next stream)
    {data : List Value} (hd : Anchors F data) (hlong : (e :: earlier).length < 2 ^ 128) (rnd rnd' : Nat → Nat) {positions wpositions : List Nat} (hp : ∀ i ∈ positions, i < signers.length)
    (hl : positions.length ≤ 4095) (he : signers.length ≤ 2 * positions.toFinset.card) (hw : ∀ i ∈ wpositions, i < ws.length) (hwl : wpositions.length ≤ 4095) :
    ∃ s m rm, interact E F H e data = .ok s ∧ announce E C rnd signers s positions = .ok m ∧ witnessed E F H C rnd' ws s wpositions = .ok rm ∧
      (witnessesNeeded ws.length ≤ wpositions.toFinset.card → WitnessedLife E F H C ws (s :: e :: earlier) signers next (stream ++ (m ++ rm))) ∧
      ∀ left, utf8Valid left = true → left.head? ≠ some (ch '-') → receiveWitnessed E F H C (e :: earlier).length (stream ++ (m ++ (rm ++ left))) =
        if witnessesNeeded ws.length ≤ wpositions.toFinset.card then .ok (s :: e :: earlier, left) else .err .validation := by
  obtain ⟨⟨_, hlife⟩, hmade, hlen, icp, hicp, hnamed, hask⟩ := witnessed_life h
  obtain ⟨e', earlier', i, heq, hi, _⟩ := life_head hlife
  injection heq with h1 h2
  subst h1 h2
  obtain ⟨s, hs, _, _, _, _, hj⟩ := interaction_judged hi hd hlong
  obtain ⟨m, hm, _⟩ := hj rnd positions hp hl
  obtain ⟨hu, hhd, hread, hlat, hnext⟩ := interaction_next hi hd hlong hs hp hl he hm
  obtain ⟨rm, h3, _, h5⟩ := step_received (n := earlier.length) hu hhd (C121_follows h) hnext hicp hnamed hask hlat hlong hread hmade hlen rnd' hw hwl
  exact ⟨s, m, rm, hs, hm, h3, fun hen => .anchored h hd hlong hs hp hl he hm ⟨rnd', wpositions, hw, hwl, hen, h3⟩, h5⟩

/-! ## Example -/

theorem example_nothing : Anchors (fun _ => none) [] where
  ordinary := by simp
  small := by decide +kernel

/-- Both cases occur. After the same founding with two witnesses, one receiver is shown an interaction with data and the other one without, both with receipts of both witnesses: each of them takes what he is shown, and the
histories differ. So the two witnesses are faulty, as `C121_consensus` says. -/
theorem C121_example : ∃ (s : Sadder) (xs ys : List Sadder) (bs cs : Str), found Env.debug (fun _ => none) zeroHash [signerA, signerB] [signerB] [signerB, signerA] (some (lit "EAAA")) = .ok s ∧
    receiveWitnessed Env.debug (fun _ => none) zeroHash toy 1 bs = .ok (xs ++ [s], []) ∧ receiveWitnessed Env.debug (fun _ => none) zeroHash toy 1 cs = .ok (ys ++ [s], []) ∧
    WitnessedLife Env.debug (fun _ => none) zeroHash toy [signerB, signerA] (xs ++ [s]) [signerA, signerB] [signerB] bs ∧
    ¬ (xs ++ [s]).map (·.ked) <:+ (ys ++ [s]).map (·.ked) ∧ ¬ (ys ++ [s]).map (·.ked) <:+ (xs ++ [s]).map (·.ked) := by
  have need : witnessesNeeded [signerB, signerA].length ≤ [0, 1].toFinset.card := by decide
  obtain ⟨s, m, rm, h1, h2, h3, h4, _⟩ := C121_starts C111_example (fun _ => none) zeroHash (fun _ => 5) (fun _ => 6) (positions := [0]) (wpositions := [0, 1]) (by simp) (by simp) (by simp) (by simp) (by simp)
  have hl := h4 need
  obtain ⟨a, am, ar, a1, _, _, a4, _⟩ := C121_anchors hl example_anchors (by simp) (fun _ => 7) (fun _ => 8) (positions := [0]) (wpositions := [0, 1]) (by simp) (by simp) (by simp) (by simp) (by simp)
  obtain ⟨b, bm, br, b1, _, _, b4, _⟩ := C121_anchors hl example_nothing (by simp) (fun _ => 7) (fun _ => 8) (positions := [0]) (wpositions := [0, 1]) (by simp) (by simp) (by simp) (by simp) (by simp)
  have la := a4 need
  have lb := b4 need
  have r1 := C121_follows la [] rfl (by simp)
  have r2 := C121_follows lb [] rfl (by simp)
  rw [List.append_nil] at r1 r2
  obtain ⟨⟨_, hlife⟩, _⟩ := witnessed_life hl
  obtain ⟨s1, _, _, q1, _, _, _, _, q2, _⟩ := C115_anchors hlife example_anchors (by simp)
  obtain ⟨s2, _, _, q3, _, _, _, _, q4, _⟩ := C115_anchors hlife example_nothing (by simp)
  obtain rfl := Res.ok.inj (q1.symm.trans a1)
  obtain rfl := Res.ok.inj (q3.symm.trans b1)
  have hne : s1.ked ≠ s2.ked := by
    intro h
    rw [h, q4] at q2
    simp at q2
  refine ⟨s, [s1], [s2], _, _, h1, r1, r2, la, fun h => ?_, fun h => ?_⟩
  · have := h.eq_of_length (by simp)
    simp only [List.map_cons, List.map_nil, List.cons_append, List.nil_append, List.cons.injEq] at this
    exact hne this.1
  · have := h.eq_of_length (by simp)
    simp only [List.map_cons, List.map_nil, List.cons_append, List.nil_append, List.cons.injEq] at this
    exact hne this.1.symm

end Builder
end Cesride
