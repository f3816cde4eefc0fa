import Verif.Props.Founding

/-! # Property C111, continued: the size of the event, and everything together -/

namespace Cesride
namespace Builder
open Common Spec Tholder R32

variable {E : Env} {F : Str → Option Str} {H : Hash} {C : Crypto}

theorem escape_le (c : UInt8) : (escapeByte c).length ≤ 6 := by
  have : ∀ n : Fin 256, (escapeByte (UInt8.ofNat n.val)).length ≤ 6 := by decide +kernel
  have h := this ⟨c.toNat, c.toNat_lt⟩
  rwa [UInt8.ofNat_toNat] at h

theorem jsonStr_le (t : Str) : (jsonStr t).length ≤ 2 + 6 * t.length := by
  have : ∀ t : Str, (t.flatMap escapeByte).length ≤ 6 * t.length := by
    intro t
    induction t with
    | nil => simp
    | cons c t ih => have := escape_le c; simp only [List.flatMap_cons, List.length_append, List.length_cons]; omega
  have := this t
  simp only [jsonStr, List.length_cons, List.length_append, List.length_nil]
  omega

theorem elems_le {L : Nat} : ∀ {l : List Str}, (∀ t ∈ l, t.length ≤ L) → (elemsJson (l.map .str)).length ≤ l.length * (6 * L + 3)
  | [], _ => by simp [elemsJson]
  | t :: l, h => by
    have h1 := elems_le (l := l) fun x hx => h x (by simp [hx])
    have h2 := jsonStr_le t
    have h3 := h t (by simp)
    have h4 : (l.length + 1) * (6 * L + 3) = l.length * (6 * L + 3) + (6 * L + 3) := Nat.succ_mul _ _
    cases l with
    | nil =>
      simp only [List.map_cons, List.map_nil, elemsJson, Value.toJson, List.append_nil, List.length_cons, List.length_nil, Nat.zero_add, Nat.one_mul]
      omega
    | cons u l =>
      rw [List.map_cons, List.map_cons, elemsJson]
      simp only [List.length_append, List.length_cons]
      rw [List.map_cons] at h1
      simp only [Value.toJson]
      simp only [List.length_cons] at h1 h4 ⊢
      omega

theorem arr_le {L N : Nat} {l : List Str} (h : ∀ t ∈ l, t.length ≤ L) (hn : l.length ≤ N) : (Value.arr (l.map .str)).toJson.length ≤ 2 + N * (6 * L + 3) := by
  have h1 := elems_le h
  have h2 := Nat.mul_le_mul_right (6 * L + 3) hn
  simp only [Value.toJson, List.length_cons, List.length_append, List.length_nil]
  omega

/-- Inception events of up to 4096 keys, next keys and witnesses are small. -/
theorem entries_le {vs d i : Str} {a b c : Nat} {keys ndigs wits : List Str} {delpre : Option Str} (h1 : vs.length ≤ 100) (h2 : d.length ≤ 100) (h3 : i.length ≤ 100)
    (ha : (hexStr a).length ≤ 4) (hb : (hexStr b).length ≤ 4) (hc : (hexStr c).length ≤ 4) (hk : ∀ t ∈ keys, t.length ≤ 48) (hn : ∀ t ∈ ndigs, t.length ≤ 48) (hw : ∀ t ∈ wits, t.length ≤ 48)
    (lk : keys.length ≤ 4096) (ln : ndigs.length ≤ 4096) (lw : wits.length ≤ 4096) (hd : ∀ x, delpre = some x → x.length ≤ 2 ^ 16) :
    (Value.obj (inceptionEntries vs d i (.str (hexStr a)) keys (.str (hexStr b)) ndigs (.str (hexStr c)) wits [] [] delpre)).toJson.length < 2 ^ 24 := by
  have s1 := jsonStr_le vs
  have s2 := jsonStr_le d
  have s3 := jsonStr_le i
  have s4 := jsonStr_le (hexStr a)
  have s5 := jsonStr_le (hexStr b)
  have s6 := jsonStr_le (hexStr c)
  have l1 := arr_le hk lk
  have l2 := arr_le hn ln
  have l3 := arr_le hw lw
  have e : ∀ k : Str, k.length ≤ 2 → (jsonStr k).length ≤ 14 := fun k hk => by have := jsonStr_le k; omega
  have k1 := e (lit "v") (by decide)
  have k2 := e (lit "t") (by decide)
  have k3 := e (lit "d") (by decide)
  have k4 := e (lit "i") (by decide)
  have k5 := e (lit "s") (by decide)
  have k6 := e (lit "kt") (by decide)
  have k7 := e (lit "k") (by decide)
  have k8 := e (lit "nt") (by decide)
  have k9 := e (lit "n") (by decide)
  have k10 := e (lit "bt") (by decide)
  have k11 := e (lit "b") (by decide)
  have k12 := e (lit "c") (by decide)
  have k13 := e (lit "a") (by decide)
  have k14 := e (lit "di") (by decide)
  have t1 : (jsonStr (lit "icp")).length = 5 := by decide
  have t1' : (jsonStr (lit "dip")).length = 5 := by decide
  have t2 : (jsonStr (lit "0")).length = 3 := by decide
  have t3 : (Value.arr ([] : List Value)).toJson.length = 2 := by decide
  have t4 : (Value.arr (([] : List Str).map .str)).toJson.length = 2 := by decide
  have str : ∀ t, (Value.str t).toJson = jsonStr t := fun _ => by simp [Value.toJson]
  unfold inceptionEntries
  cases delpre with
  | none =>
    rw [show ∀ o : List (Str × Value), (Value.obj o).toJson = ch '{' :: (fieldsJson o ++ [ch '}']) from fun _ => by simp [Value.toJson]]
    simp only [List.append_nil, fieldsJson, List.length_cons, List.length_append, List.length_nil, str, Option.isNone_none, if_true]
    simp only [t1, t2, t3, t4]
    omega
  | some x =>
    have hx := hd x rfl
    have s7 := jsonStr_le x
    rw [show ∀ o : List (Str × Value), (Value.obj o).toJson = ch '{' :: (fieldsJson o ++ [ch '}']) from fun _ => by simp [Value.toJson]]
    simp only [List.cons_append, List.nil_append, fieldsJson, List.length_cons, List.length_append, List.length_nil, str, Option.isNone_some]
    simp only [Bool.false_eq_true, if_false, t1', t2, t3, t4]
    omega

/-- What is asked of signers, next signers, witnesses and delegator: they were made by the library, there is at least one signer and at most 4096 of each, no witness is named twice, and the
delegator is a valid text of at most 64 KiB. -/
structure Founders (E : Env) (C : Crypto) (signers next witnesses : List Signer) (delegator : Option Str) : Prop where
  made : ∀ g ∈ signers ++ next ++ witnesses, MadeSigner E C g
  nonempty : signers ≠ []
  fewSigners : signers.length ≤ 4096
  fewNext : next.length ≤ 4096
  fewWitnesses : witnesses.length ≤ 4096
  distinct : witnesses.Pairwise fun a b => a.verfer ≠ b.verfer
  named : ∀ x, delegator = some x → utf8Valid x = true ∧ x.length ≤ 2 ^ 16

theorem keys_short {signers : List Signer} {ks : List Str} (hm : ∀ g ∈ signers, MadeSigner E C g) (h : Aligned (fun g t => keyText E g = .ok t) signers ks) : ∀ t ∈ ks, Short t := by
  intro t ht
  obtain ⟨g, hg, e⟩ := aligned_mem h t ht
  obtain ⟨t', e', sh, _⟩ := key_total (hm g hg)
  obtain rfl := Res.ok.inj (e'.symm.trans e)
  exact sh

theorem apart {ws : List Signer} {ts : List Str} (hm : ∀ g ∈ ws, MadeSigner E C g) (h : Aligned (fun g t => keyText E g = .ok t) ws ts) (hd : ws.Pairwise fun a b => a.verfer ≠ b.verfer) : ts.Nodup := by
  induction h with
  | nil => exact .nil
  | @cons g t ws ts hg hr ih =>
    rw [List.pairwise_cons] at hd
    refine List.nodup_cons.mpr ⟨fun hin => ?_, ih (fun g hg => hm g (by simp [hg])) hd.2⟩
    obtain ⟨g', hg', e⟩ := aligned_mem hr t hin
    obtain ⟨t1, e1, _, x1, _⟩ := key_total (hm g (by simp))
    obtain ⟨t2, e2, _, x2, _⟩ := key_total (hm g' (by simp [hg']))
    obtain rfl := Res.ok.inj (e1.symm.trans hg)
    obtain rfl := Res.ok.inj (e2.symm.trans e)
    exact hd.1 g' hg' (Res.ok.inj (x1.symm.trans x2))

/-- The pieces of a founding. -/
theorem found_parts {signers next ws : List Signer} {delegator : Option Str} (h : Founders E C signers next ws delegator) (F : Str → Option Str) (H : Hash) :
    ∃ keys ndigs wits s, KeysOf E C signers keys ∧ KeysOf E C ws wits ∧ Aligned (fun g t => commitment E H g = .ok t) next ndigs ∧ (∀ t ∈ ndigs, Short t) ∧
      found E F H signers next ws delegator = .ok s ∧ s.raw.length < 2 ^ 24 ∧
      incept E F H keys none (some ndigs) none none (some wits) none none none none (some (lit "E")) none delegator = .ok s := by
  have m1 : ∀ g ∈ signers, MadeSigner E C g := fun g hg => h.made g (by simp [hg])
  have m2 : ∀ g ∈ next, MadeSigner E C g := fun g hg => h.made g (by simp [hg])
  have m3 : ∀ g ∈ ws, MadeSigner E C g := fun g hg => h.made g (by simp [hg])
  obtain ⟨keys, hk⟩ := each_total (f := keyText E) fun g hg => let ⟨t, ht, _⟩ := key_total (m1 g hg); ⟨t, ht⟩
  obtain ⟨ndigs, hn⟩ := each_total (f := commitment E H) fun g hg => let ⟨t, ht, _⟩ := commitment_total (m2 g hg) H; ⟨t, ht⟩
  obtain ⟨wits, hw⟩ := each_total (f := keyText E) fun g hg => let ⟨t, ht, _⟩ := key_total (m3 g hg); ⟨t, ht⟩
  have lk := aligned_length hk
  have ln := aligned_length hn
  have lw := aligned_length hw
  have b1 := h.fewSigners
  have b2 := h.fewNext
  have b3 := h.fewWitnesses
  have sk := keys_short m1 hk
  have sw := keys_short m3 hw
  have sn : ∀ t ∈ ndigs, Short t := by
    intro t ht
    obtain ⟨g, hg, e⟩ := aligned_mem hn t ht
    obtain ⟨t', e', sh, _⟩ := commitment_total (m2 g hg) H
    obtain rfl := Res.ok.inj (e'.symm.trans e)
    exact sh
  have nd := apart m3 hw h.distinct
  obtain ⟨n, hn1, hp⟩ := proper_default E F (keys := keys) (ndigs := ndigs) (wits := wits)
    (by rintro rfl; exact h.nonempty (List.length_eq_zero_iff.mp lk)) (by omega) (by omega) (by omega)
    (by rintro u x y v rfl rfl; simp [List.nodup_append] at nd)
  have hex : ∀ m ≤ 4096, (hexStr m).length ≤ 4 := fun m hm => (hexStr_length_le m 4 (by decide)).mpr (by omega)
  obtain ⟨s, hs, hl⟩ := C108_accepts (E := E) (F := F) (H := H) (ndigs := some ndigs) (wits := some wits) (cnfg := none) (data := none) (version := none) (kind := none) (code := some (lit "E"))
    (intive := none) (delpre := delegator) hp rfl rfl (.inl rfl) fun k hk => entries_le (by decide) (by simp; omega) (by simp; omega) (hex _ (by omega)) (hex _ (by omega)) (hex _ (by omega))
      (fun t ht => (sk t ht).1) (fun t ht => (sn t ht).1) (fun t ht => (sw t ht).1) (by omega) (show ndigs.length ≤ 4096 by omega) (show wits.length ≤ 4096 by omega) fun x hx => (h.named x hx).2
  refine ⟨keys, ndigs, wits, s, ⟨m1, hk⟩, ⟨m3, hw⟩, hn, sn, ?_, hl, hs⟩
  unfold found
  rw [each_ok.mpr hk, Res.ok_bind, each_ok.mpr hn, Res.ok_bind, each_ok.mpr hw, Res.ok_bind]
  exact hs

/-- C111. Founding always succeeds; the event shows the keys, the witnesses, digests that are those of the next keys, and an identifier that is its SAID. -/
theorem C111_founded {signers next ws : List Signer} {delegator : Option Str} (h : Founders E C signers next ws delegator) (F : Str → Option Str) (H : Hash) :
    ∃ s i, found E F H signers next ws delegator = .ok s ∧ Serder.pre s = .ok i ∧ s.said E = .ok i ∧ Serder.sn E s = .ok 0 ∧ s.raw.length < 2 ^ 24 ∧
      Serder.verfers E s = .ok (signers.map (·.verfer)) ∧ Serder.werfers E s = .ok (ws.map (·.verfer)) ∧
      ∃ ds, Serder.digers E H s = .ok ds ∧ Aligned (fun d g => ∃ k, Matter.qb64b E g.verfer = .ok k ∧ Diger.verify H d k = .ok true) ds next := by
  obtain ⟨keys, ndigs, wits, s, hk, hw, hn, hsh, hf, hl, hs⟩ := found_parts h F H
  have m2 : ∀ g ∈ next, MadeSigner E C g := fun g hg => h.made g (by simp [hg])
  obtain ⟨i, p1, p2, _⟩ := C108_self_addressing hs (.inr ⟨lit "E", by decide +kernel, rfl⟩)
  obtain ⟨vs, d, i', kt, nt, bt, hked, _, _, _, _, _, _, hsn, _⟩ := C108_event hs
  refine ⟨s, i, hf, p1, p2, hsn, hl, (keys_of (C := C) hs).1 hk, (keys_of (C := C) hs).2 hw, ?_⟩
  have hcom : ∃ ds : List Matter, Aligned (fun (v : Value) m => ∃ t, v = .str t ∧ Matter.ofText E t = .ok m ∧ ∃ n, (m.code, n) ∈ digestSizes) (ndigs.map .str) ds ∧
      Aligned (fun d g => ∃ k, Matter.qb64b E g.verfer = .ok k ∧ Diger.verify H d k = .ok true) ds next := by
    clear hs hked hf h hsh
    induction hn with
    | nil => exact ⟨[], .nil, .nil⟩
    | @cons g t gs ts hg _ ih =>
      obtain ⟨ds, h1, h2⟩ := ih (fun x hx => m2 x (by simp [hx]))
      obtain ⟨t', e', _, d, k, hx, hr, hq, hv, _⟩ := commitment_total (m2 g (by simp)) H
      obtain rfl := Res.ok.inj (e'.symm.trans hg)
      exact ⟨d :: ds, .cons ⟨t', rfl, hx, hr⟩ h1, .cons ⟨k, hq, hv⟩ h2⟩
  obtain ⟨ds, h1, h2⟩ := hcom
  exact ⟨ds, ((C60_digers hked).1 _ (by cases delegator <;> rfl) _).mpr h1, h2⟩

/-- Bytes that are read are a valid text. -/
theorem read_utf8 {raw : List UInt8} {s : Sadder} (h : Serder.newWithRaw E F H raw = .ok s) : utf8Valid raw = true := by
  obtain ⟨s', h, _⟩ := Res.bind_eq_ok.mp h
  obtain ⟨v, _, _, hv, _⟩ := Sadder.new_raw_ok.mp h
  exact (sniff_iff.mp hv).2.1

/-- The number of witnesses asked for when nothing else is said: for w witnesses, the smallest number that tolerates (w - 1) / 3 faulty ones (at least one), but at most w. -/
def witnessesNeeded (w : Nat) : Nat := if w = 0 then 0 else min w ((w + max 1 ((w - 1) / 3) + 3) / 2)

/-- C111. Whichever signers sign the event and whichever witnesses sign a receipt, everything can be written, and the receiver gets it all: the event, an identifier that belongs to it, exactly those
signers and witnesses, whether the signers are at least half of all and whether the witnesses are as many as needed, and the text that follows. -/
theorem C111_accepted {signers next ws : List Signer} {delegator : Option Str} (h : Founders E C signers next ws delegator) (F : Str → Option Str) (H : Hash) (rnd rnd' : Nat → Nat)
    {positions wpositions : List Nat} (hp : ∀ i ∈ positions, i < signers.length) (hw : ∀ i ∈ wpositions, i < ws.length) (hl : positions.length ≤ 4095) (hwl : wpositions.length ≤ 4095) :
    ∃ s im rm, found E F H signers next ws delegator = .ok s ∧ announce E C rnd signers s positions = .ok im ∧ witnessed E F H C rnd' ws s wpositions = .ok rm ∧
      ∀ left, utf8Valid left = true → left.head? ≠ some (ch '-') →
        ∃ a c, acceptInception E F H C (im ++ (rm ++ left)) = .ok a ∧ a.event = s ∧ a.identified = true ∧ a.signers = positions.dedup ∧
          (a.signed = true ↔ signers.length ≤ 2 * positions.toFinset.card) ∧
          confirm E F H C a.event a.left = .ok c ∧ c.witnesses = wpositions.dedup ∧ (c.witnessed = true ↔ witnessesNeeded ws.length ≤ wpositions.toFinset.card) ∧ c.left = left := by
  obtain ⟨keys, ndigs, wits, s, hk, hkw, hn, sn, hf, hsl, hs⟩ := found_parts h F H
  have lk := aligned_length hk.2
  have lw := aligned_length hkw.2
  have b1 := h.fewSigners
  have b3 := h.fewWitnesses
  obtain ⟨sigs, hsigs, hby, hpos⟩ := signs_total hk.1 b1 s.raw rnd hp
  obtain ⟨wigs, hwigs, hwby, hwpos⟩ := signs_total hkw.1 b3 s.raw rnd' hw
  have ls : sigs.length = positions.length := by rw [← hpos, List.length_map]
  have lws : wigs.length = wpositions.length := by rw [← hwpos, List.length_map]
  have hu : ∀ t ∈ (some ndigs).getD [] ++ (none : Option (List Str)).getD [] ++ delegator.toList, utf8Valid t = true := by
    intro t ht
    simp only [Option.getD_some, Option.getD_none, List.append_nil, List.mem_append, Option.mem_toList] at ht
    rcases ht with ht | ht
    · exact utf8Valid_ascii (sn t ht).2.2
    · exact (h.named t ht).1
  have uk : ∀ t ∈ keys ++ (some ndigs).getD [] ++ (some wits).getD [] ++ (none : Option (List Str)).getD [] ++ delegator.toList, utf8Valid t = true := by
    intro t htt
    simp only [List.mem_append] at htt hu
    rcases htt with (((htt | htt) | htt) | htt) | htt
    · obtain ⟨_, _, _, _, ha⟩ := keys_read hk t htt; exact utf8Valid_ascii ha
    · exact hu t (.inl (.inl htt))
    · obtain ⟨_, _, _, _, ha⟩ := keys_read hkw t htt; exact utf8Valid_ascii ha
    · exact hu t (.inl (.inr htt))
    · exact hu t (.inr htt)
  have hdata : ∀ v ∈ (none : Option (List Value)).getD [], Ordinary F 125 v := fun v hv => by cases hv
  have hread := C110_reads hs uk hdata (by omega)
  have us : utf8Valid s.raw = true := by
    have := hread [] rfl
    rw [List.append_nil] at this
    exact read_utf8 this
  obtain ⟨im, him⟩ := (C109_written (E := E) (s := s) (sigers := some sigs) (sealed := none) (wigers := none) (cigars := none) us
    (by rintro _ ⟨⟩; exact ⟨signed_genuine hk.1 hby, by omega⟩) (by rintro _ ⟨⟩) (by rintro _ ⟨⟩)).1.mpr
    ⟨by simp, by rintro _ ⟨⟩; exact ⟨by omega, by rintro _ ⟨⟩⟩, by rintro _ ⟨⟩⟩
  obtain ⟨i, p1, p2, p3, _⟩ := C108_self_addressing hs (.inr ⟨lit "E", by decide +kernel, rfl⟩)
  obtain ⟨hx, hasc⟩ := said_text hs p2
  obtain ⟨z, w⟩ := Matter.exfil_wf (E := E) hx p2
  have hsi : Short i := (short_of_wf w p2 (List.mem_append_right _ (by simp [p3]))).1
  obtain ⟨_, _, _, _, _, _, _, _, _, _, _, _, _, hsn, _⟩ := C108_event hs
  have hrsize : ∀ vs : Str, vs.length ≤ 20 → (Value.obj (receiptEntries vs i i (hexStr 0))).toJson.length < 2 ^ 24 := by
    intro vs hvs
    have a1 := jsonStr_le i
    have a2 := jsonStr_le vs
    have a3 : (jsonStr (hexStr 0)).length = 3 := by decide +kernel
    have a4 : (jsonStr (lit "v")).length = 3 := by decide
    have a5 : (jsonStr (lit "t")).length = 3 := by decide
    have a6 : (jsonStr (lit "d")).length = 3 := by decide
    have a7 : (jsonStr (lit "i")).length = 3 := by decide
    have a8 : (jsonStr (lit "s")).length = 3 := by decide
    have a9 : (jsonStr (lit "rct")).length = 5 := by decide
    have a10 := hsi.1
    have str : ∀ t, (Value.str t).toJson = jsonStr t := fun _ => by simp [Value.toJson]
    unfold receiptEntries
    rw [show ∀ o : List (Str × Value), (Value.obj o).toJson = ch '{' :: (fieldsJson o ++ [ch '}']) from fun _ => by simp [Value.toJson]]
    simp only [fieldsJson, List.length_cons, List.length_append, List.length_nil, str]
    simp only [a3, a4, a5, a6, a7, a8, a9]
    omega
  obtain ⟨r, hr⟩ := C109_receipt_accepts (E := E) F H (pre := i) (said := i) (sn := 0) (version := none) (kind := none) (by exact Nat.two_pow_pos _) rfl rfl hx p3 (hrsize _ (by decide))
  obtain ⟨⟨vs, sn', hked, hvt, hsn'⟩, hrr, _, _, _, _, _, hrread⟩ := C109_receipt (by exact Nat.two_pow_pos _) hr
  have hrl : r.raw.length < 2 ^ 32 := by
    rw [hrr, hked, canonicalHex_unique hsn' (hexStr_canonical 0)]
    exact Nat.lt_trans (hrsize vs (by have := versionText_length hvt; omega)) (by decide)
  have ui := utf8Valid_ascii hasc
  have ur : utf8Valid r.raw = true := by
    have := hrread ui ui hrl [] rfl
    rw [List.append_nil] at this
    exact read_utf8 this
  obtain ⟨rm, hrm⟩ := (C109_written (E := E) (s := r) (sigers := none) (sealed := none) (wigers := some wigs) (cigars := none) ur
    (by rintro _ ⟨⟩) (by rintro _ ⟨⟩; exact ⟨signed_genuine hkw.1 hwby, by omega⟩) (by rintro _ ⟨⟩)).1.mpr
    ⟨by simp, by rintro _ ⟨⟩, by rintro _ ⟨⟩; omega⟩
  refine ⟨s, im, rm, hf, ?_, ?_, fun left hleft hhead => ?_⟩
  · unfold announce
    rw [hsigs, Res.ok_bind]
    exact him
  · unfold witnessed
    rw [p1, Res.ok_bind, hsn, Res.ok_bind, p2, Res.ok_bind, hr, Res.ok_bind, hwigs, Res.ok_bind]
    exact hrm
  · obtain ⟨th, n, h1, _, hask, h3⟩ := C110_exchange hs hu hdata (by omega) (by rintro _ ⟨⟩) hk hkw (.inr (.inl ⟨_, by decide +kernel, rfl⟩)) hby hwby (by omega) (by omega)
      (show wits.length < 2 ^ 126 by omega) him p1 p2 hr hrl hrm
    obtain ⟨th', t1, t2, _⟩ := C110_enough hs
    obtain rfl : th' = th := by rw [h1] at t1; cases t1; rfl
    have hnum : th'.num = .ok (some ((keys.length + 1) / 2)) := by
      obtain ⟨t, _, u1, _, _, u3, _⟩ := C108_thresholds hs
      obtain rfl : th' = t := by rw [h1] at u1; cases u1; rfl
      exact u3 rfl
    have hsat := (t2 _ hnum).2.2 (sigs.map (·.indexer.index)).dedup (List.nodup_dedup _)
    obtain ⟨a, c, e1, e2, e3, e4, e5, e6, e7, e8, e9, e10⟩ := h3 _ hsat left hleft hhead
    rw [hpos] at e4 e5
    rw [hwpos] at e8 e9
    have hneed : n = witnessesNeeded ws.length := by
      unfold witnessesNeeded
      by_cases h0 : ws.length = 0
      · rw [if_pos h0]
        exact hask.2.2 (List.length_eq_zero_iff.mp (lw.symm.trans h0))
      · rw [if_neg h0]
        have := hask.2.1 rfl (fun e => h0 (by rw [lw, show wits = [] from e]; rfl))
        rw [ample_default E (by show 1 ≤ wits.length; omega) (by show wits.length < 2 ^ 126; omega)] at this
        rw [← Res.ok.inj this, lw]
        rfl
    refine ⟨a, c, e1, e2, e3, e4, ?_, e6, e8, by rw [e9, hneed], e10⟩
    rw [e5, decide_eq_true_iff, List.card_toFinset, lk]
    omega

end Builder
end Cesride
