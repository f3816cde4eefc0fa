import Verif.Props.Life2

/-! # Property C112, continued: whole lives -/

namespace Cesride
namespace Builder
open Common Spec Tholder R32

variable {E : Env} {F : Str → Option Str} {H : Hash} {C : Crypto}

theorem aligned_get {α β : Type} {R : α → β → Prop} : ∀ {l : List α} {bs : List β}, Aligned R l bs → ∀ {i : Nat} {b : β}, bs[i]? = some b → ∃ a, l[i]? = some a ∧ R a b
  | _, _, .nil, i, b, h => by simp at h
  | _, _, .cons h t, 0, b, hb => by simp at hb; subst hb; exact ⟨_, rfl, h⟩
  | _, _, .cons h t, i + 1, b, hb => by
    obtain ⟨a, h1, h2⟩ := aligned_get t (i := i) (b := b) (by simpa using hb)
    exact ⟨a, by simpa using h1, h2⟩

theorem opens_total {signers : List Signer} (hm : ∀ g ∈ signers, MadeSigner E C g) (hl : signers.length ≤ 4096) (ser : List UInt8) (rnd : Nat → Nat) {positions : List Nat}
    (hp : ∀ i ∈ positions, i < signers.length) :
    ∃ sigs, each (openAt E C rnd signers ser) positions = .ok sigs ∧ sigs.map (·.indexer.index) = positions ∧
      ∀ y ∈ sigs, ∃ g, signers[y.indexer.index]? = some g ∧ ∃ r, Signer.signIndexed E C g ser false y.indexer.index (some y.indexer.index) r = .ok y := by
  have key : ∀ i ∈ positions, ∃ y, openAt E C rnd signers ser i = .ok y ∧ y.indexer.index = i ∧ ∃ g, signers[i]? = some g ∧ ∃ r, Signer.signIndexed E C g ser false i (some i) r = .ok y := by
    intro i hi
    have hlt := hp i hi
    obtain ⟨y, hy, hidx⟩ := sign_total (hm signers[i] (List.getElem_mem hlt)) ser (i := i) (j := some i) (by omega) (by show i < 4096; omega) (rnd i)
    refine ⟨y, ?_, hidx, _, List.getElem?_eq_getElem hlt, _, hy⟩
    unfold openAt
    rw [List.getElem?_eq_getElem hlt]
    exact hy
  obtain ⟨sigs, hs⟩ := each_total fun i hi => let ⟨y, hy, _⟩ := key i hi; ⟨y, hy⟩
  have hs' := aligned_imp (S := fun i y => y.indexer.index = i ∧ ∃ g, signers[i]? = some g ∧ ∃ r, Signer.signIndexed E C g ser false i (some i) r = .ok y) hs (by
    intro i hi y hy
    obtain ⟨y', hy', h⟩ := key i hi
    obtain rfl := Res.ok.inj (hy'.symm.trans hy)
    exact h)
  refine ⟨sigs, each_ok.mpr hs, ?_, ?_⟩
  · clear hs key hp
    induction hs' with
    | nil => rfl
    | cons h _ ih => rw [List.map_cons, h.1, ih]
  · intro y hy
    obtain ⟨i, _, rfl, h⟩ := aligned_mem hs' y hy
    exact h

theorem sigerTexts_aligned : ∀ {sigs : List Siger} {ts : Str}, sigerTexts E sigs = .ok ts → ∃ sts : List Str, ts = sts.flatten ∧ Aligned (fun (y : Siger) t => y.indexer.qb64 E = .ok t) sigs sts
  | [], ts, h => by cases h; exact ⟨[], rfl, .nil⟩
  | y :: sigs, ts, h => by
    unfold sigerTexts at h
    obtain ⟨t, ht, h⟩ := Res.bind_eq_ok.mp h
    obtain ⟨ts', hts, h⟩ := Res.bind_eq_ok.mp h
    cases h
    obtain ⟨sts, rfl, hst⟩ := sigerTexts_aligned hts
    exact ⟨t :: sts, rfl, .cons ht hst⟩

theorem rotation_ordinary (F : Str → Option Str) {vs ilk d i p : Str} {m a b : Nat} {keys ndigs : List Str} (h : ∀ t ∈ keys ++ ndigs ++ [vs, ilk, d, i, p], Ascii t) :
    Ordinary F 127 (.obj (rotationEntries vs ilk d i (hexStr m) p (.str (hexStr a)) keys (.str (hexStr b)) ndigs)) := by
  have u : ∀ t ∈ keys ++ ndigs ++ [vs, ilk, d, i, p], utf8Valid t = true := fun t ht => utf8Valid_ascii (h t ht)
  have ux : ∀ n, utf8Valid (hexStr n) = true := fun n => utf8Valid_ascii (hexStr_ascii n)
  simp only [List.mem_append, List.mem_cons, List.not_mem_nil, or_false] at u
  have fixed : ∀ k ∈ [lit "v", lit "t", lit "d", lit "i", lit "s", lit "p", lit "kt", lit "k", lit "nt", lit "n", lit "bt", lit "br", lit "ba", lit "a", lit "0"], utf8Valid k = true := by decide +kernel
  refine ordinary_obj (n := 126) ?_ (by unfold rotationEntries; simp only [List.map_cons, List.map_nil]; decide +kernel)
  intro e he
  unfold rotationEntries at he
  simp only [List.mem_cons, List.not_mem_nil, or_false] at he
  rcases he with rfl | rfl | rfl | rfl | rfl | rfl | rfl | rfl | rfl | rfl | rfl | rfl | rfl | rfl
  · exact ⟨fixed _ (by simp), ordinary_str F _ (u _ (by simp))⟩
  · exact ⟨fixed _ (by simp), ordinary_str F _ (u _ (by simp))⟩
  · exact ⟨fixed _ (by simp), ordinary_str F _ (u _ (by simp))⟩
  · exact ⟨fixed _ (by simp), ordinary_str F _ (u _ (by simp))⟩
  · exact ⟨fixed _ (by simp), ordinary_str F _ (ux _)⟩
  · exact ⟨fixed _ (by simp), ordinary_str F _ (u _ (by simp))⟩
  · exact ⟨fixed _ (by simp), ordinary_str F _ (ux _)⟩
  · exact ⟨fixed _ (by simp), ordinary_strs F 125 fun t ht => u t (by simp [ht])⟩
  · exact ⟨fixed _ (by simp), ordinary_str F _ (ux _)⟩
  · exact ⟨fixed _ (by simp), ordinary_strs F 125 fun t ht => u t (by simp [ht])⟩
  · exact ⟨fixed _ (by simp), ordinary_str F _ (fixed _ (by simp))⟩
  · exact ⟨fixed _ (by simp), ordinary_strs F 125 (l := []) fun t ht => by cases ht⟩
  · exact ⟨fixed _ (by simp), ordinary_strs F 125 (l := []) fun t ht => by cases ht⟩
  · exact ⟨fixed _ (by simp), ordinary_strs F 125 (l := []) fun t ht => by cases ht⟩

theorem stands_est {e : Sadder} {signers next : List Signer} (h : Standing E F H C e signers next) : Serder.est e = .ok true := by
  obtain ⟨t, ht, hm⟩ := h.ilk
  rw [Serder.est, ht, Res.ok_bind, Sadder.toStr_ok.mpr rfl, Res.ok_bind, List.contains_iff_mem.mpr hm]

theorem standing_of {e : Sadder} {earlier : List Sadder} (h2 : Serder.est e = .ok true) : ∀ {later : List Sadder}, (∀ l ∈ later, Serder.est l = .ok false) → standing (later ++ e :: earlier) = .ok e
  | [], _ => by rw [List.nil_append, standing, h2, Res.ok_bind, if_pos rfl]
  | l :: later, h1 => by
    rw [List.cons_append, standing, h1 l (by simp), Res.ok_bind, if_neg (by simp)]
    exact standing_of h2 (fun m hm => h1 m (by simp [hm]))

theorem authority_of {e : Sadder} {earlier : List Sadder} (h2 : Serder.est e = .ok true) {ks : List Matter} {t : Option Tholder} (hk : Serder.verfers E e = .ok ks) (ht : Serder.tholder E F e = .ok t) :
    ∀ {later : List Sadder}, (∀ l ∈ later, Serder.est l = .ok false) → authority E F (later ++ e :: earlier) = .ok (ks, t)
  | [], _ => by rw [List.nil_append, authority, h2, Res.ok_bind, if_pos rfl, hk, Res.ok_bind, ht, Res.ok_bind]
  | l :: later, h1 => by
    rw [List.cons_append, authority, h1 l (by simp), Res.ok_bind, if_neg (by simp)]
    exact authority_of h2 hk ht (fun m hm => h1 m (by simp [hm]))

/-- The parts of a message with signatures of controllers only. -/
theorem message_parts {s : Sadder} {sigs : List Siger} {m : Str} (us : utf8Valid s.raw = true) (hl : sigs.length ≤ 4095) (hm : messagize E s (some sigs) none none none = .ok m) :
    ∃ c ct sts, Counter.new E (some sigs.length) none (some (lit "-A")) none none none = .ok c ∧ c.qb64 E = .ok ct ∧ Aligned (fun (y : Siger) t => y.indexer.qb64 E = .ok t) sigs sts ∧
      m = s.raw ++ (ct ++ sts.flatten) := by
  unfold messagize at hm
  rw [fromUtf8, if_pos us, Res.ok_bind, if_neg (by simp)] at hm
  obtain ⟨a, ha, hm⟩ := Res.bind_eq_ok.mp hm
  obtain ⟨b, hb, hm⟩ := Res.bind_eq_ok.mp hm
  cases hm
  cases hb
  unfold controllerText at ha
  obtain ⟨x, hx, ha⟩ := Res.bind_eq_ok.mp ha
  cases hx
  obtain ⟨ct, hct, ha⟩ := Res.bind_eq_ok.mp ha
  obtain ⟨ts, hts, ha⟩ := Res.bind_eq_ok.mp ha
  cases ha
  unfold counterText at hct
  obtain ⟨c, hc, hct⟩ := Res.bind_eq_ok.mp hct
  rw [Nat.mod_eq_of_lt (by omega)] at hc
  obtain ⟨sts, rfl, hst⟩ := sigerTexts_aligned hts
  exact ⟨c, ct, sts, hc, hct, hst, by simp⟩

/-- How many have signed decides a threshold of half of the signers. -/
theorem half_decides {t : Tholder} {v : Value} {k : Nat} (hk : 0 < k) (h1 : Tholder.new E F none none (some v) = .ok t) (h2 : t.num = .ok (some ((k + 1) / 2))) (positions : List Nat) :
    t.satisfy E positions.dedup = .ok (decide (k ≤ 2 * positions.toFinset.card)) := by
  rw [C34_distinct_indices h1 h2 E (List.nodup_dedup _), List.toFinset_card_of_nodup (List.nodup_dedup _), List.card_toFinset]
  refine congrArg Res.ok (Bool.eq_iff_iff.mpr ?_)
  simp only [decide_eq_true_eq]
  omega

/-- The rotation after a history, signed by some of the signers. -/
theorem rotation_judged {e : Sadder} {earlier : List Sadder} {i : Str} {now signers next : List Signer} (he : Head E F H C e earlier i now signers) (hs : Successors E C signers next)
    (hn : earlier.length + 1 < 2 ^ 128) (hne : signers ≠ []) :
    ∃ s, rotate E F H (e :: earlier) signers next = .ok s ∧ Head E F H C s (e :: earlier) i signers next ∧ Serder.est s = .ok true ∧
      (∃ p, e.said E = .ok p ∧ s.ked.index (lit "p") = .ok (.str p)) ∧
      ∀ rnd positions, (∀ j ∈ positions, j < signers.length) → positions.length ≤ 4095 → ∃ m, announceRotation E C rnd signers s positions = .ok m ∧
        utf8Valid m = true ∧ m.head? = some (ch '{') ∧ ∀ left, utf8Valid left = true → Serder.newWithRaw E F H (m ++ left) = .ok s ∧ acceptRotation E F H C (e :: earlier) (m ++ left) =
          if signers.length ≤ 2 * positions.toFinset.card then .ok { event := s, signers := positions.dedup, opened := positions.dedup, left := left } else .err .validation := by
  obtain ⟨later, est, before, hsplit, hlater, hstand⟩ := he.stands
  have hst : standing (e :: earlier) = .ok est := by rw [hsplit]; exact standing_of (stands_est hstand) hlater
  obtain ⟨s, vs, ilk, d, p, keys, ndigs, kt, nt, hr, hlat, hhead, hp, hk, hasc, hked, hrj, hraw, hver, hnew, th, hth, hnum, v, hv⟩ := rotate_total he.latest hst hstand hs hne hn
  refine ⟨s, hr, ⟨hlat, [], s, e :: earlier, rfl, by simp, hhead⟩, stands_est hhead, ⟨p, hp, by rw [hked]; rfl⟩, fun rnd positions hpos hlen => ?_⟩
  obtain ⟨sigs, hsigs, hidx, hby⟩ := opens_total hk.1 hs.fewSigners s.raw rnd hpos
  have hlen' : sigs.length = positions.length := by rw [← hidx, List.length_map]
  have hord := rotation_ordinary F (m := earlier.length + 1) (a := kt) (b := nt) hasc
  have hread : ∀ tail, utf8Valid tail = true → Serder.newWithRaw E F H (s.raw ++ tail) = .ok s := by
    intro tail ht
    have hnew' := hnew
    rw [hked] at hnew'
    have := C59_serder (rest := _) hnew' hord.plain hord.floats hord.utf8 (Nat.lt_of_le_of_lt hord.depth (by omega)) (by omega) tail
    rw [if_pos ht] at this
    exact this
  have us : utf8Valid s.raw = true := by
    have := hread [] rfl
    rw [List.append_nil] at this
    exact read_utf8 this
  have hgen : ∀ x ∈ sigs, Genuine E x := by
    intro y hy
    obtain ⟨g, hg, r, hsg⟩ := hby y hy
    obtain ⟨_, _, _, _, _, _, _, hmg⟩ := hk.1 g (List.mem_of_getElem? hg)
    exact (signIndexed_obtained hmg hsg).2
  obtain ⟨m, hm⟩ := (C109_written (E := E) (s := s) (sigers := some sigs) (sealed := none) (wigers := none) (cigars := none) us
    (by rintro _ ⟨⟩; exact ⟨hgen, by omega⟩) (by rintro _ ⟨⟩) (by rintro _ ⟨⟩)).1.mpr
    ⟨by simp, by rintro _ ⟨⟩; exact ⟨by omega, by rintro _ ⟨⟩⟩, by rintro _ ⟨⟩⟩
  refine ⟨m, by unfold announceRotation; rw [hsigs, Res.ok_bind]; exact hm, ?_, ?_, fun left hleft => ?_⟩
  · obtain ⟨_, _, hu⟩ := message_text (sigers := some sigs) (sealed := none) (wigers := none) (by rintro _ ⟨⟩; exact ⟨hgen, by omega⟩) (by rintro _ ⟨⟩) (by rintro _ ⟨⟩) hm
    exact hu
  · obtain ⟨t, rfl, _⟩ := message_text (sigers := some sigs) (sealed := none) (wigers := none) (by rintro _ ⟨⟩; exact ⟨hgen, by omega⟩) (by rintro _ ⟨⟩) (by rintro _ ⟨⟩) hm
    rw [hrj, hked]
    rfl
  obtain ⟨c, ct, sts, hc, hct, hst', rfl⟩ := message_parts us (by omega) hm
  obtain ⟨ds, hds, hal⟩ := hstand.commits
  obtain ⟨nth, hnth, hnn, v', hv'⟩ := hstand.nthold
  have hpos0 : 0 < signers.length := List.length_pos_iff.mpr hne
  have hmap : (sigs.map fun y => (y, some y.indexer.index)).map (fun y => y.1.indexer.index) = positions := by rw [List.map_map]; exact hidx
  have hfm : (sigs.map fun y => (y, some y.indexer.index)).filterMap (fun y => y.2) = positions := by
    rw [List.filterMap_map, ← hidx, ← List.filterMap_eq_map]
    rfl
  have hnew' := hnew
  rw [hked] at hnew'
  have := C93_judged (rest := _) hnew' hord.plain hord.floats hord.utf8 (Nat.lt_of_le_of_lt hord.depth (by omega)) (by omega) hked hver hp rfl
    (history := earlier) hsplit hlater (stands_est hstand) hds hnth hk.1 rfl hk.2 hth
    (sigs := sigs.map fun y => (y, some y.indexer.index)) (by
      intro y hy
      obtain ⟨z, hz, rfl⟩ := List.mem_map.mp hy
      obtain ⟨g, hg, r, hsg⟩ := hby z hz
      obtain ⟨dg, hd1, k, hd2, hd3⟩ := aligned_get hal hg
      exact ⟨g, r, dg, k, hg, hsg, hd1, hd2, hd3⟩) (c := c) (by rw [List.length_map]; exact hc) hct (sts := sts) (by
      clear hsigs hidx hby hlen' hgen hm hc hmap hfm
      induction hst' with
      | nil => exact .nil
      | cons h _ ih => exact .cons h ih)
    (by rw [hmap]; exact half_decides hpos0 hv hnum _) (by rw [hfm]; exact half_decides hpos0 hv' hnn _) hleft
  rw [hmap, hfm] at this
  refine ⟨?_, ?_⟩
  · rw [List.append_assoc]
    refine hread _ ?_
    obtain ⟨_, hcut, hu⟩ := message_text (sigers := some sigs) (sealed := none) (wigers := none) (by rintro _ ⟨⟩; exact ⟨hgen, by omega⟩) (by rintro _ ⟨⟩) (by rintro _ ⟨⟩) hm
    rw [utf8Valid_append us] at hu
    rw [utf8Valid_append hu]
    exact hleft
  · rw [List.append_assoc, List.append_assoc, this]
    simp only [decide_eq_true_eq, and_self]

end Builder
end Cesride
