import Verif.Props.Life

/-! # Property C112, continued: rotations succeed and are accepted -/

namespace Cesride
namespace Builder
open Common Spec Tholder R32

variable {E : Env} {F : Str → Option Str} {H : Hash} {C : Crypto}

/-- What is asked of the signers of a rotation and the next ones. -/
structure Successors (E : Env) (C : Crypto) (signers next : List Signer) : Prop where
  made : ∀ g ∈ signers ++ next, MadeSigner E C g
  fewSigners : signers.length ≤ 4096
  fewNext : next.length ≤ 4096

theorem short_said {m : Matter} {z : Sizage} (w : Matter.Wf m z) {t : Str} (ht : m.qb64 E = .ok t) (hc : m.code = lit "E") : Short t :=
  (short_of_wf w ht (List.mem_append_right _ (by simp [hc]))).1

theorem digers_read {s : Sadder} {o : List (Str × Value)} {next : List Signer} {ndigs : List Str} (hm : ∀ g ∈ next, MadeSigner E C g) (ho : s.ked = .obj o)
    (hl : o.lookup (lit "n") = some (.arr (ndigs.map .str))) (hn : Aligned (fun g t => commitment E H g = .ok t) next ndigs) :
    ∃ ds, Serder.digers E H s = .ok ds ∧ Aligned (fun d g => ∃ k, Matter.qb64b E g.verfer = .ok k ∧ H.digest d.code k = d.raw) ds next := by
  have hcom : ∃ ds : List Matter, Aligned (fun (v : Value) m => ∃ t, v = .str t ∧ Matter.ofText E t = .ok m ∧ ∃ n, (m.code, n) ∈ digestSizes) (ndigs.map .str) ds ∧
      Aligned (fun d g => ∃ k, Matter.qb64b E g.verfer = .ok k ∧ H.digest d.code k = d.raw) ds next := by
    clear hl
    induction hn with
    | nil => exact ⟨[], .nil, .nil⟩
    | @cons g t gs ts hg _ ih =>
      obtain ⟨ds, h1, h2⟩ := ih (fun x hx => hm x (by simp [hx]))
      obtain ⟨t', e', _, d, k, hx, hr, hq, _, hv⟩ := commitment_total (hm g (by simp)) H
      obtain rfl := Res.ok.inj (e'.symm.trans hg)
      exact ⟨d :: ds, .cons ⟨t', rfl, hx, hr⟩ h1, .cons ⟨k, hq, hv⟩ h2⟩
  obtain ⟨ds, h1, h2⟩ := hcom
  exact ⟨ds, ((C60_digers ho).1 _ hl _).mpr h1, h2⟩

/-- A founded identifier can be rotated. -/
theorem founded_head {signers next ws : List Signer} {delegator : Option Str} (h : Founders E C signers next ws delegator) {s : Sadder} (hf : found E F H signers next ws delegator = .ok s) :
    ∃ i, Latest E s 0 i ∧ Standing E F H C s signers next := by
  obtain ⟨keys, ndigs, wits, s', hk, hw, hn, hsh, hf', hl, hs⟩ := found_parts h F H
  obtain rfl := Res.ok.inj (hf'.symm.trans hf)
  have m2 : ∀ g ∈ next, MadeSigner E C g := fun g hg => h.made g (by simp [hg])
  obtain ⟨i, p1, p2, p3, _⟩ := C108_self_addressing hs (.inr ⟨lit "E", by decide +kernel, rfl⟩)
  obtain ⟨vs, d, i', kt, nt, bt, hked, _, _, _, _, _, _, hsn, _⟩ := C108_event hs
  obtain ⟨hx, hasc⟩ := said_text hs p2
  obtain ⟨z, w⟩ := Matter.exfil_wf (E := E) hx p2
  have hsi : Short i := short_said w p2 p3
  obtain ⟨t, nt', w1, u2, _, w3, _, u4, _⟩ := C108_thresholds hs
  have hlk : (inceptionEntries vs d i' kt keys nt ((some ndigs).getD []) bt ((some wits).getD []) [] [] delegator).lookup (lit "k") = some (.arr (keys.map .str)) := by cases delegator <;> rfl
  refine ⟨i, ⟨p1, hsi, hsn, ⟨i, p2, hsi⟩⟩, ⟨_, (look hked).2.2.2.2, by cases delegator <;> simp⟩, hk.1, m2, h.nonempty, h.fewSigners, ?_, ?_, digers_read m2 hked (by cases delegator <;> rfl) hn, nt', u2, ?_, ?_⟩
  · exact ((C60_verfers hked).1 _ hlk _).mpr (verfers_of_signers hk.1 hk.2)
  · exact ⟨t, w1, by rw [w3 rfl, ← aligned_length hk.2], kt, ((C60_thresholds hked).1 _ _ (by cases delegator <;> rfl)).mp w1⟩
  · rw [u4 rfl, show (some ndigs).getD [] = ndigs from rfl, ← aligned_length hn]
  · exact ⟨nt, ((C60_thresholds hked).2.1 _ _ (by cases delegator <;> rfl)).mp u2⟩

/-- A rotation can be made, and can itself be followed by a rotation. -/
theorem rotate_total {e est : Sadder} {n : Nat} {i : Str} {earlier : List Sadder} {now signers next : List Signer} (he : Latest E e n i) (hst : standing (e :: earlier) = .ok est)
    (hes : Standing E F H C est now signers) (hs : Successors E C signers next) (hne : signers ≠ []) (hn : n + 1 < 2 ^ 128) :
    ∃ s vs ilk d p keys ndigs kt nt, rotate E F H (e :: earlier) signers next = .ok s ∧ Latest E s (n + 1) i ∧ Standing E F H C s signers next ∧ e.said E = .ok p ∧ KeysOf E C signers keys ∧ (∀ t ∈ keys ++ ndigs ++ [vs, ilk, d, i, p], Ascii t) ∧
      s.ked = .obj (rotationEntries vs ilk d i (hexStr (n + 1)) p (.str (hexStr kt)) keys (.str (hexStr nt)) ndigs) ∧ s.raw = s.ked.toJson ∧ s.raw.length < 2 ^ 24 ∧
      Saider.verify E H s.saider s.ked (some true) (some true) none none none = .ok true ∧ Serder.new E F H none none none (some s.ked) none = .ok s ∧
      ∃ t, Serder.tholder E F s = .ok (some t) ∧ t.num = .ok (some ((signers.length + 1) / 2)) ∧ ∃ v, Tholder.new E F none none (some v) = .ok t := by
  have m1 : ∀ g ∈ signers, MadeSigner E C g := fun g hg => hs.made g (by simp [hg])
  have m2 : ∀ g ∈ next, MadeSigner E C g := fun g hg => hs.made g (by simp [hg])
  obtain ⟨keys, hk⟩ := each_total (f := keyText E) fun g hg => let ⟨t, ht, _⟩ := key_total (m1 g hg); ⟨t, ht⟩
  obtain ⟨ndigs, hd⟩ := each_total (f := commitment E H) fun g hg => let ⟨t, ht, _⟩ := commitment_total (m2 g hg) H; ⟨t, ht⟩
  have lk := aligned_length hk
  have ln := aligned_length hd
  have b1 := hs.fewSigners
  have b2 := hs.fewNext
  have sk := keys_short m1 hk
  have sd : ∀ t ∈ ndigs, Short t := by
    intro t ht
    obtain ⟨g, hg, e⟩ := aligned_mem hd t ht
    obtain ⟨t', e', sh, _⟩ := commitment_total (m2 g hg) H
    obtain rfl := Res.ok.inj (e'.symm.trans e)
    exact sh
  obtain ⟨p, hp, shp⟩ := he.said
  obtain ⟨t, ht, hti⟩ := hes.ilk
  obtain ⟨num, hnum, _, hnumh⟩ := num_build E hn
  obtain ⟨th, th1, th2, th3⟩ := half_total E F (n := keys.length) (by omega)
  obtain ⟨nh, nh1, nh2, nh3⟩ := half_total E F (n := ndigs.length) (by omega)
  generalize hilk : (if t = lit "dip" ∨ t = lit "drt" then lit "drt" else lit "rot") = ilk
  have hilk3 : ilk.length ≤ 3 ∧ Ascii ilk ∧ ilk ∈ [lit "icp", lit "rot", lit "dip", lit "drt"] := by
    rw [← hilk]
    split
    · exact ⟨by decide, (by decide +kernel : ∀ c ∈ lit "drt", c < 128), by simp⟩
    · exact ⟨by decide, (by decide +kernel : ∀ c ∈ lit "rot", c < 128), by simp⟩
  have hvs : versify none none none none = .ok (lit "KERI10JSON000000_") := by decide +kernel
  have hvt : VersionText (lit "KERI10JSON000000_") (lit "KERI") 1 0 (lit "JSON") 0 := sample_text (by decide +kernel)
  have hex : ∀ m ≤ 4096, (hexStr m).length ≤ 4 := fun m hm => (hexStr_length_le m 4 (by decide)).mpr (by omega)
  have hsnl : (hexStr (n + 1)).length ≤ 32 := (hexStr_length_le _ 32 (by decide)).mpr (Nat.lt_of_lt_of_eq hn (by decide))
  have hsize : ∀ (vs x : Str), vs.length ≤ 100 → x.length ≤ 100 →
      (Value.obj (rotationEntries vs ilk x i (hexStr (n + 1)) p (.str (hexStr ((keys.length + 1) / 2))) keys (.str (hexStr ((ndigs.length + 1) / 2))) ndigs)).toJson.length < 2 ^ 24 :=
    fun vs x h1 h2 => rotation_le h1 h2 (by have := he.short.1; omega) (by omega) (by have := shp.1; omega) hilk3.1 (hex _ (by omega)) (hex _ (by omega)) (fun t ht => (sk t ht).1) (fun t ht => (sd t ht).1)
      (by omega) (by omega)
  obtain ⟨m, sad', hsd⟩ := C43_succeeds_versioned E H
    (o := (rotationEntries (lit "KERI10JSON000000_") ilk [] i (hexStr (n + 1)) p (.str (hexStr ((keys.length + 1) / 2))) keys (.str (hexStr ((ndigs.length + 1) / 2))) ndigs).tail)
    (code := lit "E") (label := lit "d") (vs := lit "KERI10JSON000000_") (i := lit "KERI") (m := 0) (n := 32) none
    (by decide +kernel) (by simp [rotationEntries]) (by decide +kernel) hvt (by decide +kernel) (by
      intro k hk
      exact hsize _ _ (by decide) (by simp; omega))
  have hsd : Saider.saidify E H (.obj (rotationEntries (lit "KERI10JSON000000_") ilk [] i (hexStr (n + 1)) p (.str (hexStr ((keys.length + 1) / 2))) keys
      (.str (hexStr ((ndigs.length + 1) / 2))) ndigs)) none none none none = .ok (m, sad') := hsd
  obtain ⟨vs, d, sz, j, hv, hq, hc, rfl, z, w⟩ := rotation_saidified hsd
  obtain ⟨s, hnew, hsm, hked, hraw, hver⟩ := C45_saidified_serder (F := F) hsd hvt
  have shd : Short d := short_said w hq hc
  have hsaid : s.said E = .ok d := by rw [Sadder.said, hsm]; exact hq
  have htho : Serder.tholder E F s = .ok (some th) := ((C60_thresholds hked).1 _ _ rfl).mpr th2
  have hnth : Serder.ntholder E F s = .ok (some nh) := ((C60_thresholds hked).2.1 _ _ rfl).mpr nh2
  refine ⟨s, vs, ilk, d, p, keys, ndigs, _, _, ?_, ?_, ?_, hp, ⟨m1, hk⟩, ?_, hked, by rw [hraw, hked], ?_, hver, ?_, th, htho, by rw [th3, lk], _, th2⟩
  · unfold rotate
    dsimp only
    rw [he.pre, Res.ok_bind, he.sn, Res.ok_bind, hp, Res.ok_bind, hst, Res.ok_bind, ht, Res.ok_bind, Sadder.toStr_ok.mpr rfl, Res.ok_bind, hnum, Res.ok_bind, hnumh, Res.ok_bind, each_ok.mpr hk, Res.ok_bind,
      each_ok.mpr hd, Res.ok_bind, th1, Res.ok_bind, nh1, Res.ok_bind, hvs, Res.ok_bind, hilk, hsd, Res.ok_bind]
    exact hnew
  · refine ⟨?_, he.short, ?_, ⟨d, hsaid, shd⟩⟩
    · rw [Serder.pre, show s.ked.index (lit "i") = .ok (.str i) by rw [hked]; rfl]; rfl
    · exact ((C60_sn hked).1 _).mpr ⟨hexStr (n + 1), rfl, .inr ⟨hexNumeral_of_canonical (hexStr_canonical _), hn⟩⟩
  · exact ⟨⟨ilk, by rw [hked]; rfl, hilk3.2.2⟩, m1, m2, hne, b1, ((C60_verfers hked).1 _ rfl _).mpr (verfers_of_signers m1 hk), ⟨th, htho, by rw [th3, lk], _, th2⟩, digers_read m2 hked rfl hd, nh, hnth, by rw [nh3, ln], _, nh2⟩
  · intro x hx
    simp only [List.mem_append, List.mem_cons, List.not_mem_nil, or_false] at hx
    rcases hx with (hx | hx) | rfl | rfl | rfl | rfl | rfl
    · exact (sk x hx).2.2
    · exact (sd x hx).2.2
    · exact versionText_ascii hv
    · exact hilk3.2.1
    · exact shd.2.2
    · exact he.short.2.2
    · exact shp.2.2
  · rw [hraw]
    exact hsize _ _ (by have := versionText_length hv; omega) (by have := shd.1; omega)
  · rw [hked]
    exact hnew

end Builder
end Cesride
