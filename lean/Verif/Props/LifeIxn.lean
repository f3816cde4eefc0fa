import Verif.Props.Life3
import Verif.Props.Log

/-! # Property C115: data can be anchored between rotations -/

namespace Cesride
namespace Builder
open Common Spec Tholder R32

variable {E : Env} {F : Str → Option Str} {H : Hash} {C : Crypto}

/-- What is asked of the data of an interaction: ordinary JSON values (distinct keys, valid text, floats that are read back), nested at most 125 deep, of at most 8 MiB. -/
structure Anchors (F : Str → Option Str) (data : List Value) : Prop where
  ordinary : ∀ v ∈ data, Ordinary F 125 v
  small : (Value.arr data).toJson.length ≤ 2 ^ 23

theorem interaction_d {vs d i sn p : Str} {data : List Value} (x : Str) : Value.insert (interactionEntries vs d i sn p data) (lit "d") (.str x) = interactionEntries vs x i sn p data := rfl

theorem interaction_le {vs d i sn p : Str} {data : List Value} (h1 : vs.length ≤ 100) (h2 : d.length ≤ 100) (h3 : i.length ≤ 100) (h4 : sn.length ≤ 100) (h5 : p.length ≤ 100)
    (h6 : (Value.arr data).toJson.length ≤ 2 ^ 23) : (Value.obj (interactionEntries vs d i sn p data)).toJson.length < 2 ^ 24 := by
  have s1 := jsonStr_le vs
  have s2 := jsonStr_le d
  have s3 := jsonStr_le i
  have s6 := jsonStr_le sn
  have s7 := jsonStr_le p
  have e : ∀ k : Str, k.length ≤ 3 → (jsonStr k).length ≤ 20 := fun k hk => by have := jsonStr_le k; omega
  have k1 := e (lit "v") (by decide)
  have k2 := e (lit "t") (by decide)
  have k3 := e (lit "d") (by decide)
  have k4 := e (lit "i") (by decide)
  have k5 := e (lit "s") (by decide)
  have k13 := e (lit "a") (by decide)
  have k14 := e (lit "p") (by decide)
  have k15 := e (lit "ixn") (by decide)
  have str : ∀ t, (Value.str t).toJson = jsonStr t := fun _ => by simp [Value.toJson]
  unfold interactionEntries
  rw [show ∀ o : List (Str × Value), (Value.obj o).toJson = ch '{' :: (fieldsJson o ++ [ch '}']) from fun _ => by simp [Value.toJson]]
  simp only [fieldsJson, List.length_cons, List.length_append, List.length_nil, str]
  omega

/-- What `saidify` makes of the fields of an interaction. -/
theorem interaction_saidified {vs d i sn p : Str} {data : List Value} {m : Matter} {sad' : Value}
    (h : Saider.saidify E H (.obj (interactionEntries vs d i sn p data)) none none none none = .ok (m, sad')) :
    ∃ vs' t n j, VersionText vs' j 1 0 (lit "JSON") n ∧ m.qb64 E = .ok t ∧ m.code = lit "E" ∧ sad' = .obj (interactionEntries vs' t i sn p data) ∧ ∃ z, Matter.Wf m z := by
  obtain ⟨n, z, o, o', t, hcd, hz, ho, hin, hprep, hm, hmq, rfl⟩ := Saider.saidify_ok h
  injection ho with ho
  subst ho
  simp only [Option.getD_none] at hcd hin hprep hm
  have hdum : ∀ k, Saider.dummy k = .str (List.replicate k (ch '#')) := fun _ => rfl
  rw [hdum, interaction_d] at hprep
  obtain ⟨r, hr, hrk, _⟩ := Saider.prep_versioned hprep rfl
  obtain ⟨w, j, sz, e, t1, t2, -, t4, t5⟩ := sizeify_first.mp hr
  rw [t5] at hrk
  injection hrk with hrk
  subst hrk
  obtain ⟨z', _, _, wf, _⟩ := digest_matter E H hcd (Value.obj (Saider.removeKeys ((none : Option (List Str)).getD []) ((lit "v", Value.str (mkVs j _)) :: _))).toJson
  exact ⟨_, t, _, j, mkVs_text t2 t4, hmq, by rw [hm], rfl, z', by rw [hm]; exact wf⟩

theorem interaction_ordinary {vs d i p : Str} {m : Nat} {data : List Value} (h : ∀ t ∈ [vs, d, i, p], Ascii t) (hd : ∀ v ∈ data, Ordinary F 125 v) :
    Ordinary F 127 (.obj (interactionEntries vs d i (hexStr m) p data)) := by
  have u : ∀ t ∈ [vs, d, i, p], utf8Valid t = true := fun t ht => utf8Valid_ascii (h t ht)
  have ux : ∀ n, utf8Valid (hexStr n) = true := fun n => utf8Valid_ascii (hexStr_ascii n)
  simp only [List.mem_cons, List.not_mem_nil, or_false] at u
  have fixed : ∀ k ∈ [lit "v", lit "t", lit "d", lit "i", lit "s", lit "p", lit "a", lit "ixn"], utf8Valid k = true := by decide +kernel
  refine ordinary_obj (n := 126) ?_ (by unfold interactionEntries; simp only [List.map_cons, List.map_nil]; decide +kernel)
  intro e he
  unfold interactionEntries at he
  simp only [List.mem_cons, List.not_mem_nil, or_false] at he
  rcases he with rfl | rfl | rfl | rfl | rfl | rfl | rfl
  · exact ⟨fixed _ (by simp), ordinary_str F _ (u _ (by simp))⟩
  · exact ⟨fixed _ (by simp), ordinary_str F _ (fixed _ (by simp))⟩
  · exact ⟨fixed _ (by simp), ordinary_str F _ (u _ (by simp))⟩
  · exact ⟨fixed _ (by simp), ordinary_str F _ (u _ (by simp))⟩
  · exact ⟨fixed _ (by simp), ordinary_str F _ (ux _)⟩
  · exact ⟨fixed _ (by simp), ordinary_str F _ (u _ (by simp))⟩
  · exact ⟨fixed _ (by simp), ordinary_arr hd⟩

/-- An interaction event can be made. -/
theorem interact_total {e : Sadder} {n : Nat} {i : Str} {data : List Value} (he : Latest E e n i) (hd : Anchors F data) (hn : n + 1 < 2 ^ 128) :
    ∃ s vs d p, interact E F H e data = .ok s ∧ Latest E s (n + 1) i ∧ e.said E = .ok p ∧ (∀ t ∈ [vs, d, i, p], Ascii t) ∧
      s.ked = .obj (interactionEntries vs d i (hexStr (n + 1)) p data) ∧ s.raw = s.ked.toJson ∧ s.raw.length < 2 ^ 24 ∧
      Saider.verify E H s.saider s.ked (some true) (some true) none none none = .ok true ∧ Serder.new E F H none none none (some s.ked) none = .ok s := by
  obtain ⟨p, hp, shp⟩ := he.said
  obtain ⟨num, hnum, _, hnumh⟩ := num_build E hn
  have hvs : versify none none none none = .ok (lit "KERI10JSON000000_") := by decide +kernel
  have hvt : VersionText (lit "KERI10JSON000000_") (lit "KERI") 1 0 (lit "JSON") 0 := sample_text (by decide +kernel)
  have hsnl : (hexStr (n + 1)).length ≤ 32 := (hexStr_length_le _ 32 (by decide)).mpr (Nat.lt_of_lt_of_eq hn (by decide))
  have hsize : ∀ (vs x : Str), vs.length ≤ 100 → x.length ≤ 100 → (Value.obj (interactionEntries vs x i (hexStr (n + 1)) p data)).toJson.length < 2 ^ 24 :=
    fun vs x h1 h2 => interaction_le h1 h2 (by have := he.short.1; omega) (by omega) (by have := shp.1; omega) hd.small
  obtain ⟨m, sad', hsd⟩ := C43_succeeds_versioned E H (o := (interactionEntries (lit "KERI10JSON000000_") [] i (hexStr (n + 1)) p data).tail)
    (code := lit "E") (label := lit "d") (vs := lit "KERI10JSON000000_") (i := lit "KERI") (m := 0) (n := 32) none
    (by decide +kernel) (by simp [interactionEntries]) (by decide +kernel) hvt (by decide +kernel) (by
      intro k hk
      exact hsize _ _ (by decide) (by simp; omega))
  have hsd : Saider.saidify E H (.obj (interactionEntries (lit "KERI10JSON000000_") [] i (hexStr (n + 1)) p data)) none none none none = .ok (m, sad') := hsd
  obtain ⟨vs, d, sz, j, hv, hq, hc, rfl, z, w⟩ := interaction_saidified hsd
  obtain ⟨s, hnew, hsm, hked, hraw, hver⟩ := C45_saidified_serder (F := F) hsd hvt
  have shd : Short d := short_said w hq hc
  have hsaid : s.said E = .ok d := by rw [Sadder.said, hsm]; exact hq
  refine ⟨s, vs, d, p, ?_, ?_, hp, ?_, hked, by rw [hraw, hked], ?_, hver, ?_⟩
  · unfold interact
    rw [he.pre, Res.ok_bind, he.sn, Res.ok_bind, hp, Res.ok_bind, hnum, Res.ok_bind, hnumh, Res.ok_bind, hvs, Res.ok_bind, hsd, Res.ok_bind]
    exact hnew
  · refine ⟨?_, he.short, ?_, ⟨d, hsaid, shd⟩⟩
    · rw [Serder.pre, show s.ked.index (lit "i") = .ok (.str i) by rw [hked]; rfl]; rfl
    · exact ((C60_sn hked).1 _).mpr ⟨hexStr (n + 1), rfl, .inr ⟨hexNumeral_of_canonical (hexStr_canonical _), hn⟩⟩
  · intro x hx
    simp only [List.mem_cons, List.not_mem_nil, or_false] at hx
    rcases hx with rfl | rfl | rfl | rfl
    · exact versionText_ascii hv
    · exact shd.2.2
    · exact he.short.2.2
    · exact shp.2.2
  · rw [hraw]
    exact hsize _ _ (by have := versionText_length hv; omega) (by have := shd.1; omega)
  · rw [hked]
    exact hnew

/-- The interaction after a history, signed by some of the signers in force. -/
theorem interaction_judged {e : Sadder} {earlier : List Sadder} {i : Str} {signers next : List Signer} {data : List Value} (he : Head E F H C e earlier i signers next) (hd : Anchors F data)
    (hn : earlier.length + 1 < 2 ^ 128) :
    ∃ s, interact E F H e data = .ok s ∧ Head E F H C s (e :: earlier) i signers next ∧ Serder.est s = .ok false ∧
      (∃ p, e.said E = .ok p ∧ s.ked.index (lit "p") = .ok (.str p)) ∧ s.ked.index (lit "a") = .ok (.arr data) ∧
      ∀ rnd positions, (∀ j ∈ positions, j < signers.length) → positions.length ≤ 4095 → ∃ m, announce E C rnd signers s positions = .ok m ∧
        utf8Valid m = true ∧ m.head? = some (ch '{') ∧ ∀ left, utf8Valid left = true → Serder.newWithRaw E F H (m ++ left) = .ok s ∧
          admitFront E F H C (e :: earlier) (m ++ left) = if signers.length ≤ 2 * positions.toFinset.card then .ok (s, left) else .err .validation := by
  obtain ⟨later, est, before, hsplit, hlater, hstand⟩ := he.stands
  obtain ⟨s, vs, d, p, hr, hlat, hp, hasc, hked, hrj, hraw, hver, hnew⟩ := interact_total (F := F) (H := H) he.latest hd hn
  have hest : Serder.est s = .ok false := by
    rw [Serder.est, show s.ked.index (lit "t") = .ok (.str (lit "ixn")) by rw [hked]; rfl, Res.ok_bind, Sadder.toStr_ok.mpr rfl, Res.ok_bind]
    decide +kernel
  have hsp' : s :: e :: earlier = (s :: later) ++ est :: before := by rw [hsplit]; rfl
  have hlater' : ∀ l ∈ s :: later, Serder.est l = .ok false := by
    intro l hl
    cases hl with
    | head => exact hest
    | tail _ hl => exact hlater l hl
  refine ⟨s, hr, ⟨hlat, s :: later, est, before, hsp', hlater', hstand⟩, hest, ⟨p, hp, by rw [hked]; rfl⟩, by rw [hked]; rfl, fun rnd positions hpos hlen => ?_⟩
  obtain ⟨sigs, hsigs, hby, hidx⟩ := signs_total hstand.made hstand.few s.raw rnd hpos
  have hlen' : sigs.length = positions.length := by rw [← hidx, List.length_map]
  have hord := interaction_ordinary (F := F) (m := earlier.length + 1) hasc hd.ordinary
  have hnew' := hnew
  rw [hked] at hnew'
  have hread : ∀ tail, utf8Valid tail = true → Serder.newWithRaw E F H (s.raw ++ tail) = .ok s := by
    intro tail ht
    have := C59_serder (rest := _) hnew' hord.plain hord.floats hord.utf8 (Nat.lt_of_le_of_lt hord.depth (by omega)) (by omega) tail
    rw [if_pos ht] at this
    exact this
  have us : utf8Valid s.raw = true := by
    have := hread [] rfl
    rw [List.append_nil] at this
    exact read_utf8 this
  have hgen : ∀ x ∈ sigs, Genuine E x := signed_genuine hstand.made hby
  obtain ⟨m, hm⟩ := (C109_written (E := E) (s := s) (sigers := some sigs) (sealed := none) (wigers := none) (cigars := none) us
    (by rintro _ ⟨⟩; exact ⟨hgen, by omega⟩) (by rintro _ ⟨⟩) (by rintro _ ⟨⟩)).1.mpr
    ⟨by simp, by rintro _ ⟨⟩; exact ⟨by omega, by rintro _ ⟨⟩⟩, by rintro _ ⟨⟩⟩
  obtain ⟨t, hmt, hu⟩ := message_text (sigers := some sigs) (sealed := none) (wigers := none) (by rintro _ ⟨⟩; exact ⟨hgen, by omega⟩) (by rintro _ ⟨⟩) (by rintro _ ⟨⟩) hm
  refine ⟨m, by unfold announce; rw [hsigs, Res.ok_bind]; exact hm, hu, ?_, fun left hleft => ?_⟩
  · rw [hmt, hrj, hked]
    rfl
  have hum : utf8Valid (m ++ left) = true := by rw [utf8Valid_append hu]; exact hleft
  obtain ⟨c, ct, sts, hc, hct, hst', rfl⟩ := message_parts us (by omega) hm
  obtain ⟨hatt, hut⟩ := attachedSigs_of s.raw hgen hc hct hst' hleft
  obtain ⟨th, hth, hnum, v, hv⟩ := hstand.thold
  have hacc := C90_accepts (rest := _) hnew' hord.plain hord.floats hord.utf8 (Nat.lt_of_le_of_lt hord.depth (by omega)) (by omega) hked hver (history := e :: earlier) ⟨⟨p, hp, rfl⟩, .inl hest⟩ hut
  have hauth : authority E F (s :: e :: earlier) = .ok (signers.map (·.verfer), some th) := by rw [hsp']; exact authority_of (stands_est hstand) hstand.keys hth hlater'
  have hfil : ((sigs.map (fun x => ({ indexer := x.indexer, verfer := Verfer.default } : Siger))).filter
      (verifiesUnder C (signers.map (·.verfer)) s.raw)).map (·.indexer.index) = positions := by
    rw [List.filter_eq_self.mpr, List.map_map]
    · exact hidx
    · intro y hy
      obtain ⟨z, hz, rfl⟩ := List.mem_map.mp hy
      obtain ⟨g, only, ondex, r, hi, hs⟩ := hby z hz
      obtain ⟨_, _, _, _, _, _, _, hg⟩ := hstand.made g (List.mem_of_getElem? hi)
      have hv := (C53_indexed_verifies E C hg s.raw r hs).2.1
      unfold verifiesUnder
      rw [List.getElem?_map, hi]
      simpa using hv
  have hassoc : s.raw ++ (ct ++ sts.flatten) ++ left = s.raw ++ (ct ++ (sts.flatten ++ left)) := by simp
  rw [hassoc]
  refine ⟨hread _ hut, ?_⟩
  unfold admitFront
  rw [hacc, Res.ok_bind, hatt, Res.ok_bind]
  dsimp only
  rw [hauth, Res.ok_bind]
  dsimp only
  rw [hfil]
  unfold reaches
  dsimp only
  rw [half_decides (List.length_pos_iff.mpr hstand.nonempty) hv hnum, Res.ok_bind]
  simp only [decide_eq_true_eq]

end Builder
end Cesride
