import Verif.Model.Incept
import Verif.Spec.Event
import Verif.Props.Prefixer2
import Verif.Props.Sadder
import Verif.Props.Prims
import Verif.Props.Tholder5
import Verif.Props.Short

/-! # Lemmas about the builder of inception events -/

namespace Cesride
namespace Builder
open Common Spec Tholder

theorem num_build (E : Env) {n : Nat} (hn : n < 2 ^ 128) :
    ∃ m, Number.new E (some n) none none none none none none = .ok m ∧ Number.num m = .ok n ∧ Number.numh m = .ok (hexStr n) := by
  obtain ⟨x, h, t, b, h1, h2, h3, _⟩ := C28_number_roundtrip E hn
  exact ⟨x, h1, h2, by rw [Number.numh, h2]; rfl⟩

/-- What `incept` does before it derives a prefix. -/
structure Drafted (E : Env) (F : Str → Option Str) (keys : List Str) (sith : Option Value) (ndigs : List Str) (nsith : Option Value)
    (toad : Option Nat) (wits : List Str) (version : Option Version) (kind : Option Str) (intive : Bool) (vs : Str) (t nt : Tholder) (kt ntv : Value) (n : Nat) (bt : Value) : Prop where
  vs : versify none (some (version.getD currentVersion)) (some (kind.getD (lit "JSON"))) (some 0) = .ok vs
  thold : Tholder.new E F none none (some (sith.getD (halfOf keys.length 1))) = .ok t
  pos : t.num ≠ .ok (some 0)
  size : t.size ≤ keys.length
  nthold : Tholder.new E F none none (some (nsith.getD (halfOf ndigs.length 0))) = .ok nt
  nsize : nt.size ≤ ndigs.length
  unique : wits.length = (dedupNeighbours wits).length
  toad : ∃ m, toader E toad wits = .ok m ∧ Number.num m = .ok n
  fits : checkToad wits n = .ok ()
  kt : shownThreshold intive t = .ok kt
  nt : shownThreshold intive nt = .ok ntv
  bt : bt = if intive ∧ n < 2 ^ 32 - 1 then .int n else .str (hexStr n)

variable {E : Env} {F : Str → Option Str} {H : Hash} {keys : List Str} {sith : Option Value} {ndigs : Option (List Str)} {nsith : Option Value}
    {toad : Option Nat} {wits cnfg : Option (List Str)} {data : Option (List Value)} {version : Option Version} {kind code : Option Str}
    {intive : Option Bool} {delpre : Option Str} {s : Sadder}

theorem draft_entries (vs : Str) (kt : Value) (keys : List Str) (nt : Value) (ndigs : List Str) (bt : Value) (wits cnfg : List Str) (data : List Value) (delpre : Option Str) :
    draftEntries vs (lit "0") kt keys nt ndigs bt wits cnfg data delpre = .ok (.obj (inceptionEntries vs [] [] kt keys nt ndigs bt wits cnfg data delpre)) := by
  cases delpre <;> rfl

theorem draft_ok {ndigs wits cnfg : List Str} {data : List Value} {intive : Bool} {ked : Value} :
    draft E F keys sith ndigs nsith toad wits cnfg data version kind intive delpre = .ok ked ↔
    ∃ vs t nt kt ntv n bt, Drafted E F keys sith ndigs nsith toad wits version kind intive vs t nt kt ntv n bt ∧
      ked = .obj (inceptionEntries vs [] [] kt keys ntv ndigs bt wits cnfg data delpre) := by
  obtain ⟨z0, hz0, hz1, hz2⟩ := num_build E (n := 0) (by omega)
  have hh0 : hexStr 0 = lit "0" := by decide +kernel
  rw [hh0] at hz2
  have hbt : ∀ (m : Matter) (n : Nat), Number.num m = .ok n → shownToad intive m = .ok (if intive = true ∧ n < 2 ^ 32 - 1 then .int n else .str (hexStr n)) := by
    intro m n hn
    rw [shownToad, Number.numh, hn, Res.ok_bind, Res.ok_bind]
    split <;> rfl
  unfold draft
  rw [hz0]
  constructor
  · intro h
    obtain ⟨vs, hvs, h⟩ := Res.bind_eq_ok.mp h
    rw [Res.ok_bind] at h
    obtain ⟨t, ht, h⟩ := Res.bind_eq_ok.mp h
    obtain ⟨tn, htn, h⟩ := Res.bind_eq_ok.mp h
    split at h
    · cases h
    rename_i h0
    split at h
    · cases h
    rename_i h1
    obtain ⟨nt, hnt, h⟩ := Res.bind_eq_ok.mp h
    split at h
    · cases h
    rename_i h2
    split at h
    · cases h
    rename_i h3
    obtain ⟨m, hm, h⟩ := Res.bind_eq_ok.mp h
    obtain ⟨n, hn, h⟩ := Res.bind_eq_ok.mp h
    obtain ⟨u, hu, h⟩ := Res.bind_eq_ok.mp h
    obtain ⟨kt, hkt, h⟩ := Res.bind_eq_ok.mp h
    obtain ⟨ntv, hntv, h⟩ := Res.bind_eq_ok.mp h
    rw [hbt m n hn, Res.ok_bind, hz2, Res.ok_bind, draft_entries, Res.ok.injEq] at h
    exact ⟨vs, t, nt, kt, ntv, n, _, ⟨hvs, ht, by rw [htn, ne_eq, Res.ok.injEq]; exact h0, by omega, hnt, by omega, by omega, ⟨m, hm, hn⟩, hu, hkt, hntv, rfl⟩, h.symm⟩
  · rintro ⟨vs, t, nt, kt, ntv, n, bt, d, rfl⟩
    obtain ⟨tn, htn⟩ : ∃ tn, t.num = .ok tn := by
      rcases C101_shown d.thold with ⟨n, _, _, h, _⟩ | ⟨_, _, h, _⟩ <;> exact ⟨_, h⟩
    obtain ⟨m, hm, hn⟩ := d.toad
    rw [d.vs, Res.ok_bind, Res.ok_bind, d.thold, Res.ok_bind, htn, Res.ok_bind, if_neg (fun e => d.pos (by rw [htn, e])), if_neg (by have := d.size; omega),
      d.nthold, Res.ok_bind, if_neg (by have := d.nsize; omega), if_neg (by have := d.unique; omega), hm, Res.ok_bind, hn, Res.ok_bind, d.fits, Res.ok_bind,
      d.kt, Res.ok_bind, d.nt, Res.ok_bind, hbt m n hn, Res.ok_bind, hz2, Res.ok_bind, draft_entries, ← d.bt]

theorem incept_ok : incept E F H keys sith ndigs nsith toad wits cnfg data version kind code intive delpre = .ok s ↔
    ∃ vs t nt kt ntv n bt, Drafted E F keys sith (ndigs.getD []) nsith toad (wits.getD []) version kind (intive.getD false) vs t nt kt ntv n bt ∧
      finish E F H keys delpre (codeOf delpre code)
        (.obj (inceptionEntries vs [] [] kt keys ntv (ndigs.getD []) bt (wits.getD []) (cnfg.getD []) (data.getD []) delpre)) = .ok s := by
  unfold incept
  constructor
  · intro h
    obtain ⟨ked, hk, h⟩ := Res.bind_eq_ok.mp h
    obtain ⟨vs, t, nt, kt, ntv, n, bt, d, rfl⟩ := draft_ok.mp hk
    exact ⟨vs, t, nt, kt, ntv, n, bt, d, h⟩
  · rintro ⟨vs, t, nt, kt, ntv, n, bt, d, h⟩
    rw [draft_ok.mpr ⟨vs, t, nt, kt, ntv, n, bt, d, rfl⟩, Res.ok_bind]
    exact h

/-! ## Prefix and SAID -/

theorem prefixerOf_ok {ked : Value} {p : Matter} : prefixerOf E H keys delpre code ked = .ok p ↔
    (delpre = none ∧ code = none ∧ ∃ key, keys = [key] ∧ Prefixer.new E H none none none none none (some key) none = .ok p ∧ p.digestive = false) ∨
    (¬ (delpre = none ∧ code = none ∧ ∃ key, keys = [key]) ∧ Prefixer.new E H (some ked) none code none none none none = .ok p ∧
      (delpre ≠ none → p.digestive = true)) := by
  have other : (do
      let p ← Prefixer.new E H (some ked) none code none none none none
      if delpre.isSome ∧ p.digestive = false then .err .value else .ok p : Res Matter) = .ok p ↔
      Prefixer.new E H (some ked) none code none none none none = .ok p ∧ (delpre ≠ none → p.digestive = true) := by
    constructor
    · intro h
      obtain ⟨q, hq, h⟩ := Res.bind_eq_ok.mp h
      split at h
      · cases h
      · rename_i hn
        injection h with h
        subst h
        refine ⟨hq, fun hd => ?_⟩
        cases hdig : q.digestive with
        | true => rfl
        | false => exact absurd ⟨Option.isSome_iff_ne_none.mpr hd, hdig⟩ hn
    · rintro ⟨h1, h2⟩
      rw [h1, Res.ok_bind, if_neg]
      rintro ⟨h3, h4⟩
      rw [h2 (Option.isSome_iff_ne_none.mp h3)] at h4
      cases h4
  unfold prefixerOf
  split
  · rename_i key
    simp only [true_and, List.cons.injEq, and_true, exists_eq_left', not_true, false_and, or_false, Exists.intro key rfl]
    constructor
    · intro h
      obtain ⟨q, hq, h⟩ := Res.bind_eq_ok.mp h
      split at h
      · cases h
      · rename_i hn
        injection h with h
        subst h
        exact ⟨hq, by simpa using hn⟩
    · rintro ⟨h1, h2⟩
      rw [h1, Res.ok_bind, if_neg (by simp [h2])]
  · rename_i hn
    have hno : ¬ (delpre = none ∧ code = none ∧ ∃ key, keys = [key]) := fun ⟨h1, h2, key, h3⟩ => hn key h1 h2 h3
    rw [other]
    constructor
    · intro h
      exact .inr ⟨hno, h⟩
    · rintro (⟨h1, h2, key, h3, _⟩ | ⟨_, h⟩)
      · exact absurd ⟨h1, h2, key, h3⟩ hno
      · exact h

theorem sizeify_same {rest : List (Str × Value)} {vs vs' i : Str} {a b : Nat} {r : Sized} (ht : VersionText vs i 1 0 (lit "JSON") a) (ht' : VersionText vs' i 1 0 (lit "JSON") b)
    (h : sizeify (.obj ((lit "v", .str vs) :: rest)) none = .ok r) : sizeify (.obj ((lit "v", .str vs') :: rest)) none = .ok r := by
  obtain ⟨w, j, sz, e, h1, h2, h3, h4, h5⟩ := sizeify_first.mp h
  injection e with e
  subst e
  have hij := VersionText_ident ht h1
  subst hij
  refine sizeify_first.mpr ⟨vs', i, b, rfl, ht', h2, h3, ?_, ?_⟩
  · rw [toJson_first_length ht' ht]; exact h4
  · rw [toJson_first_length ht' ht]; exact h5

section entries
variable {vs d i x : Str} {kt nt bt : Value} {keys ndigs wits cnfg : List Str} {data : List Value}

theorem entries_cons : ∃ rest, ∀ vs, inceptionEntries vs d i kt keys nt ndigs bt wits cnfg data delpre = (lit "v", .str vs) :: rest := ⟨_, fun _ => rfl⟩

theorem entries_i (x : Str) : Value.insert (inceptionEntries vs d i kt keys nt ndigs bt wits cnfg data delpre) (lit "i") (.str x) =
    inceptionEntries vs d x kt keys nt ndigs bt wits cnfg data delpre := by cases delpre <;> rfl

theorem entries_d (x : Str) : Value.insert (inceptionEntries vs d i kt keys nt ndigs bt wits cnfg data delpre) (lit "d") (.str x) =
    inceptionEntries vs x i kt keys nt ndigs bt wits cnfg data delpre := by cases delpre <;> rfl

/-- The length of the text depends on the identifier, the SAID and the version string only through their lengths. -/
theorem entries_length {d' i' vs' id' : Str} {n n' : Nat} (h1 : VersionText vs (lit "KERI") 1 0 (lit "JSON") n) (h2 : VersionText vs' id' 1 0 (lit "JSON") n')
    (hd : ∀ c ∈ d, escapeByte c = [c]) (hi : ∀ c ∈ i, escapeByte c = [c]) (hd' : ∀ c ∈ d', escapeByte c = [c]) (hi' : ∀ c ∈ i', escapeByte c = [c])
    (ld : d.length = d'.length) (li : i.length = i'.length) :
    (Value.obj (inceptionEntries vs d i kt keys nt ndigs bt wits cnfg data delpre)).toJson.length =
      (Value.obj (inceptionEntries vs' d' i' kt keys nt ndigs bt wits cnfg data delpre)).toJson.length := by
  obtain ⟨rest, hr⟩ := entries_cons (delpre := delpre) (d := d) (i := i) (kt := kt) (nt := nt) (bt := bt) (keys := keys) (ndigs := ndigs) (wits := wits) (cnfg := cnfg) (data := data)
  rw [hr vs, toJson_first_length h1 h2, ← hr vs']
  rw [← entries_d (d := d') d, toJson_insert_length hd hd' ld, entries_d, ← entries_i (i := i') i, toJson_insert_length hi hi' li, entries_i]

end entries

theorem text_of_wf {p : Matter} {z : Sizage} (w : Matter.Wf p z) {t : Str} (ht : p.qb64 E = .ok t) :
    t = Matter.text p z ∧ Matter.exfil t = .ok p ∧ (∀ c ∈ t, escapeByte c = [c]) := by
  have htx : t = Matter.text p z := by
    have := w.infil E
    rw [show p.infil E = p.qb64 E from rfl, ht] at this
    injection this
  refine ⟨htx, ?_, ?_⟩
  · have := w.exfil (rest := []) rfl
    rwa [List.append_nil, ← htx] at this
  · intro c hc
    rw [htx] at hc
    exact isB64_plain c (w.text_b64 c hc)

theorem digestive_iff {p : Matter} : p.digestive = true ↔ p.code ∈ digestPrefixes := by
  rw [Prefixer.digestPrefixes_iff, Matter.digestive, List.contains_iff_mem]
  rfl

/-- Verification of a digest prefix depends on the version string only through its protocol. -/
theorem verify_vs {p : Matter} (hc : p.code ∈ digestPrefixes) {z : Sizage} (w : Matter.Wf p z) {t : Str} (hq : p.qb64 E = .ok t) {rest : List (Str × Value)}
    {vs vs' i : Str} {a b : Nat} (ht : VersionText vs i 1 0 (lit "JSON") a) (ht' : VersionText vs' i 1 0 (lit "JSON") b) {pf : Option Bool}
    (h : Prefixer.verify E H p (.obj ((lit "v", .str vs) :: rest)) pf = .ok true) : Prefixer.verify E H p (.obj ((lit "v", .str vs') :: rest)) pf = .ok true := by
  rw [Prefixer.digestPrefixes_iff] at hc
  obtain ⟨n, hn⟩ := Prefixer.digestCodes_iff.mp hc
  rw [Prefixer.verify_eq hq] at h ⊢
  obtain ⟨o, ilk, e, h1, h2, h3⟩ := h
  injection e with e
  subst e
  have h12 : ∀ c ∈ Prefixer.nontransferableCodes ++ Prefixer.transferableCodes, c ∉ Prefixer.digestCodes := by decide +kernel
  have hv : ∀ k : Str, k ≠ lit "v" → ∀ x y : Value, List.lookup k ((lit "v", x) :: rest) = List.lookup k ((lit "v", y) :: rest) := by
    intro k hk x y
    rw [List.lookup_cons, List.lookup_cons, beq_false_of_ne hk]
  rcases h3 with ⟨h3, _⟩ | ⟨h3, _⟩ | ⟨_, h3⟩
  · exact absurd hc (h12 _ (List.mem_append_left _ h3))
  · exact absurd hc (h12 _ (List.mem_append_right _ h3))
  · refine ⟨_, ilk, rfl, by rw [← h1]; exact hv _ (by decide +kernel) _ _, h2, .inr (.inr ⟨hc, ?_⟩)⟩
    rw [Prefixer.verifyDigest_true w hq hn] at h3 ⊢
    obtain ⟨⟨r, hr, hraw⟩, h4⟩ := h3
    refine ⟨⟨r, ?_, hraw⟩, fun hb => by rw [← h4 hb]; exact hv _ (by decide +kernel) _ _⟩
    rw [insert_first (by decide +kernel), insert_first (by decide +kernel)] at hr ⊢
    exact sizeify_same ht ht' hr

section finish
variable {vs : Str} {kt nt bt : Value} {keys ndigs wits cnfg : List Str} {data : List Value}

theorem ked_new {vs d i : Str} (h : Serder.new E F H none none none (some (.obj (inceptionEntries vs d i kt keys nt ndigs bt wits cnfg data delpre))) none = .ok s) :
    ∃ a, VersionText vs (lit "KERI") 1 0 (lit "JSON") a ∧ ∃ vs' n, VersionText vs' (lit "KERI") 1 0 (lit "JSON") n ∧
      s.ked = .obj (inceptionEntries vs' d i kt keys nt ndigs bt wits cnfg data delpre) ∧ s.raw = s.ked.toJson ∧ n = s.raw.length % 2 ^ 32 ∧ n < 2 ^ 24 ∧
      Matter.exfil d = .ok s.saider ∧ s.saider.code = lit "E" := by
  obtain ⟨h1, h2⟩ := Serder.new_ok.mp h
  obtain ⟨r, m, h3, h4, h5, h6⟩ := Sadder.new_ked_ok.mp h1
  obtain ⟨rest, hr⟩ := entries_cons (delpre := delpre) (d := d) (i := i) (kt := kt) (nt := nt) (bt := bt) (keys := keys) (ndigs := ndigs) (wits := wits) (cnfg := cnfg) (data := data)
  rw [hr] at h3
  obtain ⟨w, j, sz, e, t1, t2, -, t4, t5⟩ := sizeify_first.mp h3
  injection e with e
  subst e
  have hj : j = lit "KERI" := by rw [h6, t5] at h2; exact h2
  subst hj
  have hmt := mkVs_text t2 t4
  obtain ⟨o, t, n, e1, e2, e3, _⟩ := Sadder.saiderOf_ok.mp h4
  rw [t5] at e1
  injection e1 with e1
  subst e1
  rw [← hr] at e2
  have hlen := toJson_first_length hmt t1 (rest := rest)
  have hd : t = d := by
    have : List.lookup (lit "d") (inceptionEntries (mkVs (lit "KERI") ((Value.obj ((lit "v", Value.str vs) :: rest)).toJson.length % 2 ^ 32)) d i kt keys nt ndigs bt wits cnfg data delpre) =
      some (.str d) := by cases delpre <;> rfl
    rw [this] at e2
    injection e2 with e2
    injection e2 with e2
    exact e2.symm
  subst hd
  subst h6
  rw [t5]
  dsimp only
  refine ⟨sz, t1, _, _, hmt, by rw [hr], rfl, by rw [hlen], t4, e3, h5⟩

theorem finish_ok (h : finish E F H keys delpre code (.obj (inceptionEntries vs [] [] kt keys nt ndigs bt wits cnfg data delpre)) = .ok s) :
    ∃ p pre vs' d, prefixerOf E H keys delpre code (.obj (inceptionEntries vs [] [] kt keys nt ndigs bt wits cnfg data delpre)) = .ok p ∧ p.qb64 E = .ok pre ∧
      s.ked = .obj (inceptionEntries vs' d pre kt keys nt ndigs bt wits cnfg data delpre) ∧ s.raw = s.ked.toJson ∧
      VersionText vs' (lit "KERI") 1 0 (lit "JSON") (s.raw.length % 2 ^ 32) ∧ s.raw.length % 2 ^ 32 < 2 ^ 24 ∧ s.said E = .ok d ∧ s.saider.code = lit "E" ∧
      (p.digestive = true → s.saider = p ∧ d = pre ∧ Prefixer.verify E H p s.ked (some true) = .ok true) ∧
      (p.digestive = false → Saider.verify E H s.saider s.ked (some true) (some true) none none none = .ok true) := by
  unfold finish at h
  obtain ⟨p, hp, h⟩ := Res.bind_eq_ok.mp h
  obtain ⟨pre, hq, h⟩ := Res.bind_eq_ok.mp h
  have hs : ∀ (o : List (Str × Value)) k x, (Value.obj o).set k x = .ok (.obj (Value.insert o k x)) := fun _ _ _ => rfl
  rw [hs, Res.ok_bind, entries_i, hq] at h
  cases hdig : p.digestive with
  | true =>
    rw [hdig, if_pos rfl, Res.ok_bind, hs, entries_d, Res.ok_bind] at h
    obtain ⟨a, hva, vs', n, hvn, hk, hr, rfl, hlt, hx, hc⟩ := ked_new h
    have hcd := digestive_iff.mp hdig
    have hnew : Prefixer.new E H (some (.obj (inceptionEntries vs [] [] kt keys nt ndigs bt wits cnfg data delpre))) none code none none none none = .ok p := by
      rcases prefixerOf_ok.mp hp with ⟨_, _, _, _, _, h0⟩ | ⟨_, h0, _⟩
      · rw [hdig] at h0; cases h0
      · exact h0
    obtain ⟨_, _, _, _, _, hmat⟩ := Prefixer.new_matter hnew
    obtain ⟨z, w⟩ := Matter.new_text_wf hmat hq
    obtain ⟨htx, hex, _⟩ := text_of_wf w hq
    rw [hex] at hx
    injection hx with hx
    refine ⟨p, pre, vs', pre, hp, hq, hk, hr, hvn, hlt, by rw [Sadder.said, ← hx, hq], hc, fun _ => ⟨hx.symm, rfl, ?_⟩, fun h0 => absurd (hdig.symm.trans h0) (by decide)⟩
    obtain ⟨o, t, hi, ht, _, _, hv⟩ := C47_digest hnew hcd
    obtain ⟨e, _⟩ := hi
    injection e with e
    subst e
    rw [hq] at ht
    injection ht with ht
    subst ht
    have hv := (hv (some true)).2 (.str pre)
    rw [entries_i, entries_d] at hv
    rw [hk]
    exact verify_vs (rest := _) hcd w hq hva hvn hv
  | false =>
    rw [hdig, if_neg (by decide)] at h
    obtain ⟨ked, hk0, h⟩ := Res.bind_eq_ok.mp h
    obtain ⟨⟨m, sad'⟩, hsd, hk1⟩ := Res.bind_eq_ok.mp hk0
    injection hk1 with hk1
    subst hk1
    obtain ⟨n, z, o, o', t, hcd, hz, ho, hin, hprep, hm, hmq, rfl⟩ := Saider.saidify_ok hsd
    injection ho with ho
    subst ho
    simp only [Option.getD_none] at hin hprep hm h
    have hdum : ∀ k, Saider.dummy k = .str (List.replicate k (ch '#')) := fun _ => rfl
    rw [hdum, entries_d] at hprep
    obtain ⟨r, hr, hrk, _⟩ := Saider.prep_versioned hprep rfl
    obtain ⟨rest, hrest⟩ := entries_cons (delpre := delpre) (d := List.replicate z.fs (ch '#')) (i := pre) (kt := kt) (nt := nt) (bt := bt) (keys := keys) (ndigs := ndigs) (wits := wits)
      (cnfg := cnfg) (data := data)
    rw [hrest] at hr
    obtain ⟨w, j, sz, e, t1, t2, -, t4, t5⟩ := sizeify_first.mp hr
    injection e with e
    subst e
    have hoo : o' = inceptionEntries (mkVs j ((Value.obj ((lit "v", Value.str vs) :: rest)).toJson.length % 2 ^ 32)) (List.replicate z.fs (ch '#')) pre kt keys nt ndigs bt wits cnfg data delpre := by
      rw [t5] at hrk
      injection hrk with hrk
      rw [hrest, ← hrk]
    subst hoo
    obtain ⟨s', h1, h2, h3, h4, h5, h6⟩ := sadder_saidified (F := F) Serder.default hsd t1
    rw [entries_d] at h
    obtain ⟨a, hva, vs', n', hvn, hk, hr', rfl, hlt, hx, hc⟩ := ked_new h
    have hss : s' = s := by
      have := (Serder.new_ok.mp h).1
      simp only [Option.getD_none, entries_d] at h1 this
      rw [this] at h1
      injection h1 with h1
      exact h1.symm
    subst hss
    exact ⟨p, pre, vs', t, hp, hq, hk, hr', hvn, hlt, by rw [Sadder.said, h3, hmq], hc, (fun h0 => absurd (hdig.symm.trans h0) (by decide)), fun _ => h6⟩

end finish

end Builder
end Cesride
