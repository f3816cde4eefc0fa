import Verif.Props.Incept
import Verif.Props.Ample

/-! # Property C108, continued: witnesses and identifiers of inception events -/

namespace Cesride
namespace Builder
open Common Spec Tholder

variable {E : Env} {F : Str → Option Str} {H : Hash} {keys : List Str} {sith : Option Value} {ndigs : Option (List Str)} {nsith : Option Value}
    {toad : Option Nat} {wits cnfg : Option (List Str)} {data : Option (List Value)} {version : Option Version} {kind code : Option Str}
    {intive : Option Bool} {delpre : Option Str} {s : Sadder}

theorem dedup_length_le : ∀ l : List Str, (dedupNeighbours l).length ≤ l.length
  | [] => Nat.le_refl _
  | [_] => Nat.le_refl _
  | a :: b :: rest => by
    have := dedup_length_le (b :: rest)
    unfold dedupNeighbours
    split
    · simp only [List.length_cons] at this ⊢; omega
    · simp only [List.length_cons] at this ⊢; omega

/-- Nothing is dropped exactly from lists without equal neighbours. -/
theorem dedup_same : ∀ l : List Str, l.length = (dedupNeighbours l).length ↔ ∀ u x y v, l = u ++ x :: y :: v → x ≠ y
  | [] => by simp [dedupNeighbours]
  | [a] => by
    simp only [dedupNeighbours, true_iff]
    intro u x y v h
    have := congrArg List.length h
    simp at this
    omega
  | a :: b :: rest => by
    have ih := dedup_same (b :: rest)
    have le := dedup_length_le (b :: rest)
    unfold dedupNeighbours
    split
    · rename_i hab
      simp only [List.length_cons] at le ⊢
      constructor
      · intro h; omega
      · intro h; exact absurd hab (h [] a b rest rfl)
    · rename_i hab
      rw [List.length_cons, List.length_cons (a := a) (as := dedupNeighbours (b :: rest)), Nat.add_right_cancel_iff, ih]
      constructor
      · intro h u x y v e
        cases u with
        | nil =>
          simp only [List.nil_append, List.cons.injEq] at e
          rw [← e.1, ← e.2.1]; exact hab
        | cons c u =>
          simp only [List.cons_append, List.cons.injEq] at e
          exact h u x y v e.2
      · intro h u x y v e
        exact h (a :: u) x y v (by rw [e]; rfl)

/-- C108. The witness threshold in the event is the one that was given (by default the one of C107) and fits the witnesses; no witness stands next to itself. -/
theorem C108_witnesses (h : incept E F H keys sith ndigs nsith toad wits cnfg data version kind code intive delpre = .ok s) (ht : ∀ m, toad = some m → m < 2 ^ 128)
    (hw : (wits.getD []).length < 2 ^ 126) :
    ∃ (n : Nat) (bt : Value), s.ked.index (lit "bt") = .ok bt ∧ (intive = some true ∧ n < 2 ^ 32 - 1 → bt = .int n) ∧
      (¬ (intive = some true ∧ n < 2 ^ 32 - 1) → ∃ x, bt = .str x ∧ CanonicalHex x n) ∧
      (∀ m, toad = some m → n = m) ∧ (toad = none → wits.getD [] ≠ [] → ample E (wits.getD []).length none none = .ok n) ∧
      (wits.getD [] = [] → n = 0) ∧ (wits.getD [] ≠ [] → 1 ≤ n ∧ n ≤ (wits.getD []).length) ∧
      ∀ u x y v, wits.getD [] = u ++ x :: y :: v → x ≠ y := by
  obtain ⟨vs, t, nt, kt, ntv, n, bt, dr, p, pre, vs', d, hp, hq, hk, -⟩ := incept_parts h
  have hi : intive.getD false = true ↔ intive = some true := by cases intive <;> simp
  have hbt := dr.bt
  simp only [hi] at hbt
  have num : ∀ m k, k < 2 ^ 128 → Number.new E (some k) none none none none none none = .ok m → Number.num m = .ok n → n = k := by
    intro m k hk h1 h2
    obtain ⟨m', h3, h4, _⟩ := num_build E hk
    rw [h1] at h3
    injection h3 with h3
    subst h3
    rw [h2] at h4
    injection h4
  obtain ⟨m, hm, hn⟩ := dr.toad
  refine ⟨n, bt, ?_, ?_, ?_, ?_, ?_, ?_, ?_, (dedup_same _).mp dr.unique⟩
  · rw [hk]; cases delpre <;> rfl
  · intro hc; rw [hbt, if_pos hc]
  · intro hc; rw [hbt, if_neg hc]; exact ⟨_, rfl, hexStr_canonical n⟩
  · rintro k rfl
    exact num m k (ht k rfl) hm hn
  · rintro rfl hne
    unfold toader at hm
    rw [if_neg hne] at hm
    obtain ⟨k, hk, hm⟩ := Res.bind_eq_ok.mp hm
    obtain ⟨k', hk', h1, h2, _⟩ := C107_agreement E (n := (wits.getD []).length) (by cases hx : wits.getD [] with | nil => exact absurd hx hne | cons => simp) hw none
    rw [hk] at hk'
    injection hk' with hk'
    subst hk'
    rw [hk, num m k (by omega) hm hn]
  · intro he
    have := dr.fits
    unfold checkToad at this
    rw [if_neg (by simp [he])] at this
    split at this
    · cases this
    · omega
  · intro hne
    have := dr.fits
    unfold checkToad at this
    rw [if_pos hne] at this
    split at this
    · cases this
    · omega

/-- The prefix that is derived has a text that is read as that prefix. -/
theorem prefix_read {ked : Value} {p : Matter} {code : Option Str} {pre : Str} (hp : prefixerOf E H keys delpre code ked = .ok p) (hq : p.qb64 E = .ok pre) :
    Prefixer.new E H none none none none none (some pre) none = .ok p := by
  have hnew : ∃ code raw qb64b qb64 qb2, Matter.new E code raw qb64b qb64 qb2 = .ok p := by
    rcases prefixerOf_ok.mp hp with ⟨_, _, _, _, h, _⟩ | ⟨_, h, _⟩ <;> exact Prefixer.new_matter h
  obtain ⟨_, _, _, _, _, hm⟩ := hnew
  obtain ⟨z, w⟩ := Matter.new_text_wf hm hq
  exact ((C54_parsed_unchecked (E := E) (H := H) p).1 pre).2.1.mpr (text_of_wf w hq).2.1

/-- C108. Delegated identifiers, and others with a digest code, are the SAID of their event (always with the code `E`), and they verify against it. -/
theorem C108_self_addressing (h : incept E F H keys sith ndigs nsith toad wits cnfg data version kind code intive delpre = .ok s)
    (hd : delpre ≠ none ∨ ∃ c ∈ digestPrefixes, code = some c) :
    ∃ i, Serder.pre s = .ok i ∧ s.said E = .ok i ∧ s.saider.code = lit "E" ∧ Prefixer.new E H none none none none none (some i) none = .ok s.saider ∧
      Prefixer.verify E H s.saider s.ked (some true) = .ok true := by
  obtain ⟨vs, t, nt, kt, ntv, n, bt, dr, p, pre, vs', d, hp, hq, hk, hr, hv, hlt, hs, hc, hself, _⟩ := incept_parts h
  obtain ⟨l1, -⟩ := look hk
  have hdig : p.digestive = true := by
    rcases prefixerOf_ok.mp hp with ⟨h1, h2, _⟩ | ⟨h1, h2, h3⟩
    · rcases hd with hd | ⟨c, _, rfl⟩
      · exact absurd h1 hd
      · subst h1; cases h2
    · rcases hd with hd | ⟨c, hcd, rfl⟩
      · exact h3 hd
      · have : codeOf delpre (some c) = some c := by cases delpre <;> rfl
        rw [this] at h2
        rw [digestive_iff, Prefixer.code_of_ked h2]; exact hcd
  obtain ⟨h1, h2, h3⟩ := hself hdig
  subst h2
  refine ⟨d, by rw [Serder.pre, l1]; rfl, hs, hc, ?_, by rw [h1]; exact h3⟩
  rw [h1]
  exact prefix_read hp hq

/-- C108. Other identifiers are the only key of their event; the SAID of the event verifies. -/
theorem C108_basic (h : incept E F H keys sith ndigs nsith toad wits cnfg data version kind code intive delpre = .ok s)
    (hd : delpre = none) (hcode : ∀ c, code = some c → c ∉ digestPrefixes) :
    ∃ i rest p, keys = [i ++ rest] ∧ Serder.pre s = .ok i ∧ Prefixer.new E H none none none none none (some i) none = .ok p ∧ p.qb64 E = .ok i ∧ p.code ∉ digestPrefixes ∧
      (∀ c, code = some c → p.code = c ∧ c ∈ transferableKeys) ∧
      Saider.verify E H s.saider s.ked (some true) (some true) none none none = .ok true ∧
      (p.code ∈ transferableKeys → Prefixer.verify E H p s.ked (some true) = .ok (decide (rest = []))) ∧
      (p.code ∈ nontransferableKeys → Prefixer.verify E H p s.ked (some true) = .ok (decide (rest = [] ∧ ndigs.getD [] = []))) := by
  subst hd
  obtain ⟨vs, t, nt, kt, ntv, n, bt, dr, p, pre, vs', d, hp, hq, hk, hr, hv, hlt, hs, hc, hself, hbas⟩ := incept_parts h
  obtain ⟨l1, -⟩ := look hk
  have hread := prefix_read hp hq
  have hcof : codeOf none code = code := rfl
  rw [hcof] at hp
  obtain ⟨rest, hkey, hdig, hcc⟩ : ∃ rest, keys = [pre ++ rest] ∧ p.digestive = false ∧ ∀ c, code = some c → p.code = c ∧ c ∈ transferableKeys := by
    rcases prefixerOf_ok.mp hp with ⟨_, rfl, key, rfl, h2, h3⟩ | ⟨h1, h2, _⟩
    · have ht : Matter.exfil key = .ok p := ((C54_parsed_unchecked (E := E) (H := H) p).1 key).2.1.mp h2
      obtain ⟨rest, hrest⟩ := Matter.exfil_text (E := E) ht hq
      exact ⟨rest, by rw [hrest], h3, fun c hc => by cases hc⟩
    · cases code with
      | none =>
        obtain ⟨c, _, _, hch, _⟩ := Prefixer.new_ked_ok.mp h2
        rcases hch with hch | ⟨_, o, x, m, e, hl, hm, _⟩
        · cases hch
        · injection e with e
          subst e
          injection hl with hl
          injection hl with hl
          subst hl
          cases hm
      | some c =>
        have hpc := Prefixer.code_of_ked h2
        have hno := hcode c rfl
        have hdig : p.digestive = false := by
          cases hx : p.digestive with
          | false => rfl
          | true => exact absurd (digestive_iff.mp hx) (by rw [hpc]; exact hno)
        obtain ⟨c', raw, c'', hch, hv', _⟩ := Prefixer.new_ked_ok.mp h2
        have e : c' = c := by
          rcases hch with hch | ⟨hch, _⟩
          · injection hch with hch; exact hch.symm
          · cases hch
        subst e
        have hmem : c' ∈ nontransferableKeys ++ transferableKeys := by
          rcases List.mem_append.mp hv' with h | h
          · exact h
          · exact absurd (Prefixer.digestPrefixes_iff.mpr h) hno
        have htr : c' ∈ transferableKeys := by
          rcases List.mem_append.mp hmem with h | h
          · exact absurd h2 (C47_list_refused (l := lit "n") (a := (ndigs.getD []).map .str) h (by simp) rfl none p)
          · exact h
        obtain ⟨o, t, rest, ⟨e, _⟩, ht, hk', _⟩ := Prefixer.basic_ok h2 (by rw [hpc]; exact hmem)
        injection e with e
        subst e
        rw [hq] at ht
        injection ht with ht
        subst ht
        have : (keys.map Value.str) = [.str (pre ++ rest)] := by
          have e : List.lookup (lit "k") (inceptionEntries vs [] [] kt keys ntv (ndigs.getD []) bt (wits.getD []) (cnfg.getD []) (data.getD []) none) = some (.arr (keys.map .str)) := rfl
          rw [e] at hk'
          injection hk' with hk'
          injection hk'
        refine ⟨rest, ?_, hdig, ?_⟩
        · match keys, this with
          | [k], h => simp only [List.map_cons, List.map_nil, List.cons.injEq, and_true, Value.str.injEq] at h; rw [h]
        · intro c hc
          injection hc with hc
          subst hc
          exact ⟨hpc, htr⟩
  have hnd : p.code ∉ digestPrefixes := fun h => by rw [digestive_iff.mpr h] at hdig; cases hdig
  have hin : Inception s.ked (inceptionEntries vs' d pre kt keys ntv (ndigs.getD []) bt (wits.getD []) (cnfg.getD []) (data.getD []) none) :=
    ⟨hk, lit "icp", rfl, by decide +kernel⟩
  refine ⟨pre, rest, p, hkey, by rw [Serder.pre, l1]; rfl, hread, hq, hnd, hcc, hbas hdig, ?_, ?_⟩
  · intro hct
    by_cases hr : rest = []
    · rw [decide_eq_true hr, C48_transferable hq hct]
      exact ⟨_, hin, by rw [hkey, hr, List.append_nil]; rfl, fun _ => rfl⟩
    · rw [decide_eq_false hr, Prefixer.verify_eq hq]
      refine ⟨_, lit "icp", hk, rfl, by decide +kernel, .inr (.inl ⟨hct, ?_⟩)⟩
      rw [hk]
      exact Prefixer.verifyTransferable_false (s := pre ++ rest) (by rw [hkey]; rfl) (by simpa using hr)
  · intro hct
    by_cases hr : rest = []
    · by_cases hn : ndigs.getD [] = []
      · rw [decide_eq_true ⟨hr, hn⟩, C48_nontransferable hq hct]
        refine ⟨_, hin, by rw [hkey, hr, List.append_nil]; rfl, fun _ => rfl, ?_, ?_⟩
        · rw [hn]
          intro a ha
          injection ha with ha
          injection ha with ha
          exact ha.symm
        · intro x hx
          injection hx with hx
          cases hx
      · rw [decide_eq_false (fun h => hn h.2), Prefixer.verify_eq hq]
        refine ⟨_, lit "icp", hk, rfl, by decide +kernel, .inl ⟨hct, ?_⟩⟩
        rw [hk]
        unfold Prefixer.verifyNontransferable
        have hm : ∀ o : List (Str × Value), (Value.obj o).toMap = .ok o := fun _ => rfl
        rw [hkey, hr, List.append_nil, hm, Res.ok_bind, hasKey_some (v := .arr [.str pre]) rfl, Sadder.index_ok (k := lit "k") (x := .arr [.str pre]).mpr ⟨_, rfl, rfl⟩]
        have h0 : (Value.arr [.str pre]).indexNat 0 = .ok (.str pre) := rfl
        have hpm : Prefixer.prefixMismatch (.obj (inceptionEntries vs' d pre kt [pre] ntv (ndigs.getD []) bt (wits.getD []) (cnfg.getD []) (data.getD []) none)) pre true = .ok false := by
          unfold Prefixer.prefixMismatch
          rw [if_pos rfl, hm, Res.ok_bind, hasKey_some (v := .str pre) rfl, Sadder.index_ok (k := lit "i") (x := .str pre).mpr ⟨_, rfl, rfl⟩]
          simp [Value.toStr]
        have hnn : Value.index (.obj (inceptionEntries vs' d pre kt [pre] ntv (ndigs.getD []) bt (wits.getD []) (cnfg.getD []) (data.getD []) none)) (lit "n") =
            .ok (.arr ((ndigs.getD []).map .str)) := rfl
        have hnk : Value.hasKey (inceptionEntries vs' d pre kt [pre] ntv (ndigs.getD []) bt (wits.getD []) (cnfg.getD []) (data.getD []) none) (lit "n") = true := rfl
        simp [Value.toVec, h0, Value.toStr, hpm, hnn, hnk, hn]
    · rw [decide_eq_false (fun h => hr h.1), Prefixer.verify_eq hq]
      refine ⟨_, lit "icp", hk, rfl, by decide +kernel, .inl ⟨hct, ?_⟩⟩
      rw [hk]
      exact Prefixer.verifyNontransferable_false (s := pre ++ rest) (by rw [hkey]; rfl) (by simpa using hr)

/-- C108. Which derivation codes lead to an event: the digest code `E`, and, without delegator and for a single key, the codes of keys that can be rotated; without
code and delegator there has to be exactly one key. -/
theorem C108_codes (h : incept E F H keys sith ndigs nsith toad wits cnfg data version kind code intive delpre = .ok s) :
    (∀ c, code = some c → c = lit "E" ∨ (delpre = none ∧ c ∈ transferableKeys ∧ keys.length = 1)) ∧ (code = none → delpre = none → keys.length = 1) := by
  have basic : delpre = none → (∀ c, code = some c → c ∉ digestPrefixes) → (∀ c, code = some c → c ∈ transferableKeys) ∧ keys.length = 1 := by
    intro h1 h2
    obtain ⟨i, rest, p, hk, _, _, _, _, hc, _⟩ := C108_basic h h1 h2
    exact ⟨fun c h => (hc c h).2, by rw [hk]; rfl⟩
  constructor
  · rintro c rfl
    have hcode : delpre ≠ none ∨ c ∈ digestPrefixes → c = lit "E" := by
      intro hd
      obtain ⟨vs, t, nt, kt, ntv, n, bt, dr, p, pre, vs', d, hp, hq, hk, hr, hv, hlt, hs, hc, hself, _⟩ := incept_parts h
      have e : codeOf delpre (some c) = some c := by cases delpre <;> rfl
      rw [e] at hp
      rcases prefixerOf_ok.mp hp with ⟨_, h2, _⟩ | ⟨_, h2, h3⟩
      · cases h2
      · have hpc := Prefixer.code_of_ked h2
        have hdig : p.digestive = true := by
          rcases hd with hd | hd
          · exact h3 hd
          · rw [digestive_iff, hpc]; exact hd
        rw [← hpc, ← (hself hdig).1]; exact hc
    by_cases hdel : delpre = none
    · by_cases hcd : c ∈ digestPrefixes
      · exact .inl (hcode (.inr hcd))
      · obtain ⟨h1, h2⟩ := basic hdel (by intro c' h; injection h with h; subst h; exact hcd)
        exact .inr ⟨hdel, h1 c rfl, h2⟩
    · exact .inl (hcode (.inl hdel))
  · rintro rfl hdel
    exact (basic hdel (by intro c h; cases h)).2

/-- What `C108_accepts` asks of thresholds and witnesses: both thresholds are readable and fit the keys, the witness threshold fits the witnesses, and no witness stands next to
itself. `kt`, `nt` and `bt` are the thresholds as they are written. -/
structure Proper (E : Env) (F : Str → Option Str) (keys : List Str) (sith : Option Value) (ndigs : List Str) (nsith : Option Value) (toad : Option Nat) (wits : List Str)
    (intive : Bool) (kt nt bt : Value) : Prop where
  signing : ∃ t, Tholder.new E F none none (some (sith.getD (.int (max 1 ((keys.length + 1) / 2) : Nat)))) = .ok t ∧ t.num ≠ .ok (some 0) ∧ t.size ≤ keys.length ∧ WrittenThreshold intive t kt
  next : ∃ t, Tholder.new E F none none (some (nsith.getD (.int ((ndigs.length + 1) / 2 : Nat)))) = .ok t ∧ t.size ≤ ndigs.length ∧ WrittenThreshold intive t nt
  unique : ∀ u x y v, wits = u ++ x :: y :: v → x ≠ y
  count : wits.length < 2 ^ 126
  toad : ∃ n : Nat, (toad = some n ∨ (toad = none ∧ wits ≠ [] ∧ ample E wits.length none none = .ok n) ∨ (toad = none ∧ wits = [] ∧ n = 0)) ∧
    (if wits = [] then n = 0 else 1 ≤ n ∧ n ≤ wits.length) ∧ (if intive ∧ n < 2 ^ 32 - 1 then bt = .int n else ∃ x, bt = .str x ∧ CanonicalHex x n)

theorem proper_drafted {ndigs wits : List Str} {kt ntv bt : Value} {i : Bool} (h : Proper E F keys sith ndigs nsith toad wits i kt ntv bt)
    (hv : version.getD currentVersion = currentVersion) (hk : kind.getD (lit "JSON") = lit "JSON") :
    ∃ t nt n, Drafted E F keys sith ndigs nsith toad wits version kind i (lit "KERI10JSON000000_") t nt kt ntv n bt := by
  obtain ⟨t, t1, t2, t3, t4⟩ := h.signing
  obtain ⟨nt, u1, u2, u3⟩ := h.next
  obtain ⟨n, htoad, hfits, hbt⟩ := h.toad
  have hz : (0 : Nat) ⊔ ((ndigs.length + 1) / 2) = (ndigs.length + 1) / 2 := by omega
  have hn : n < 2 ^ 128 := by
    have h2 := h.count
    split at hfits <;> omega
  obtain ⟨m, m1, m2, m3⟩ := num_build E hn
  have u1' : Tholder.new E F none none (some (nsith.getD (halfOf ndigs.length 0))) = .ok nt := by unfold halfOf; rw [hz]; exact u1
  refine ⟨t, nt, n, ?_, t1, t2, t3, u1', u2, (dedup_same _).mpr h.unique, ⟨m, ?_, m2⟩, ?_, (shown_iff t1).mpr t4, (shown_iff u1).mpr u3, ?_⟩
  · rw [hv, hk]; decide +kernel
  · rcases htoad with rfl | ⟨rfl, h1, h2⟩ | ⟨rfl, h1, rfl⟩
    · exact m1
    · unfold toader; rw [if_neg h1, h2, Res.ok_bind, m1]
    · unfold toader; rw [if_pos h1, m1]
  · unfold checkToad
    by_cases hw : wits = []
    · rw [if_pos hw] at hfits
      rw [if_neg (by simp [hw]), if_neg (by omega)]
    · rw [if_neg hw] at hfits
      rw [if_pos hw, if_neg (by omega)]
  · split at hbt
    · rename_i hc; rw [if_pos hc]; exact hbt
    · rename_i hc
      obtain ⟨x, rfl, hx⟩ := hbt
      rw [if_neg hc, canonicalHex_unique hx (hexStr_canonical n)]

/-- C108. With proper thresholds and witnesses there is an event for every list of keys, with and without delegator, when the code is `E` (which delegated
identifiers have by default), as long as the event stays 100 bytes below 16 MiB. -/
theorem C108_accepts {kt nt bt : Value} (hp : Proper E F keys sith (ndigs.getD []) nsith toad (wits.getD []) (intive.getD false) kt nt bt) (hv : version.getD currentVersion = currentVersion)
    (hk : kind.getD (lit "JSON") = lit "JSON") (hc : code = some (lit "E") ∨ (code = none ∧ delpre ≠ none))
    (hsize : ∀ k ≤ 88, (Value.obj (inceptionEntries (lit "KERI10JSON000000_") (List.replicate k (ch '#')) (List.replicate k (ch '#')) kt keys nt (ndigs.getD [])
      bt (wits.getD []) (cnfg.getD []) (data.getD []) delpre)).toJson.length < 2 ^ 24) :
    ∃ s, incept E F H keys sith ndigs nsith toad wits cnfg data version kind code intive delpre = .ok s ∧ s.raw.length < 2 ^ 24 := by
  obtain ⟨t, t', n, dr⟩ := proper_drafted hp hv hk
  have hco : codeOf delpre code = some (lit "E") := by
    rcases hc with rfl | ⟨rfl, h⟩
    · cases delpre <;> rfl
    · cases delpre with
      | none => exact absurd rfl h
      | some => rfl
  have hvt : VersionText (lit "KERI10JSON000000_") (lit "KERI") 1 0 (lit "JSON") 0 := sample_text (by decide +kernel)
  obtain ⟨rest, hrest⟩ := entries_cons (delpre := delpre) (d := []) (i := []) (kt := kt) (nt := nt) (bt := bt) (keys := keys) (ndigs := ndigs.getD []) (wits := wits.getD [])
      (cnfg := cnfg.getD []) (data := data.getD [])
  have hins : ∀ x y, (lit "v", Value.str (lit "KERI10JSON000000_")) :: Value.insert (Value.insert rest (lit "i") (.str x)) (lit "d") (.str y) =
      inceptionEntries (lit "KERI10JSON000000_") y x kt keys nt (ndigs.getD []) bt (wits.getD []) (cnfg.getD []) (data.getD []) delpre := by
    intro x y
    rw [← insert_first (by decide +kernel), ← insert_first (by decide +kernel), ← hrest, entries_i, entries_d]
  obtain ⟨p, hpn, hpc⟩ := C47_digest_derives E H (o := rest) (code := lit "E") (vs := lit "KERI10JSON000000_") (i := lit "KERI") (m := 0)
    ⟨rfl, if delpre.isNone then lit "icp" else lit "dip", by rw [← hrest]; rfl, by split <;> decide +kernel⟩ (by decide +kernel) hvt (by decide +kernel) (by
      intro k hk
      rw [hins]
      exact hsize k hk)
  rw [← hrest] at hpn
  obtain ⟨_, pre, _, hq, _⟩ := C47_digest hpn (by rw [hpc]; decide +kernel)
  obtain ⟨_, _, _, _, _, hm⟩ := Prefixer.new_matter hpn
  obtain ⟨z, w⟩ := Matter.new_text_wf hm hq
  obtain ⟨htx, hex, hpl⟩ := text_of_wf w hq
  have hlen : pre.length = 44 := by
    have hz := w.szg
    rw [hpc, show Matter.sizage (lit "E") = .ok ⟨1, 0, 0, 44⟩ by decide +kernel] at hz
    injection hz with hz
    subst hz
    rw [htx, w.text_length]
    rfl
  have hdig : p.digestive = true := digestive_iff.mpr (by rw [hpc]; decide +kernel)
  have hpo : prefixerOf E H keys delpre (some (lit "E"))
      (.obj (inceptionEntries (lit "KERI10JSON000000_") [] [] kt keys nt (ndigs.getD []) bt (wits.getD []) (cnfg.getD []) (data.getD []) delpre)) = .ok p :=
    prefixerOf_ok.mpr (.inr ⟨(fun h => by cases h.2.1), hpn, fun _ => hdig⟩)
  have hlt : (Value.obj (inceptionEntries (lit "KERI10JSON000000_") pre pre kt keys nt (ndigs.getD []) bt (wits.getD []) (cnfg.getD []) (data.getD []) delpre)).toJson.length < 2 ^ 24 := by
    have hdum : ∀ c ∈ List.replicate 44 (ch '#'), escapeByte c = [c] := by decide +kernel
    rw [entries_length hvt hvt hpl hpl hdum hdum (by rw [hlen]; rfl) (by rw [hlen]; rfl)]
    exact hsize 44 (by decide)
  have hsz := fun r => (sizeify_first (rest := Value.insert (Value.insert rest (lit "i") (.str pre)) (lit "d") (.str pre)) (x := .str (lit "KERI10JSON000000_")) (kind := none) (r := r)).mpr
  obtain ⟨ms, hms⟩ : ∃ n, (p.code, n) ∈ digestSizes := Prefixer.digestCodes_iff.mp (Prefixer.digestPrefixes_iff.mp (by rw [hpc]; decide +kernel))
  have hset : ∀ (o : List (Str × Value)) k x, (Value.obj o).set k x = .ok (.obj (Value.insert o k x)) := fun _ _ _ => rfl
  suffices hs : ∃ s, Serder.new E F H none none none
      (some (.obj (inceptionEntries (lit "KERI10JSON000000_") pre pre kt keys nt (ndigs.getD []) bt (wits.getD []) (cnfg.getD []) (data.getD []) delpre))) none = .ok s by
    obtain ⟨s, hs⟩ := hs
    have hfin : finish E F H keys delpre (codeOf delpre code)
        (.obj (inceptionEntries (lit "KERI10JSON000000_") [] [] kt keys nt (ndigs.getD []) bt (wits.getD []) (cnfg.getD []) (data.getD []) delpre)) = .ok s := by
      unfold finish
      rw [hco, hpo, Res.ok_bind, hq, Res.ok_bind, hset, Res.ok_bind, entries_i, hdig, if_pos rfl, Res.ok_bind, hset, entries_d, Res.ok_bind]
      exact hs
    refine ⟨s, incept_ok.mpr ⟨_, _, _, _, _, _, _, dr, hfin⟩, ?_⟩
    obtain ⟨p', pre', vs', d', hp', hq', hk', hr', hvt', _, _, _, hself, _⟩ := finish_ok hfin
    rw [hco, hpo] at hp'
    injection hp' with hp'
    subst hp'
    rw [hq] at hq'
    injection hq' with hq'
    subst hq'
    rw [hr', hk', (hself hdig).2.1, entries_length hvt' hvt hpl hpl hpl hpl rfl rfl]
    exact hlt
  rw [← hins]
  refine ⟨_, Serder.new_ok.mpr ⟨Sadder.new_ked_ok.mpr ⟨_, p, hsz _ ⟨_, lit "KERI", 0, rfl, hvt, by decide +kernel, rfl, ?_, rfl⟩,
    Sadder.saiderOf_ok.mpr ⟨_, pre, ms, rfl, ?_, hex, hms⟩, hpc, rfl⟩, rfl⟩⟩
  · rw [hins, Nat.mod_eq_of_lt (by omega)]; exact hlt
  · rw [← insert_first (by decide +kernel)]
    exact lookup_insert_self _ _ _

/-- C108. Without delegator there is an event for every single key, without code or, for keys that can be rotated, with the code of the key. -/
theorem C108_accepts_key {kt nt bt : Value} {key : Str} {p : Matter} (hp : Proper E F [key] sith (ndigs.getD []) nsith toad (wits.getD []) (intive.getD false) kt nt bt)
    (hv : version.getD currentVersion = currentVersion) (hk : kind.getD (lit "JSON") = lit "JSON")
    (hcode : code = none ∨ (code = some p.code ∧ p.code ∈ transferableKeys)) (hkey : Prefixer.new E H none none none none none (some key) none = .ok p) (hq : p.qb64 E = .ok key) (hnd : p.code ∉ digestPrefixes)
    (hsize : ∀ k ≤ 88, (Value.obj (inceptionEntries (lit "KERI10JSON000000_") (List.replicate k (ch '#')) key kt [key] nt (ndigs.getD [])
      bt (wits.getD []) (cnfg.getD []) (data.getD []) none)).toJson.length < 2 ^ 24) :
    ∃ s, incept E F H [key] sith ndigs nsith toad wits cnfg data version kind code intive none = .ok s ∧ Serder.pre s = .ok key := by
  obtain ⟨t, t', n, dr⟩ := proper_drafted hp hv hk
  have hvt : VersionText (lit "KERI10JSON000000_") (lit "KERI") 1 0 (lit "JSON") 0 := sample_text (by decide +kernel)
  obtain ⟨rest, hrest⟩ := entries_cons (delpre := none) (d := []) (i := key) (kt := kt) (nt := nt) (bt := bt) (keys := [key]) (ndigs := ndigs.getD []) (wits := wits.getD [])
      (cnfg := cnfg.getD []) (data := data.getD [])
  have hdig : p.digestive = false := by
    cases h : p.digestive with
    | false => rfl
    | true => exact absurd (digestive_iff.mp h) hnd
  have hpo : prefixerOf E H [key] none (codeOf none code)
      (.obj (inceptionEntries (lit "KERI10JSON000000_") [] [] kt [key] nt (ndigs.getD []) bt (wits.getD []) (cnfg.getD []) (data.getD []) none)) = .ok p := by
    rcases hcode with rfl | ⟨rfl, ht⟩
    · exact prefixerOf_ok.mpr (.inl ⟨rfl, rfl, key, rfl, hkey, hdig⟩)
    · refine prefixerOf_ok.mpr (.inr ⟨(fun h => by cases h.2.1), ?_, fun h => absurd rfl h⟩)
      refine C47_basic_derives E H (t := key) ⟨rfl, lit "icp", rfl, by decide +kernel⟩ (((C54_parsed_unchecked (E := E) (H := H) p).1 key).2.1.mp hkey) hq
        (List.mem_append_right _ ht) rfl fun hn => ?_
      exact absurd ht (by have : ∀ c ∈ nontransferableKeys, c ∉ transferableKeys := by decide +kernel
                          exact this _ hn)
  obtain ⟨m, sad', hsd⟩ := C43_succeeds_versioned E H (o := rest) (code := lit "E") (label := lit "d") (vs := lit "KERI10JSON000000_") (i := lit "KERI") (m := 0) (n := 32) none
    (by decide +kernel) (by
      have : lit "d" ∈ ((lit "v", Value.str (lit "KERI10JSON000000_")) :: rest).map Prod.fst := by rw [← hrest]; simp [inceptionEntries]
      simp only [List.map_cons, List.mem_cons] at this
      exact this.resolve_left (by decide +kernel)) (by decide +kernel) hvt (by decide +kernel) (by
      intro k hk
      rw [← insert_first (by decide +kernel), ← hrest, entries_d]
      exact hsize k hk)
  have hsd' : Saider.saidify E H (.obj ((lit "v", .str (lit "KERI10JSON000000_")) :: rest)) none none none none = .ok (m, sad') := hsd
  obtain ⟨s, hs, _⟩ := C45_saidified_serder (F := F) hsd' hvt
  have hset : ∀ (o : List (Str × Value)) k x, (Value.obj o).set k x = .ok (.obj (Value.insert o k x)) := fun _ _ _ => rfl
  have hfin : finish E F H [key] none (codeOf none code)
      (.obj (inceptionEntries (lit "KERI10JSON000000_") [] [] kt [key] nt (ndigs.getD []) bt (wits.getD []) (cnfg.getD []) (data.getD []) none)) = .ok s := by
    unfold finish
    rw [hpo, Res.ok_bind, hq, Res.ok_bind, hset, Res.ok_bind, entries_i, hdig, if_neg (by decide), hrest, hsd', Res.ok_bind, Res.ok_bind]
    exact hs
  refine ⟨s, incept_ok.mpr ⟨_, _, _, _, _, _, _, dr, hfin⟩, ?_⟩
  obtain ⟨p', pre, vs', d, hp', hq', hk', -⟩ := finish_ok hfin
  rw [hpo] at hp'
  injection hp' with hp'
  subst hp'
  rw [hq] at hq'
  injection hq' with hq'
  subst hq'
  rw [Serder.pre, (look hk').1]
  rfl

end Builder
end Cesride
