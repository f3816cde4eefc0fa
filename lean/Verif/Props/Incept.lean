import Verif.Lemmas.Incept
import Verif.Props.Typed

/-!
# Property C108: inception events

What `incept` builds. The fields of the event are stated by `Spec.inceptionEntries`; everything else by the accessors and the checks of the library.
-/

namespace Cesride
namespace Builder
open Common Spec Tholder

variable {E : Env} {F : Str → Option Str} {H : Hash} {keys : List Str} {sith : Option Value} {ndigs : Option (List Str)} {nsith : Option Value}
    {toad : Option Nat} {wits cnfg : Option (List Str)} {data : Option (List Value)} {version : Option Version} {kind code : Option Str}
    {intive : Option Bool} {delpre : Option Str} {s : Sadder}

theorem incept_parts (h : incept E F H keys sith ndigs nsith toad wits cnfg data version kind code intive delpre = .ok s) :
    ∃ vs t nt kt ntv n bt, Drafted E F keys sith (ndigs.getD []) nsith toad (wits.getD []) version kind (intive.getD false) vs t nt kt ntv n bt ∧
      ∃ p pre vs' d, prefixerOf E H keys delpre (codeOf delpre code)
          (.obj (inceptionEntries vs [] [] kt keys ntv (ndigs.getD []) bt (wits.getD []) (cnfg.getD []) (data.getD []) delpre)) = .ok p ∧ p.qb64 E = .ok pre ∧
        s.ked = .obj (inceptionEntries vs' d pre kt keys ntv (ndigs.getD []) bt (wits.getD []) (cnfg.getD []) (data.getD []) delpre) ∧ s.raw = s.ked.toJson ∧
        VersionText vs' (lit "KERI") 1 0 (lit "JSON") (s.raw.length % 2 ^ 32) ∧ s.raw.length % 2 ^ 32 < 2 ^ 24 ∧ s.said E = .ok d ∧ s.saider.code = lit "E" ∧
        (p.digestive = true → s.saider = p ∧ d = pre ∧ Prefixer.verify E H p s.ked (some true) = .ok true) ∧
        (p.digestive = false → Saider.verify E H s.saider s.ked (some true) (some true) none none none = .ok true) := by
  obtain ⟨vs, t, nt, kt, ntv, n, bt, d, h⟩ := incept_ok.mp h
  exact ⟨vs, t, nt, kt, ntv, n, bt, d, finish_ok h⟩

section lookups
variable {vs d i : Str} {kt nt bt : Value} {keys ndigs wits cnfg : List Str} {data : List Value} {ked : Value}

theorem look (hk : ked = .obj (inceptionEntries vs d i kt keys nt ndigs bt wits cnfg data delpre)) :
    ked.index (lit "i") = .ok (.str i) ∧ ked.index (lit "s") = .ok (.str (lit "0")) ∧ ked.index (lit "kt") = .ok kt ∧ ked.index (lit "nt") = .ok nt ∧
      ked.index (lit "t") = .ok (.str (if delpre.isNone then lit "icp" else lit "dip")) := by
  subst hk
  cases delpre <;> exact ⟨rfl, rfl, rfl, rfl, rfl⟩

end lookups

/-- C108. The event has exactly the fields of an inception event, in the usual order and with the lists that were given, the sequence number 0, and a version
string that tells its size; its bytes are its serialization; the accessors show identifier and SAID. -/
theorem C108_event (h : incept E F H keys sith ndigs nsith toad wits cnfg data version kind code intive delpre = .ok s) :
    ∃ vs d i kt nt bt, s.ked = .obj (inceptionEntries vs d i kt keys nt (ndigs.getD []) bt (wits.getD []) (cnfg.getD []) (data.getD []) delpre) ∧
      s.raw = s.ked.toJson ∧ VersionText vs (lit "KERI") 1 0 (lit "JSON") (s.raw.length % 2 ^ 32) ∧ s.raw.length % 2 ^ 32 < 2 ^ 24 ∧
      Serder.pre s = .ok i ∧ s.said E = .ok d ∧ s.saider.code = lit "E" ∧ Serder.sn E s = .ok 0 ∧ Serder.est s = .ok true := by
  obtain ⟨vs, t, nt, kt, ntv, n, bt, dr, p, pre, vs', d, hp, hq, hk, hr, hv, hlt, hs, hc, _, _⟩ := incept_parts h
  obtain ⟨l1, l2, _, _, l5⟩ := look hk
  obtain ⟨z, hz, hz1, _⟩ := num_build E (n := 0) (by omega)
  have hz0 : Number.new E none (some (lit "0")) none none none none none = .ok z := by
    have := (C28_number_hex E (lit "0")).2.1 0 (hexNumeral_of_canonical (by rw [← show hexStr 0 = lit "0" by decide +kernel]; exact hexStr_canonical 0)) (by omega)
    exact this.trans hz
  refine ⟨vs', d, pre, kt, ntv, bt, hk, hr, hv, hlt, ?_, hs, hc, ?_, ?_⟩
  · rw [Serder.pre, l1]; rfl
  · rw [Serder.sn, Serder.sner, l2, Res.ok_bind]
    show (do let m ← Number.new E none (some (lit "0")) none none none none none; Number.num m) = _
    rw [hz0, Res.ok_bind, hz1]
  · rw [Serder.est, l5, Res.ok_bind]
    cases delpre <;> rfl

theorem clausesOf_length {oc : Bool} : ∀ {a : List Value} {cs : List (List R32)}, clausesOf oc a = .ok cs → cs.length = a.length
  | [], cs, h => by simp only [clausesOf, Res.ok.injEq] at h; rw [← h]; rfl
  | v :: a, cs, h => by
    simp only [clausesOf] at h
    obtain ⟨x, _, h⟩ := Res.bind_eq_ok.mp h
    obtain ⟨c, _, h⟩ := Res.bind_eq_ok.mp h
    obtain ⟨cs', h', h⟩ := Res.bind_eq_ok.mp h
    injection h with h
    subst h
    simp [clausesOf_length h']

theorem weighted_nonempty {x : Value} {a : List Value} {t : Tholder} (hx : x = .arr a) (ha : a ≠ []) (h : processWeighted E x = .ok t) : t.thold ≠ .arr [] := by
  subst hx
  unfold processWeighted at h
  obtain ⟨ws, hw, h⟩ := Res.bind_eq_ok.mp h
  obtain ⟨b, _, h⟩ := Res.bind_eq_ok.mp h
  injection h with h
  subst h
  unfold valuesToRationals at hw
  obtain ⟨a', ha', hw⟩ := Res.bind_eq_ok.mp hw
  obtain ⟨cs, hcs, hw⟩ := Res.bind_eq_ok.mp hw
  obtain ⟨_, _, hw⟩ := Res.bind_eq_ok.mp hw
  injection hw with hw
  subst hw
  injection ha' with ha'
  subst ha'
  have := clausesOf_length hcs
  intro he
  injection he with he
  rw [List.map_eq_nil_iff] at he
  subst he
  exact ha (List.length_eq_zero_iff.mp this.symm)

/-- A threshold read from an event is never the empty list. -/
theorem sith_nonempty {v : Value} {t : Tholder} (h : Tholder.new E F none none (some v) = .ok t) : t.thold ≠ .arr [] := by
  have h : processSith E F v = .ok t := by rw [← ofSith_eq]; exact h
  have harr : ∀ {w : Value}, processSithArray E w = .ok t → t.thold ≠ .arr [] := by
    intro w hw
    unfold processSithArray at hw
    obtain ⟨a, ha, hw⟩ := Res.bind_eq_ok.mp hw
    split at hw
    · cases hw
    · rename_i hne
      obtain ⟨_, _, hw⟩ := Res.bind_eq_ok.mp hw
      obtain ⟨_, _, hw⟩ := Res.bind_eq_ok.mp hw
      cases w <;> simp only [Value.toVec, reduceCtorEq] at ha
      injection ha with ha
      subst ha
      split at hw
      · exact weighted_nonempty rfl hne hw
      · exact weighted_nonempty rfl (by simp) hw
  have hnum : ∀ {n : Int}, processUnweighted E n = .ok t → t.thold ≠ .arr [] := by
    intro n hn
    unfold processUnweighted at hn
    split at hn
    · cases hn
    split at hn
    · cases hn
    obtain ⟨_, _, hn⟩ := Res.bind_eq_ok.mp hn
    injection hn with hn
    subst hn
    intro he
    cases he
  unfold processSith at h
  split at h
  · exact hnum h
  · split at h
    · obtain ⟨_, _, h⟩ := Res.bind_eq_ok.mp h
      exact harr h
    · obtain ⟨_, _, h⟩ := Res.bind_eq_ok.mp h
      exact hnum h
  · exact harr h

/-- What the event shows is read as the threshold that was meant. -/
theorem shown_read {v kt : Value} {t : Tholder} {b : Bool} (h : Tholder.new E F none none (some v) = .ok t) (hs : shownThreshold b t = .ok kt) :
    Tholder.new E F none none (some kt) = .ok t := by
  obtain ⟨x, hx, hy⟩ := C37_sith h (sith_nonempty h)
  unfold shownThreshold at hs
  obtain ⟨n, hn, hs⟩ := Res.bind_eq_ok.mp hs
  split at hs
  · rename_i k
    split at hs
    · injection hs with hs
      subst hs
      rcases C101_shown h with ⟨m, _, h1, h2, _⟩ | ⟨_, _, h2, _⟩
      · rw [h2] at hn
        injection hn with hn
        injection hn with hn
        subst hn
        have := C37_thold h
        rw [h1] at this
        exact ((C34_accepted E F m).1).trans this
      · rw [h2] at hn
        cases hn
    · rw [hx] at hs
      injection hs with hs
      subst hs
      exact hy
  · rw [hx] at hs
    injection hs with hs
    subst hs
    exact hy

/-- All positions of an accepted threshold that is not zero satisfy it. -/
theorem full_set {v : Value} {t : Tholder} (h : Tholder.new E F none none (some v) = .ok t) (h0 : t.num ≠ .ok (some 0)) :
    1 ≤ t.size ∧ t.satisfy E (List.range t.size) = .ok true := by
  rcases C101_shown h with ⟨m, _, h1, h2, _, h3⟩ | ⟨cs, h1, h2, _, h3⟩
  · have hm : m ≠ 0 := fun e => h0 (by rw [h2, e])
    refine ⟨by omega, ?_⟩
    rw [C34_unweighted_decision h h2, List.length_range, h3]
    simp; omega
  · refine ⟨?_, C36_full_set h h1 E (.inl rfl) (by intro i; rw [List.mem_range, h3])⟩
    have hne := sith_nonempty h
    obtain ⟨cs', hcs', hpos⟩ := C35_weights h h2
    obtain ⟨a, ha, hc⟩ := h1
    cases cs with
    | nil =>
      cases a with
      | nil => exact absurd ha hne
      | cons x a => cases x <;> simp [ClausesTexts] at hc
    | cons c cs =>
      have hw := tholder_cases h ⟨a, ha, hc⟩
      have := (clauses_nonempty hw c (by simp)).2
      have : 1 ≤ c.length := by cases c <;> simp_all
      rw [h3]
      simp [positions]
      omega

theorem half_num {E : Env} {F : Str → Option Str} {k least : Nat} {t : Tholder} (hl : least ≤ 1) (h : Tholder.new E F none none (some (halfOf k least)) = .ok t) :
    t.num = .ok (some (max least ((k + 1) / 2))) := by
  have e : ofSith E F (.int (max least ((k + 1) / 2) : Nat)) = .ok t := h
  obtain ⟨h1, h2, h3⟩ := C34_accepted E F (max least ((k + 1) / 2) : Nat)
  rw [h1] at e
  by_cases hlt : max least ((k + 1) / 2) < 2 ^ 32
  · obtain ⟨t', h4, h5⟩ := h2 (by omega)
    rw [e] at h4
    injection h4 with h4
    subst h4
    rw [h5, Int.toNat_natCast]
  · exact absurd e (by
      obtain ⟨e', he⟩ := h3 (by omega)
      rw [he]; simp)

theorem thold_at {label : Str} {v : Value} {t : Tholder} (h1 : s.ked.index label = .ok v) (h2 : Tholder.new E F none none (some v) = .ok t) :
    Serder.tholderAt label E F s = .ok (some t) := by
  unfold Serder.tholderAt
  obtain ⟨o, e, hl⟩ := Sadder.index_ok.mp h1
  have hm : s.ked.toMap = .ok o := by rw [e]; rfl
  rw [hm, Res.ok_bind, if_pos (hasKey_some hl), h1, Res.ok_bind, h2, Res.ok_bind]

/-- C108. The thresholds of the event are read as those that were given (by default half of the keys, rounded up), the signing threshold can be met by the keys of
the event, and there are as many digests of next keys as the next threshold needs. -/
theorem C108_thresholds (h : incept E F H keys sith ndigs nsith toad wits cnfg data version kind code intive delpre = .ok s) :
    ∃ t nt, Serder.tholder E F s = .ok (some t) ∧ Serder.ntholder E F s = .ok (some nt) ∧
      (∀ v, sith = some v → Tholder.new E F none none (some v) = .ok t) ∧ (sith = none → t.num = .ok (some ((keys.length + 1) / 2))) ∧
      (∀ v, nsith = some v → Tholder.new E F none none (some v) = .ok nt) ∧ (nsith = none → nt.num = .ok (some (((ndigs.getD []).length + 1) / 2))) ∧
      1 ≤ t.size ∧ t.size ≤ keys.length ∧ t.satisfy E (List.range t.size) = .ok true ∧ nt.size ≤ (ndigs.getD []).length := by
  obtain ⟨vs, t, nt, kt, ntv, n, bt, dr, p, pre, vs', d, hp, hq, hk, hr, hv, hlt, hs, hc, _, _⟩ := incept_parts h
  obtain ⟨_, _, l3, l4, _⟩ := look hk
  obtain ⟨f1, f2⟩ := full_set dr.thold dr.pos
  refine ⟨t, nt, thold_at l3 (shown_read dr.thold dr.kt), thold_at l4 (shown_read dr.nthold dr.nt), ?_, ?_, ?_, ?_, f1, dr.size, f2, dr.nsize⟩
  · rintro v rfl; exact dr.thold
  · rintro rfl
    have hk1 := dr.size
    rw [half_num (by omega) dr.thold]
    congr 2
    omega
  · rintro v rfl; exact dr.nthold
  · rintro rfl
    rw [half_num (by omega) dr.nthold]
    congr 2

/-- How a threshold is written in an event: as a number if numbers are wanted and the threshold is a number below 2^32 - 1, otherwise in the notation of C37. -/
def WrittenThreshold (intive : Bool) (t : Tholder) (v : Value) : Prop :=
  (∃ n, intive = true ∧ t.num = .ok (some n) ∧ n < 2 ^ 32 - 1 ∧ v = .int n) ∨ ((∀ n, intive = true → t.num = .ok (some n) → 2 ^ 32 - 1 ≤ n) ∧ t.sith = .ok v)

theorem shown_iff {v kt : Value} {t : Tholder} {b : Bool} (h : Tholder.new E F none none (some v) = .ok t) : shownThreshold b t = .ok kt ↔ WrittenThreshold b t kt := by
  unfold shownThreshold WrittenThreshold
  rcases C101_shown h with ⟨m, _, _, h3, _⟩ | ⟨_, _, h3, _⟩ <;> rw [h3, Res.ok_bind]
  · by_cases hc : b = true ∧ m < 2 ^ 32 - 1
    · simp only [hc, and_self, if_true, Res.ok.injEq, Option.some.injEq]
      constructor
      · rintro rfl; exact .inl ⟨m, trivial, rfl, hc.2, rfl⟩
      · rintro (⟨n, _, rfl, _, rfl⟩ | ⟨h, _⟩)
        · rfl
        · have := h m trivial rfl; omega
    · simp only [hc, if_false, Res.ok.injEq, Option.some.injEq]
      constructor
      · intro h; exact .inr ⟨by rintro n rfl rfl; simp only [true_and] at hc; omega, h⟩
      · rintro (⟨n, h1, rfl, h2, _⟩ | ⟨_, h⟩)
        · exact absurd ⟨h1, h2⟩ hc
        · exact h
  · simp

/-- C108. The thresholds are written as numbers if that was wanted and they are numbers below 2^32 - 1, and otherwise in the notation of C37. -/
theorem C108_written (h : incept E F H keys sith ndigs nsith toad wits cnfg data version kind code intive delpre = .ok s) :
    ∃ t nt kt ntv, Serder.tholder E F s = .ok (some t) ∧ Serder.ntholder E F s = .ok (some nt) ∧ s.ked.index (lit "kt") = .ok kt ∧ s.ked.index (lit "nt") = .ok ntv ∧
      WrittenThreshold (intive.getD false) t kt ∧ WrittenThreshold (intive.getD false) nt ntv := by
  obtain ⟨vs, t, nt, kt, ntv, n, bt, dr, p, pre, vs', d, hp, hq, hk, hr, hv, hlt, hs, hc, _, _⟩ := incept_parts h
  obtain ⟨_, _, l3, l4, _⟩ := look hk
  exact ⟨t, nt, kt, ntv, thold_at l3 (shown_read dr.thold dr.kt), thold_at l4 (shown_read dr.nthold dr.nt), l3, l4, (shown_iff dr.thold).mp dr.kt, (shown_iff dr.nthold).mp dr.nt⟩

end Builder
end Cesride
